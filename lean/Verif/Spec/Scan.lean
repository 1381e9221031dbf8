/-
Specification: a hierarchy of buses, and what it means that its buses are numbered.
-/
import Verif.Model.Scan
namespace Pcie.Spec
open Pcie
variable {σ : Type}

/-- The functions on the bus itself: device number, function number, function. -/
def top : Phys σ → List (Nat × Nat × Fn σ)
  | .nil => []
  | .ep d fn f rest => (d, fn, .ep f) :: top rest
  | .br d fn dsp f _ rest => (d, fn, .br dsp f) :: top rest

/-- The first dword of the configuration space: device ID and vendor ID. -/
def idDword : Fn σ → Nat
  | .ep f => f.vendorId &&& 0xffff ||| (f.deviceId &&& 0xffff) <<< 16
  | .br _ f => f.vendorId &&& 0xffff ||| (f.deviceId &&& 0xffff) <<< 16

/-- The multifunction bit of the header type. -/
def multi : Fn σ → Bool
  | .ep f => f.multifunction
  | .br _ f => f.multifunction

/-- The header type tells endpoints (not 1 or 2) and bridges (1 or 2) apart. -/
def HeaderOk : Fn σ → Prop
  | .ep f => ¬ (f.headerLayout % 128 = 1 ∨ f.headerLayout % 128 = 2)
  | .br _ f => f.headerLayout % 128 = 1 ∨ f.headerLayout % 128 = 2

/-- Numbers in order: first by device, then by function. -/
def Before (a b : Nat × Nat × Fn σ) : Prop := a.1 < b.1 ∨ a.1 = b.1 ∧ a.2.1 < b.2.1

/-- The functions on one bus are as the PCI specification requires: different functions have different numbers (they are
listed in order), each device has a function 0 with a vendor ID that is not one of the reserved values, no function has a
reserved all-ones ID, a device with several functions says so, device 0 of bus 0 is the host bridge, and behind a
downstream port there is only one device. -/
structure BusOk (root one : Bool) (es : List (Nat × Nat × Fn σ)) : Prop where
  sorted : es.Pairwise Before
  range : ∀ e ∈ es, e.1 < 32 ∧ e.2.1 < 8
  header : ∀ e ∈ es, HeaderOk e.2.2
  present : ∀ e ∈ es, idDword e.2.2 ≠ 0xffffffff
  zero : ∀ e ∈ es, ∃ f, (e.1, 0, f) ∈ es
  vendor : ∀ e ∈ es, e.2.1 = 0 → idDword e.2.2 ≠ 0 ∧ idDword e.2.2 ≠ 0xffff0000 ∧ idDword e.2.2 ≠ 0x0000ffff ∧
    idDword e.2.2 ≠ 0xffff0001
  multi : ∀ a ∈ es, ∀ b ∈ es, a.1 = b.1 → a.2.1 < b.2.1 → multi a.2.2 = true
  host : root = true → ∀ e ∈ es, e.1 ≠ 0
  single : one = true → ∀ a ∈ es, ∀ b ∈ es, a.1 = b.1

/-- All buses behind the bridges of the bus are like that. -/
def BusesOk : Phys σ → Prop
  | .nil => True
  | .ep _ _ _ rest => BusesOk rest
  | .br _ _ dsp _ child rest => BusOk false dsp (top child) ∧ BusesOk child ∧ BusesOk rest

/-- After reset no bridge has bus numbers (bridge.py:44-48). -/
def NoNumbers : Phys σ → Prop
  | .nil => True
  | .ep _ _ _ rest => NoNumbers rest
  | .br _ _ _ f child rest => f.subBus = 0 ∧ NoNumbers child ∧ NoNumbers rest

/-- The number of bridges, and how deep they are nested. -/
def bridges : Phys σ → Nat
  | .nil => 0
  | .ep _ _ _ rest => bridges rest
  | .br _ _ _ _ child rest => 1 + bridges child + bridges rest
@[inherit_doc bridges] def depth : Phys σ → Nat
  | .nil => 0
  | .ep _ _ _ rest => depth rest
  | .br _ _ _ _ child rest => max (1 + depth child) (depth rest)

/-- The hierarchy without its bus numbers: the same functions, with the same contents of all other registers. -/
def unnumbered : Phys σ → Phys σ
  | .nil => .nil
  | .ep d fn f rest => .ep d fn f (unnumbered rest)
  | .br d fn dsp f child rest =>
    .br d fn dsp { f with priBus := 0, secBus := 0, subBus := 0 } (unnumbered child) (unnumbered rest)

/-- The bridges directly on a bus, with the bus behind each. -/
def brsOf : Phys σ → List (Br σ × Phys σ)
  | .nil => []
  | .ep _ _ _ rest => brsOf rest
  | .br _ _ _ f child rest => (f, child) :: brsOf rest

/-- The bus which has number `n` contains, somewhere in the hierarchy, a bus with number `m` and on that the function `e`:
a bus behind a bridge has the number in the secondary bus number register of the bridge. -/
inductive On : (n : Nat) → Phys σ → (m : Nat) → (e : Nat × Nat × Fn σ) → Prop
  | here {n b e} : e ∈ top b → On n b n e
  | deeper {n b f c m e} : (f, c) ∈ brsOf b → On f.secBus c m e → On n b m e

/-- `b` with number `n` contains the bridge `f`, which is on the bus with number `m`. -/
inductive HasBr : (n : Nat) → Phys σ → (m : Nat) → Br σ → Phys σ → Prop
  | here {n b f c} : (f, c) ∈ brsOf b → HasBr n b n f c
  | deeper {n b f c m g c'} : (f, c) ∈ brsOf b → HasBr f.secBus c m g c' → HasBr n b m g c'

/-- The numbers of all buses behind bridges. -/
def busNumbers : Phys σ → List Nat
  | .nil => []
  | .ep _ _ _ rest => busNumbers rest
  | .br _ _ _ f child rest => f.secBus :: busNumbers child ++ busNumbers rest

end Pcie.Spec
