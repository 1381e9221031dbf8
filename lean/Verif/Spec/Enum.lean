/-
Specification: BAR sizing and assignment.
-/
import Verif.Spec.Bar
import Verif.Model.Enum
namespace Pcie.Spec
open Pcie

/-- The same windows at other addresses. -/
def rebase (base : Nat → Nat) (ws : List Window) : List Window := ws.map fun w => { w with base := base w.idx }

/-- The expansion ROM register stands for a ROM of `2^k` bytes at `base`, or for none. -/
def RomIs {σ} (f : Common σ) : Option (Nat × Nat) → Prop
  | none => f.romMask = 0 ∧ f.romAddr = 0
  | some (base, k) => 11 ≤ k ∧ k < 32 ∧ base % 2 ^ k = 0 ∧ base < 2 ^ 32 ∧ f.romMask = 2 ^ 32 - 2 ^ k ∧ f.romAddr = base

/-- The three address ranges resources are allocated from. -/
inductive Pool where
  | io | mem | pref
deriving DecidableEq, Repr

/-- A range of addresses given to a resource. -/
structure Region where
  pool : Pool
  base : Nat
  size : Nat
deriving DecidableEq, Repr

/-- The bound of one pool. -/
def lim (l : Limits) : Pool → Nat
  | .io => l.io
  | .mem => l.mem
  | .pref => l.pref

/-- The two regions share no address (of the same kind). -/
def Apart (a b : Region) : Prop := a.pool ≠ b.pool ∨ a.base + a.size ≤ b.base ∨ b.base + b.size ≤ a.base

instance (a b : Region) : Decidable (Apart a b) := by unfold Apart; infer_instance

/-- The pool a window belongs to: only 64-bit BARs marked prefetchable (bit 3) use the prefetchable range. -/
def poolOf (bars : List BarReg) (w : Window) : Pool :=
  if w.io then .io else if w.wide && (bars.getD w.idx {}).val.testBit 3 then .pref else .mem

/-- The regions of a function's BARs. -/
def barRegions (bars : List BarReg) (ws : List Window) : List Region :=
  ws.map fun w => ⟨poolOf bars w, w.base, 2 ^ w.k⟩

/-- The region of a function's expansion ROM. -/
def romRegions : Option (Nat × Nat) → List Region
  | none => []
  | some (base, k) => [⟨.mem, base, 2 ^ k⟩]

/-- The function has `cnt` base address registers which stand for the windows `ws`, and the expansion ROM `r`. -/
structure FnRes {σ} (cnt : Nat) (f : Common σ) (ws : List Window) (r : Option (Nat × Nat)) : Prop where
  lay : Layout 0 f.bars ws
  len : f.bars.length = cnt
  rom : RomIs f r

/-- The regions of a function. -/
def fnRegions {σ} (f : Common σ) (ws : List Window) (r : Option (Nat × Nat)) : List Region :=
  barRegions f.bars ws ++ romRegions r

/-- What the host has recorded about a function agrees with its registers: `bar_addr`, `expansion_rom_addr`. -/
def Recorded {σ} (_ : Common σ) (d : DevBars) (ws : List Window) (r : Option (Nat × Nat)) : Prop :=
  (∀ w ∈ ws, d.addr w.idx = some w.base) ∧ ∀ b k, r = some (b, k) → d.romAddr = some b

/-- No particular relation. -/
def Any {σ} (_ : Common σ) (_ : DevBars) (_ : List Window) (_ : Option (Nat × Nat)) : Prop := True

/-- `rs` are the regions of all functions on the bus and behind its bridges, in order; `P` holds for each function. -/
inductive Tree {σ} (P : Common σ → DevBars → List Window → Option (Nat × Nat) → Prop) : Bus σ → List Region → Prop
  | nil : Tree P .nil []
  | ep (f : Ep σ) (d : DevBars) (ws : List Window) (r : Option (Nat × Nat)) (rest : Bus σ) (rs : List Region) :
      FnRes 6 f.toCommon ws r → P f.toCommon d ws r → Tree P rest rs →
      Tree P (.ep f d rest) (fnRegions f.toCommon ws r ++ rs)
  | br (f : Br σ) (d : DevBars) (ws : List Window) (r : Option (Nat × Nat)) (child rest : Bus σ) (cs rs : List Region) :
      FnRes 2 f.toCommon ws r → P f.toCommon d ws r → Tree P child cs → Tree P rest rs →
      Tree P (.br f d child rest) (fnRegions f.toCommon ws r ++ (cs ++ rs))

/-- The kinds and sizes of regions, whatever their addresses. -/
def shape (rs : List Region) : List (Pool × Nat) := rs.map fun r => (r.pool, r.size)

/-- The region has the address `a` of I/O space (`io`) or memory space. -/
def Has (r : Region) (io : Bool) (a : Nat) : Prop := (io = true ↔ r.pool = .io) ∧ r.base ≤ a ∧ a < r.base + r.size

/-- The bridge forwards the address `a` of I/O space or memory space to its secondary side. -/
def Forwards {σ} (f : Br σ) (io : Bool) (a : Nat) : Prop :=
  if io then f.ioBase ≤ a ∧ a ≤ f.ioLimit
  else (f.memBase ≤ a ∧ a ≤ f.memLimit) ∨ (f.prefBase ≤ a ∧ a ≤ f.prefLimit)

/-- The bits of the window registers that are not writable have their reset values. -/
structure BrClean {σ} (f : Br σ) : Prop where
  ioB : f.ioBase < 2 ^ 32 ∧ f.ioBase % 2 ^ 12 = 0
  ioL : f.ioLimit < 2 ^ 32
  memB : f.memBase < 2 ^ 32 ∧ f.memBase % 2 ^ 20 = 0
  memL : f.memLimit < 2 ^ 32
  prefB : f.prefBase < 2 ^ 64 ∧ f.prefBase % 2 ^ 20 = 0
  prefL : f.prefLimit < 2 ^ 64

/-- All bridges of the tree. -/
def BrsClean {σ} : Bus σ → Prop
  | .nil => True
  | .ep _ _ rest => BrsClean rest
  | .br f _ child rest => BrClean f ∧ BrsClean child ∧ BrsClean rest

/-- The windows of the bridges of a tree are right. `own` are the regions of the functions on the bus itself, `brs` the
bridges on it, `all` the regions of the bus and of everything behind its bridges. For every bridge: everything behind it is
in its windows; the windows of the bridges directly behind it are in its windows; its windows do not overlap those of
another bridge on the same bus; and, if `sib`, do not overlap a region of a function on the same bus. -/
inductive Mapped {σ} (sib : Prop) : Bus σ → List Region → List (Br σ) → List Region → Prop
  | nil : Mapped sib .nil [] [] []
  | ep (f : Ep σ) (d : DevBars) (ws : List Window) (r : Option (Nat × Nat)) (rest : Bus σ)
      (own : List Region) (brs : List (Br σ)) (all : List Region) :
      FnRes 6 f.toCommon ws r → Mapped sib rest own brs all →
      (sib → ∀ g ∈ brs, ∀ x ∈ fnRegions f.toCommon ws r, ∀ io a, Forwards g io a → ¬ Has x io a) →
      Mapped sib (.ep f d rest) (fnRegions f.toCommon ws r ++ own) brs (fnRegions f.toCommon ws r ++ all)
  | br (f : Br σ) (d : DevBars) (ws : List Window) (r : Option (Nat × Nat)) (child rest : Bus σ)
      (cown : List Region) (cbrs : List (Br σ)) (call : List Region)
      (own : List Region) (brs : List (Br σ)) (all : List Region) :
      FnRes 2 f.toCommon ws r → Mapped sib child cown cbrs call → Mapped sib rest own brs all →
      (∀ x ∈ call, ∀ io a, Has x io a → Forwards f io a) →
      (∀ g ∈ cbrs, ∀ io a, Forwards g io a → Forwards f io a) →
      (∀ g ∈ brs, ∀ io a, Forwards f io a → ¬ Forwards g io a) →
      (sib → ∀ g ∈ f :: brs, ∀ x ∈ fnRegions f.toCommon ws r, ∀ io a, Forwards g io a → ¬ Has x io a) →
      (sib → ∀ x ∈ own, ∀ io a, Forwards f io a → ¬ Has x io a) →
      Mapped sib (.br f d child rest) (fnRegions f.toCommon ws r ++ own) (f :: brs)
        (fnRegions f.toCommon ws r ++ (call ++ all))

/-- There are bridges on the bus. -/
def hasBridge {σ} : Bus σ → Bool
  | .nil => false
  | .ep _ _ rest => hasBridge rest
  | .br .. => true

/-- A function without base address registers and expansion ROM. -/
def NoRes {σ} (f : Common σ) : Prop := (∀ b ∈ f.bars, b = {}) ∧ f.romMask = 0 ∧ f.romAddr = 0

/-- Functions that come before a bridge on a bus, and bridges themselves, have no base address registers and no ROM. -/
def BridgesFirst {σ} : Bus σ → Prop
  | .nil => True
  | .ep f _ rest => (hasBridge rest = true → NoRes f.toCommon) ∧ BridgesFirst rest
  | .br f _ child rest => NoRes f.toCommon ∧ BridgesFirst child ∧ BridgesFirst rest

end Pcie.Spec
