/-
Specification: the command registers of the functions of a hierarchy, and calls that change them.
-/
import Verif.Spec.HostEnum
import Verif.Model.HostEnable
namespace Pcie.Spec
open Pcie Phys
variable {σ : Type}

/-- A change of the command register: I/O and memory space are enabled, or not changed; bus mastering is enabled, disabled or
not changed. -/
structure Ctl where
  decode : Bool := false
  master : Option Bool := none
deriving DecidableEq, Repr

/-- The registers after the change. -/
def Ctl.regs (c : Ctl) (f : Common σ) : Common σ :=
  { f with ioEnable := f.ioEnable || c.decode, memEnable := f.memEnable || c.decode, busMaster := c.master.getD f.busMaster }

/-- The hierarchy with the command registers changed, `c id` being the change for the function with number `id`. Nothing else
changes. -/
def withCtl (c : PcieId → Ctl) : (m : Nat) → Phys σ → Phys σ
  | _, .nil => .nil
  | m, .ep d fn f rest => .ep d fn { f with toCommon := (c ⟨m, d, fn⟩).regs f.toCommon } (withCtl c m rest)
  | m, .br d fn dsp f child rest =>
    .br d fn dsp { f with toCommon := (c ⟨m, d, fn⟩).regs f.toCommon } (withCtl c f.secBus child) (withCtl c m rest)

/-- There is a bridge with these device and function numbers on the bus, and the bus behind it. -/
def brAt : Phys σ → List (Nat × Nat × Br σ × Phys σ)
  | .nil => []
  | .ep _ _ _ rest => brAt rest
  | .br d fn _ f child rest => (d, fn, f, child) :: brAt rest

/-- The function with number `id` is in the hierarchy, and `as` are the bridges above it, the nearest first. -/
inductive Chain : (m : Nat) → Phys σ → PcieId → List PcieId → Prop
  | here {m b e} : e ∈ top b → Chain m b ⟨m, e.1, e.2.1⟩ []
  | deeper {m b d fn f c id as} : (d, fn, f, c) ∈ brAt b → Chain f.secBus c id as → Chain m b id (as ++ [⟨m, d, fn⟩])

/-- The device of a call. -/
def device : Host.Call → PcieId
  | .enable id | .disable id | .setMaster id | .clearMaster id => id

/-- How often the device was enabled and not disabled again, and whether it was last made a bus master or not: `set_master`
makes it one; `clear_master` and the `disable_device` after which it is not enabled any more end that. -/
def masterOf (id : PcieId) (s : Int × Option Bool) (c : Host.Call) : Int × Option Bool :=
  if device c ≠ id then s
  else match c with
    | .enable _ => (s.1 + 1, s.2)
    | .disable _ => (s.1 - 1, if 0 < s.1 - 1 then s.2 else some false)
    | .setMaster _ => (s.1, some true)
    | .clearMaster _ => (s.1, some false)

end Pcie.Spec
