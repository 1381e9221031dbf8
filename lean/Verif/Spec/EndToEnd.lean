/-
Specification: who makes an access in a whole system.
-/
import Verif.Model.EndToEnd
import Verif.Spec.Fabric
import Verif.Spec.Memory
namespace Pcie.Spec
open Pcie
variable {σ : Type}

/-- The agent exists in the hierarchy, and has this ID. The ID of the root complex is 0:0.0 (rc.py:103). -/
def AgentIs (n : Node σ) (id : PcieId) : Agent → Prop
  | .root => id = ⟨0, 0, 0⟩
  | .fn path k => ∃ f, FnAt n path k f ∧ id = f.id

/-- The agent is not a function of the device at `path`: the functions of one device cannot reach each other
(`C54_same_device`). -/
def OtherDevice (path : List Nat) : Agent → Prop
  | .root => True
  | .fn p _ => p ≠ path

/-- The endpoint handles memory and I/O requests (endpoint.py:177-182). -/
def MemHandlers (h : List TlpType) : Prop :=
  ∀ ty ∈ [TlpType.IO_READ, .IO_WRITE, .MEM_READ, .MEM_READ_64, .MEM_WRITE, .MEM_WRITE_64], ty ∈ h

/-- `b` is the region behind window `w` of the function: it has the size that the BAR says, or less. -/
structure RegionOf (s : Sys σ) (path : List Nat) (k : Nat) (w : Window) (b : Buf) : Prop where
  buf : (s.regions path k)[w.idx]? = some (some b)
  size : b.size ≤ 2 ^ w.k

/-- The system with other contents in one region of an endpoint. -/
def withRegion (s : Sys σ) (path : List Nat) (k idx : Nat) (b : Buf) : Sys σ :=
  { s with regions := fun p j => if p = path ∧ j = k then (s.regions p j).set idx (some b) else s.regions p j }

/-- Nobody in the hierarchy has the address. -/
def Nobody (n : Node σ) (tg : Target) : Prop :=
  (∀ b, BrIn n b → ¬ ForFn b.id b.bars tg) ∧ ∀ path k f, FnAt n path k f → ¬ EpFn.For f tg

end Pcie.Spec
