/- Specification of interrupt delivery. -/
import Verif.Model.Msi
namespace Pcie.Spec
open Pcie

/-- The handlers that a sequence of calls registered for vector `n` of function `f`, in order. -/
def handlers (ops : List IrqOp) (f n : Nat) : List Nat :=
  ops.filterMap fun
    | .request f' n' h => if f' = f ∧ n' = n then some h else none
    | _ => none

/-- The state at the start: no vectors, no callbacks, interrupts disabled, capability registers zero. -/
structure NewSys (s : IrqSys) : Prop where
  region : s.region = {}
  cbs : s.cbs = fun _ => []
  fns : ∀ f, (s.fns f).vecs = [] ∧ (s.fns f).msiEnabled = false ∧ (s.fns f).msixEnabled = false
  msi : ∀ f c, (s.fns f).msi = some c → c.enable = false ∧ c.addr = 0 ∧ c.data = 0
  msix : ∀ f c, (s.fns f).msix = some c → c.enable = false

/-- All vectors are allocated in multiples of 32. -/
def Blocks32 (s : IrqSys) (ops : List IrqOp) : Prop :=
  (∀ n, IrqOp.alloc n ∈ ops → n % 32 = 0) ∧ ∀ f c, (s.fns f).msix = some c → (c.tableSize % 2048 + 1) % 32 = 0

end Pcie.Spec
