import Verif.Model.ConcSys
import Verif.Spec.Conc
import Verif.Spec.EndToEnd
/-
Specification vocabulary for tasks that use memory in a hierarchy at the same time.
-/
namespace Pcie.Spec
open Pcie

variable {σ : Type}

/-- The memory behind BAR `idx`, with the address `base`, of function `k` of the device at `path`, as seen from the bus. -/
def sysView (path : List Nat) (k idx base : Nat) (s : Sys σ) : Mem :=
  fun a => if base ≤ a then (match (s.regions path k)[idx]? with | some (some b) => b.mem (a - base) | _ => 0) else 0

/-- The hierarchy is `n` (as it is after `enumerate`), and there is a region of `size` bytes behind window `w` of the function. -/
def HasRegion (n : Node σ) (path : List Nat) (k : Nat) (w : Window) (size : Nat) (s : Sys σ) : Prop := s.net = n ∧ ∃ b, RegionOf s path k w b ∧ b.size = size

/-- The hierarchy is `n`, and the address space of the root complex takes all accesses to the addresses `lo .. hi - 1`. -/
def HasHost (n : Node σ) (lo hi : Nat) (s : Sys σ) : Prop :=
  s.net = n ∧ ∀ a m, lo ≤ a → a + m ≤ hi → s.mem.covers a m = true ∧ s.mem.readOk a m = true ∧ s.mem.writeOk a m = true

end Pcie.Spec
