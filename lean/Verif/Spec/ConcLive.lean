import Verif.Spec.Conc
/-
What it means that the operations of tasks come to an end.
-/
namespace Pcie.Spec
open Pcie

variable {σ : Type}

/-- What happens without any task doing more: requests pass the flow control gate, the completer handles requests, completions arrive, and operations take them. -/
def Works : ConcEv σ → Prop
  | .send _ | .handle | .arrive _ | .recv _ => True
  | _ => False

/-- One such thing happens, and changes something. -/
def Happens (C : Completer σ) (s : Conc σ) (e : ConcEv σ) (s' : Conc σ) : Prop := Works e ∧ s.step C e = some (.ok s') ∧ s' ≠ s

/-- `k` such things happen. -/
inductive Goes (C : Completer σ) : Conc σ → Nat → Conc σ → Prop
  | done (s : Conc σ) : Goes C s 0 s
  | more {s s1 s' : Conc σ} {e : ConcEv σ} {k : Nat} : Happens C s e s1 → Goes C s1 k s' → Goes C s (k + 1) s'

end Pcie.Spec
