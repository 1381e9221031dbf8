import Verif.Spec.Traffic
/-
What it means that TLPs with the same source and destination stay in order.
-/
namespace Pcie.Spec
open Pcie

/-- The TLP that goes on its first link. -/
def enters (s : TState) : TEv → List Nat
  | .send m i => ((s.tasks m)[i]?).toList.map (·.id)
  | .reply m => (s.busy m).head?.toList.map (·.id)
  | _ => []

/-- The TLPs that go on their first link, in this order. -/
def entered (N : TNet) (s : TState) : List TEv → List Nat
  | [] => []
  | e :: es => enters s e ++ (match s.step N e with | some s' => entered N s' es | none => [])

/-- The TLPs that have been delivered, in this order. -/
def arrived (s : TState) : List Nat := s.done.map (·.id)

/-- TLPs of the kind `I` take the route `R`: the TLP itself if it is one, and those of its completions that are. -/
def SameRoute (N : TNet) (I : Nat → Bool) (R : List Nat) (m : Nat) (p : TPkt) : Prop :=
  (I p.id = true → m :: p.route = R) ∧
  ∀ c ∈ N.answer p.id, N.answer c.id = [] ∧ (I c.id = true → N.back ((m :: p.route).getLast (by simp)) :: c.route = R)

/-- The way of a TLP in a hierarchy: from a component to the root complex, from the root complex to a component, or from one component to another. -/
def TreeRoute (parent : Nat → Nat) (n : Nat) (R : List Nat) : Prop := ∃ i, UpRoute parent i R ∨ DownRoute parent i R ∨ PeerRoute parent n i R

/-- TLP `k` is one of the completions of request `q`. -/
def isCplOf (N : TNet) (q k : Nat) : Bool := (N.answer q).any fun c => c.id == k

/-- The completions of request `q` are told from those of other requests and from requests (in the code: by requester ID and tag). -/
structure OwnCpls (N : TNet) (q : Nat) (l : List (Nat × TPkt)) : Prop where
  other : ∀ x, x ≠ q → ∀ c ∈ N.answer x, isCplOf N q c.id = false
  request : ∀ x ∈ l, isCplOf N q x.2.id = false

/-- A memory after TLPs have been delivered one after the other, where `W k a` is the byte that TLP `k` writes to address `a`, if it does. Each TLP is taken to have its whole effect
when it is delivered; a memory handler of the user that waits in the middle of a write is not covered. -/
def memAfter (W : Nat → Nat → Option UInt8) (m₀ : Nat → UInt8) (l : List Nat) : Nat → UInt8 := l.foldl (fun m k a => (W k a).getD (m a)) m₀

end Pcie.Spec
