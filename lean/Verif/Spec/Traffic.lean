import Verif.Model.Traffic
/-
Hierarchies as trees of components, the routes between the root complex and the components, and what it means that nothing is stuck.
-/
namespace Pcie.Spec
open Pcie

/-- The link from a component towards the root, and the one from the root to the component. Component 0 is the root complex itself: its links are those between its switch and its handlers. -/
def upLink (i : Nat) : Nat := 2 * i
def downLink (i : Nat) : Nat := 2 * i + 1

/-- From a component through all the switches above it to the root complex. -/
inductive ToRoot (parent : Nat → Nat) : Nat → List Nat → Prop
  | root : ToRoot parent 0 [0]
  | step {i : Nat} {l : List Nat} : i ≠ 0 → ToRoot parent (parent i) l → ToRoot parent i (i :: l)

/-- A hierarchy of components 0 .. n-1: each but the root complex is connected to one with a smaller number, there is no flow control inside the root complex, and completions go back where the request came from. -/
structure Hierarchy (N : TNet) (parent : Nat → Nat) (n : Nat) : Prop where
  some : 0 < n
  parent : ∀ i, i ≠ 0 → parent i < i
  inner : ∀ m, m < 2 → ∀ c, N.hdr m c = 0 ∧ N.data m c = 0
  back : ∀ i, N.back (downLink i) = upLink i ∧ N.back (upLink i) = downLink i

/-- A TLP that component `i` sends to the root complex, and one that the root complex sends to component `i`: the links it takes, the first one included. -/
def UpRoute (parent : Nat → Nat) (i : Nat) (l : List Nat) : Prop := ∃ p, ToRoot parent i p ∧ l = p.map upLink
def DownRoute (parent : Nat → Nat) (i : Nat) (l : List Nat) : Prop := ∃ p, ToRoot parent i p ∧ l = p.reverse.map downLink

/-- No TLP needs more data credits than a receiver ever has. -/
def CreditFits (N : TNet) (p : TPkt) : Prop := ∀ m, N.data m p.cls = 0 ∨ p.dc ≤ N.data m p.cls

/-- A completion: it fits, it takes the given route and is not answered. -/
def CplOn (N : TNet) (m : Nat) (R : List Nat → Prop) (c : TPkt) : Prop := CreditFits N c ∧ R (m :: c.route) ∧ N.answer c.id = []

/-- A TLP from a component to the root complex or from the root complex to a component, on link `m` first. The root complex answers to any component, a component to the root complex. -/
def RootTraffic (N : TNet) (parent : Nat → Nat) (n : Nat) (m : Nat) (p : TPkt) : Prop :=
  CreditFits N p ∧
  ((∃ i < n, m = upLink i ∧ UpRoute parent i (m :: p.route) ∧
      ∀ c ∈ N.answer p.id, ∃ k < n, CplOn N (downLink 0) (DownRoute parent k) c) ∨
   (∃ i < n, m = downLink 0 ∧ DownRoute parent i (m :: p.route) ∧
      ∀ c ∈ N.answer p.id, CplOn N (upLink i) (UpRoute parent i) c))

/-- From a component down to one below it. -/
inductive Below (parent : Nat → Nat) (n : Nat) : Nat → List Nat → Prop
  | here (a : Nat) : Below parent n a []
  | step {a b : Nat} {l : List Nat} : b ≠ 0 → b < n → parent b = a → Below parent n b l → Below parent n a (downLink b :: l)

/-- From component `i` up to any switch above it and from there down to any component. -/
inductive PeerRoute (parent : Nat → Nat) (n : Nat) : Nat → List Nat → Prop
  | turn {i : Nat} {l : List Nat} : i ≠ 0 → Below parent n (parent i) l → PeerRoute parent n i (upLink i :: l)
  | up {i : Nat} {l : List Nat} : i ≠ 0 → PeerRoute parent n (parent i) l → PeerRoute parent n i (upLink i :: l)

/-- Traffic of components that access memory on their own: requests that are answered go to the root complex; those that are not answered, such as writes, may go from any component to any other and from the root
complex to any component. -/
def DmaTraffic (N : TNet) (parent : Nat → Nat) (n : Nat) (m : Nat) (p : TPkt) : Prop :=
  CreditFits N p ∧
  ((∃ i < n, m = upLink i ∧ UpRoute parent i (m :: p.route) ∧
      ∀ c ∈ N.answer p.id, ∃ k < n, CplOn N (downLink 0) (DownRoute parent k) c) ∨
   (N.answer p.id = [] ∧ ∃ i < n, PeerRoute parent n i (m :: p.route)) ∨
   (N.answer p.id = [] ∧ ∃ i < n, DownRoute parent i (m :: p.route)))

/-- What a history starts. -/
def started : List TEv → List (Nat × TPkt)
  | [] => []
  | .start m p :: es => (m, p) :: started es
  | _ :: es => started es

/-- Nothing can happen unless a task starts something new. -/
def Halted (N : TNet) (s : TState) : Prop := ∀ e s', s.step N e = some s' → ∃ m p, e = .start m p

/-- How often TLP `x` must be delivered: once for each time it was started and once for each request it answers. -/
def owed (N : TNet) (x : Nat) : List (Nat × TPkt) → Nat
  | [] => 0
  | (_, p) :: r => (if p.id = x then 1 else 0) + ((N.answer p.id).filter fun c => c.id = x).length + owed N x r

/-- How often TLP `x` has been delivered. -/
def delivered (s : TState) (x : Nat) : Nat := (s.done.filter fun p => p.id = x).length

/-- Three things happen to a TLP on each link of its route but two on the first, and the same holds for its completions. -/
def effort (N : TNet) : List (Nat × TPkt) → Nat
  | [] => 0
  | (_, p) :: r => (3 * p.route.length + 2 + ((N.answer p.id).map fun c => 3 * c.route.length + 2).sum) + effort N r

end Pcie.Spec
