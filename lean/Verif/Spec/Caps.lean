/- Specification of capability lists. -/
import Verif.Model.Caps
namespace Pcie.Spec
open Pcie CapList

/-- The capability is registered and occupies the register. -/
def Occupies (s : CapList) (c reg : Nat) : Prop := c ∈ s.list ∧ s.off c ≤ reg ∧ reg < s.off c + s.len c

/-- No two registered capabilities share a register. -/
def NoShare (s : CapList) : Prop := ∀ a b reg, Occupies s a reg → Occupies s b reg → a = b

/-- Two different registered capabilities share at most one register. -/
def ShareOne (s : CapList) : Prop :=
  ∀ a b r r', a ≠ b → Occupies s a r → Occupies s b r → Occupies s a r' → Occupies s b r' → r = r'

/-- A list as it is created: nothing registered, no capability has an offset; the capabilities have at least one register,
and the list does not start at register 0. -/
structure New (s : CapList) : Prop where
  empty : s.list = []
  offsets : ∀ k, (s.objs k).offset = none
  lengths : ∀ k, 1 ≤ (s.objs k).length
  start : 1 ≤ s.start

/-- The state after a sequence of calls. -/
def after (s : CapList) (ops : List CapOp) : CapList := ops.foldl CapOp.run s

/-- The capabilities that are registered after a sequence of calls. -/
def Registered (ops : List CapOp) (c : Nat) : Prop :=
  ops.foldl (fun p op => match op with
    | .register c' _ => fun x => x = c' ∨ p x
    | .deregister c' => fun x => p x ∧ x ≠ c') (fun _ => False) c

/-- The calls are registrations only. -/
def RegisterOnly (ops : List CapOp) : Prop := ∀ op ∈ ops, ∃ c o, op = .register c o

/-- The calls leave the choice of the offset to the list. -/
def Automatic (ops : List CapOp) : Prop := ∀ op ∈ ops, ∃ c, op = .register c none

/-- The offsets that the calls give explicitly are multiples of `g`. -/
def Aligned (g : Nat) (ops : List CapOp) : Prop := ∀ c v, CapOp.register c (some v) ∈ ops → g ∣ v

/-- `seen` lists the capabilities that are registered after the calls, once each, by increasing offset. -/
structure Complete (s : CapList) (ops : List CapOp) (seen : List Nat) : Prop where
  all : ∀ c, c ∈ seen ↔ Registered ops c
  once : seen.Nodup
  order : seen.Pairwise fun a b => s.off a < s.off b

end Pcie.Spec
