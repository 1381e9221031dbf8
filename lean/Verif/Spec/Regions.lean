/- Specification: the regions of a memory endpoint, in terms of the calls that add them. -/
import Verif.Spec.Bar
import Verif.Model.Completer
namespace Pcie.Spec
open Pcie

/-- A call of `add_region`: `add_io_region(size)` is `⟨size, false, false, true⟩`, `add_mem_region(size)` is
`⟨size, false, false, false⟩` and `add_prefetchable_mem_region(size)` is `⟨size, true, true, false⟩`. -/
structure AddCall where
  size : Nat
  ext : Bool := false
  prefetch : Bool := false
  io : Bool := false
deriving DecidableEq, Repr

/-- How many base address registers the region takes. -/
def AddCall.width (c : AddCall) : Nat := if c.ext then 2 else 1

/-- The size is positive, and the BAR can have it. -/
def AddCall.Ok (c : AddCall) : Prop := 0 < c.size ∧ c.size ≤ if c.ext ∧ c.io = false then 2 ^ 63 else 2 ^ 31

/-- The calls that succeed, each with the number of the first register of its region, if `used` registers are taken before:
the registers are given out in order, and a call for which too few of the six are left fails. -/
def granted (used : Nat) : List AddCall → List (Nat × AddCall)
  | [] => []
  | c :: cs => if used + c.width ≤ 6 then (used, c) :: granted (used + c.width) cs else granted used cs

/-- How many registers are taken then. -/
def registersUsed (used : Nat) (cs : List AddCall) : Nat := used + ((granted used cs).map fun x => x.2.width).sum

/-- The call, on an endpoint. -/
def AddCall.run (c : AddCall) (e : MemEp) : Py MemEp := e.addRegion c.size c.ext c.prefetch c.io

/-- The endpoint after a call: if it raises an exception, as before. -/
def AddCall.after (e : MemEp) (c : AddCall) : MemEp :=
  match c.run e with
  | .ok e => e
  | .error _ => e

/-- The window is the one of the region. -/
def IsWindowOf (w : Window) (i : Nat) (c : AddCall) : Prop :=
  w.idx = i ∧ w.io = c.io ∧ w.wide = (c.ext && !c.io) ∧ w.base = 0 ∧ SizeExp c.size (if c.io then 2 else 4) w.k

end Pcie.Spec
