import Verif.Model.Tlp
/-
Model of the assignment of function numbers (core/device.py) and device numbers (core/switch.py).
A function or port is its PCIe ID and its multifunction flag. Tasks, queues and log messages are left out.
-/
namespace Pcie

/-- Python's `list.sort` with the order of the keys given by `le`: a stable sort. -/
def insSort {α : Type} (le : α → α → Bool) : List α → List α
  | [] => []
  | a :: r => ins a (insSort le r)
where
  /-- Put `a` in front of the first element that is not smaller. -/
  ins (a : α) : List α → List α
    | [] => [a]
    | b :: r => if le a b then a :: b :: r else b :: ins a r

/-- A function of a device: `pcie_id` and `multifunction_device` (function.py:43, 66). -/
structure DevFn where
  id : PcieId := ⟨0, 0, 0⟩
  multi : Bool := false
deriving Repr, DecidableEq

/-- device.py:36-43: `bus_num` and `functions`. -/
structure DevNums where
  bus : Nat := 0
  fns : List DevFn := []
deriving Repr, DecidableEq

namespace DevNums

/-- device.py:74, 92: `functions.sort(key=lambda x: x.function_num)`. -/
def sorted (l : List DevFn) : List DevFn := insSort (fun a b => a.id.function ≤ b.id.function) l

/-- device.py:77-79: the loop over the indices, from index `x`. -/
def gap : List DevFn → Nat → Option Nat
  | [], _ => none
  | f :: r, x => if f.id.function ≠ x then some x else gap r (x + 1)

/-- device.py:73-82: `next_free_function_number`; the list is sorted by the call. -/
def nextFree (fns : List DevFn) : Option Nat :=
  let s := sorted fns
  if s.isEmpty then some 0
  else match gap s 0 with
    | some x => some x
    | none => if s.length < 8 then some s.length else none

/-- device.py:84-94: `add_function`. -/
def add (d : DevNums) (f : DevFn) : Py DevNums :=
  if d.fns.any (fun g => g.id.function == f.id.function) then .error "Function number already in use"
  else
    let s := sorted (d.fns ++ [f])
    .ok { d with fns := if s.length > 1 then s.map ({ · with multi := true }) else s }

/-- device.py:96-98: `append_function`. When there is no free number, `PcieId(bus, 0, None)` raises (utils.py:56). -/
def append (d : DevNums) (f : DevFn) : Py DevNums :=
  match nextFree d.fns with
  | none => .error "TypeError"
  | some n => { d with fns := sorted d.fns }.add { f with id := ⟨d.bus, 0, n⟩ }

/-- device.py:100-101: `make_function`. -/
def make (d : DevNums) : Py DevNums := d.append {}

/-- device.py:63-71: the `bus_num` setter. -/
def setBus (d : DevNums) (v : Nat) : Py DevNums :=
  if v > 255 then .error "Out of range"
  else .ok (if d.bus ≠ v then { bus := v, fns := d.fns.map fun f => { f with id := { f.id with bus := v } } } else d)

end DevNums

/-- The calls that change the functions of a device. -/
inductive DevCall
  | add (f : DevFn)
  | append (f : DevFn)
  | make
  | setBus (v : Nat)

def DevNums.run (d : DevNums) : DevCall → Py DevNums
  | .add f => d.add f
  | .append f => d.append f
  | .make => d.make
  | .setBus v => d.setBus v

/-- switch.py:83-84: `min_dev` and the IDs of `endpoints` of a switch or a root complex (rc.py:58). -/
structure PortNums where
  minDev : Nat := 1
  eps : List PcieId := []
deriving Repr, DecidableEq

namespace PortNums

/-- switch.py:103, 118: sort by `(x.device_num, x.function_num)`. -/
def sorted (l : List PcieId) : List PcieId :=
  insSort (fun a b => a.device < b.device ∨ (a.device = b.device ∧ a.function ≤ b.function)) l

/-- switch.py:107-113: the loop over the endpoints and the final check. -/
def gap : List PcieId → Nat → Option Nat
  | [], d => if d < 32 then some d else none
  | e :: r, d => if e.device > d then some d else gap r (e.device + 1)

/-- switch.py:102-113: `next_free_device_number`. -/
def nextFree (s : PortNums) : Option Nat :=
  let l := sorted s.eps
  if l.isEmpty then some s.minDev else gap l s.minDev

/-- switch.py:115-119: `append_endpoint`. -/
def append (s : PortNums) (e : PcieId) : PortNums := { s with eps := sorted (s.eps ++ [e]) }

/-- switch.py:121-123: `add_endpoint` (also `make_port`, 125-138). When there is no free number, `PcieId(0, None, 0)` raises
(utils.py:54). -/
def add (s : PortNums) : Py PortNums :=
  match s.nextFree with
  | none => .error "TypeError"
  | some d => .ok ({ s with eps := sorted s.eps }.append ⟨0, d, 0⟩)

end PortNums

/-- The calls that add ports. -/
inductive PortCall
  | add
  | append (e : PcieId)

def PortNums.run (s : PortNums) : PortCall → Py PortNums
  | .add => s.add
  | .append e => .ok (s.append e)

end Pcie
