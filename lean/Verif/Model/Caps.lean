/-
Capability lists (caps/common.py:98-232) and how the host walks them (pci.py:679-714).

Capabilities are objects with identity: they are numbered, and `objs` has their current contents. What the registers of a
capability read (`_read_register`) is the function `regs`.
-/
import Verif.Model.Tlp
namespace Pcie

/-- caps/common.py:98-105: a capability object. -/
structure CapObj where
  capId : Nat := 0
  ver : Nat := 0
  length : Nat := 1
  offset : Option Nat := none
  next : Nat := 0
  regs : Nat → Nat := fun _ => 0

/-- caps/common.py:143-149: a capability list; `list` has the numbers of the registered objects. -/
structure CapList where
  start : Nat := 0x10
  objs : Nat → CapObj
  list : List Nat := []

namespace CapList

/-- `cap.offset` of a registered capability. -/
def off (s : CapList) (c : Nat) : Nat := (s.objs c).offset.getD 0
/-- `cap.length`. -/
def len (s : CapList) (c : Nat) : Nat := (s.objs c).length

/-- Assignment to attributes of an object. -/
def set (s : CapList) (c : Nat) (o : CapObj) : CapList := { s with objs := fun k => if k = c then o else s.objs k }

/-- caps/common.py:157-161 `find_by_reg`. -/
def findByReg (s : CapList) (reg : Nat) : Option Nat := s.list.find? fun c => s.off c ≤ reg ∧ reg < s.off c + s.len c

/-- `self.list.sort(key=...)`: a stable sort (insertion sort here). -/
def insert (key : Nat → Nat) (x : Nat) : List Nat → List Nat
  | [] => [x]
  | y :: ys => if key x ≤ key y then x :: y :: ys else y :: insert key x ys
@[inherit_doc insert] def sort (key : Nat → Nat) : List Nat → List Nat
  | [] => []
  | x :: xs => insert key x (sort key xs)

/-- caps/common.py:220-223: the loop that sets the pointers, for `list[k-1]` = `a` and `list[k]` = `b`. -/
def link (s : CapList) : List Nat → CapList
  | a :: b :: rest =>
    let s := s.set a { s.objs a with next := s.off b * 4 }
    let s := s.set b { s.objs b with next := 0 }
    link s (b :: rest)
  | _ => s

/-- caps/common.py:215-223 `_build_linked_list`. -/
def build (s : CapList) : CapList :=
  let l := sort s.off s.list
  link { s with list := l } l

/-- caps/common.py:198-201: the first place found for a capability of length `n`. -/
def place (s : CapList) (n : Nat) : Nat → List Nat → Nat
  | o, [] => o
  | o, c :: cs =>
    if s.off c < o + n - 1 ∧ o ≤ s.off c + s.len c - 1 then place s n (s.off c + s.len c) cs else place s n o cs

/-- caps/common.py:196-204, for a capability that is not in the list and has no offset. -/
def registerAuto (s : CapList) (c : Nat) : CapList :=
  let o := place s (s.len c) s.start s.list
  let s := s.set c { s.objs c with offset := some o }
  build { s with list := s.list ++ [c] }

/-- caps/common.py:192: the two capabilities overlap. -/
def overlap (s : CapList) (c cap : Nat) : Bool :=
  s.off c ≤ s.off cap + s.len cap - 1 ∧ s.off cap ≤ s.off c + s.len c - 1

/-- caps/common.py:206-208: re-insertion of a capability that had to make way. -/
def rebump (s : CapList) (c : Nat) : CapList := registerAuto (s.set c { s.objs c with offset := none }) c

/-- caps/common.py:174-208 `register` (for a capability object; the variant that takes a capability ID first looks up the
object). The recursive calls for capabilities that have to make way take the branch without an offset. -/
def register (s : CapList) (c : Nat) (offset : Option Nat) : CapList :=
  let s : CapList := { s with list := s.list.filter (· ≠ c) }
  let s : CapList := match offset with
    | some o => s.set c { s.objs c with offset := some o }
    | none => s
  if s.off c ≠ 0 then
    let bump := s.list.filter fun x => s.overlap x c
    let s := { s with list := s.list.filter (fun x => ¬ s.overlap x c) ++ [c] }
    bump.foldl rebump (build s)
  else registerAuto s c

/-- caps/common.py:210-214 `deregister`. -/
def deregister (s : CapList) (c : Nat) : CapList := build { s with list := s.list.filter (· ≠ c) }

/-- caps/common.py:107-111, 163-167: a register read of the list (class `PciCapList`). -/
def read (s : CapList) (reg : Nat) : Nat :=
  match s.findByReg reg with
  | none => 0
  | some c =>
    let val := (s.objs c).regs (reg - s.off c)
    if reg - s.off c = 0 then val &&& 0xffff0000 ||| ((s.objs c).next &&& 0xff) <<< 8 ||| (s.objs c).capId &&& 0xff
    else val

/-- caps/common.py:132-136, 163-167: a register read of the list (class `PciExtCapList`). -/
def readExt (s : CapList) (reg : Nat) : Nat :=
  match s.findByReg reg with
  | none => 0
  | some c =>
    if reg - s.off c = 0 then
      ((s.objs c).next &&& 0xfff) <<< 20 ||| ((s.objs c).ver &&& 0xf) <<< 16 ||| (s.objs c).capId &&& 0xffff
    else (s.objs c).regs (reg - s.off c)

end CapList

/-- A call of the API. -/
inductive CapOp where
  | register (c : Nat) (offset : Option Nat)
  | deregister (c : Nat)
deriving DecidableEq, Repr

/-- The effect of a call. -/
def CapOp.run (s : CapList) : CapOp → CapList
  | register c o => s.register c o
  | deregister c => s.deregister c

/-- function.py:60, 107: the capability list of a function and the pointer to its first entry. -/
structure FnCaps where
  caps : CapList
  ptr : Nat := 0

/-- function.py:308-314 `register_capability`, `deregister_capability`. -/
def FnCaps.run (f : FnCaps) (op : CapOp) : FnCaps :=
  let caps := op.run f.caps
  match op with
  | .register _ _ => { caps, ptr := match caps.list with | [] => 0 | c :: _ => caps.off c * 4 }
  | .deregister _ => { f with caps }

/-- function.py:243 (bits 7:0 of register 13) and pci.py:683-684: where the walk starts. -/
def FnCaps.first (f : FnCaps) : Nat := f.ptr &&& 0xff &&& 0xfc

/-- pci.py:679-697: the walk over the capabilities; `rd` reads a register. The loop in the Python code has no bound: `none`
if `fuel` rounds are not enough. The results are the pairs `(cap_id, ptr)`. -/
def walk (rd : Nat → Nat) : (fuel ptr : Nat) → Option (List (Nat × Nat))
  | fuel, ptr =>
    if ptr = 0 then some []
    else match fuel with
      | 0 => none
      | fuel + 1 =>
        let val := rd (ptr / 4)
        let capId := val &&& 0xff
        let nextPtr := (val >>> 8 &&& 0xff) &&& 0xfc
        (walk rd fuel nextPtr).map ((capId, ptr) :: ·)

/-- pci.py:698-714: the walk over the extended capabilities. -/
def walkExt (rd : Nat → Nat) : (fuel ptr : Nat) → Option (List (Nat × Nat))
  | fuel, ptr =>
    if ptr = 0 then some []
    else match fuel with
      | 0 => none
      | fuel + 1 =>
        let val := rd (ptr / 4)
        if val = 0 ∨ val = 0xffffffff then some []
        else
          let capId := val &&& 0xffff
          let nextPtr := val >>> 20 &&& 0xffc
          (walkExt rd fuel nextPtr).map ((capId, ptr) :: ·)

end Pcie
