import Verif.Model.UsHip
/-
Specification vocabulary for the requester side of the Xilinx hard IP models.
-/
namespace Pcie.Spec
open Pcie

/-- Whether completion `c` ends request `r`: it belongs to it, and it reports an error, or the request is not a memory read, or it carries no data, or all remaining bytes. -/
def endsRequest (r c : Tlp) : Bool :=
  c.requester_id = r.requester_id ∧ c.attr = r.attr ∧ c.tc = r.tc ∧
    (c.status ≠ CplStatus.SC ∨ ¬(r.fmtType = some .MEM_READ ∨ r.fmtType = some .MEM_READ_64) ∨
      c.fmtType = some .CPL ∨ c.fmtType = some .CPL_LOCKED ∨ c.byte_count + c.lower_address % 4 ≤ c.length * 4)

/-- The outstanding requests by tag, after one more observation: a non-posted request sent is outstanding until a completion ends it. -/
def track (o : Nat → Option Tlp) : HipObs → Nat → Option Tlp
  | .sent t => if t.isNonposted then fun k => if k = t.tag then some t else o k else o
  | .cpl c => fun k => if k = c.tag ∧ (∃ r, o k = some r ∧ endsRequest r c = true) then none else o k
  | _ => o

/-- The outstanding requests by tag, from what has been seen. -/
def outstanding (h : List HipObs) : Nat → Option Tlp := h.foldl track (fun _ => none)

/-- A packet, leaving open its tag. -/
def untagged (t : Tlp) : Tlp := { t.copy with tag := 0 }

/-- The requests accepted, sent and dropped so far. -/
def acceptedOf (h : List HipObs) : List Tlp := h.filterMap fun | .accepted t => some t | _ => none
@[inherit_doc acceptedOf] def sentOf (h : List HipObs) : List Tlp := h.filterMap fun | .sent t => some t | _ => none
@[inherit_doc acceptedOf] def refusedOf (h : List HipObs) : List Tlp := h.filterMap fun | .refused t => some t | _ => none

/-- The requests accepted and neither sent nor dropped yet. -/
def waiting (s : Hip) : List Tlp :=
  (match s.np with | .idle => [] | .waitCredit t | .ready t | .waitTag t => [t]) ++ s.npq ++
    (match s.rq with | .idle => [] | .blocked t | .ready t => [t])

/-- The completions in the receive buffer: the one being handed over to the user and those in the queue. -/
def buffered (s : Hip) : List UsTlp := s.rcSend.toList ++ s.rcq

/-- Space taken by completions, in 16-byte units: the data and one unit for the header. -/
def cplSpace (l : List UsTlp) : Nat := (l.map fun u => u.tlp.dataCredits + 1).sum

/-- The completions received so far and not dropped. -/
def keptCpls (h : List HipObs) : List Tlp :=
  h.foldl (fun l o => match o with | .cpl c => l ++ [c] | .lost _ => l.dropLast | _ => l) []

/-- The completions delivered so far. -/
def deliveredOf (h : List HipObs) : List UsTlp := h.filterMap fun | .delivered u => some u | _ => none

/-- A completion, leaving open its lower address, of which the hard IP adds bits. -/
def sameCpl (u : UsTlp) (c : Tlp) : Prop := u.tlp = { c.copy with lower_address := u.tlp.lower_address }

/-- The device always has at least `n` functions, requests name one of them and leave the tag field small, completions have 8-bit tags. -/
def Orderly (n : Nat) : HipEv → Prop
  | .rq u => u.tlp.fcType ≠ none ∧ u.tlp.requester_id.function < n ∧ u.tlp.tag < 32
  | .cpl c => c.tag < 256
  | .cfg _ _ funcs => n ≤ funcs.length
  | _ => True

/-- Extended tags, once enabled, are not disabled again. -/
def ExtKept : Bool → List HipEv → Prop
  | _, [] => True
  | e, .cfg e' _ _ :: es => (e = true → e' = true) ∧ ExtKept e' es
  | e, _ :: es => ExtKept e es

/-- Extended tags are never switched on or off. -/
def ExtFixed (e : Bool) (es : List HipEv) : Prop := ∀ e' b f, HipEv.cfg e' b f ∈ es → e' = e

end Pcie.Spec
