import Verif.Model.RqRep
import Verif.Spec.UsHip
/-
Specification vocabulary for the reports about requests.
-/
namespace Pcie.Spec
open Pcie

/-- The requests taken, dropped, handed over for sending, and put into the transmit queue of the link, each in order. -/
def repAccepted (h : List RepObs) : List UsTlp := h.filterMap fun | .accepted u => some u | _ => none
@[inherit_doc repAccepted] def repDropped (h : List RepObs) : List UsTlp := h.filterMap fun | .dropped u => some u | _ => none
@[inherit_doc repAccepted] def repStarted (h : List RepObs) : List UsTlp := h.filterMap fun | .started u => some u | _ => none
@[inherit_doc repAccepted] def repLinked (h : List RepObs) : List UsTlp := h.filterMap fun | .linked u => some u | _ => none

/-- The sequence numbers that the user has been shown, in order: at each clock edge the first port, then the second. -/
def repSeqs (h : List RepObs) : List Nat := h.flatMap fun | .shown a b _ _ => a.toList ++ b.toList | _ => []

/-- The tags that the user has been shown, in order. -/
def repTags (h : List RepObs) : List Nat := h.flatMap fun | .shown _ _ a b => a.toList ++ b.toList | _ => []

/-- All the ports of the interface are connected. -/
def Connected (p : RepPorts) : Prop := p.seq0 = true ∧ p.tag0 = true ∧ (p.wide = true → p.seq1 = true ∧ p.tag1 = true)

/-- A posted request. -/
def postedReq (u : UsTlp) : Bool := !u.tlp.isNonposted

/-- A request, leaving open its tag. -/
def noTag (u : UsTlp) : UsTlp := { u with tlp := { u.tlp with tag := 0 } }

/-- The request that a task is sending, and the one that it is holding back. -/
def sendingOf : RepTask → List UsTlp
  | .sending u => [u]
  | _ => []
@[inherit_doc sendingOf] def waitingOf : RepTask → List UsTlp
  | .waiting u => [u]
  | _ => []

/-- The requests that are being sent. -/
def repFlying (s : RqRep) : List UsTlp := sendingOf s.rq ++ sendingOf s.np

/-- The requests that wait for space, credits or tags. -/
def repWaiting (s : RqRep) : List UsTlp := waitingOf s.np ++ s.npq ++ waitingOf s.rq

end Pcie.Spec
