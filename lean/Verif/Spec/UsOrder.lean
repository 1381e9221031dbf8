import Verif.Spec.UsHip
/-
Specification vocabulary for the order of requests in the Xilinx hard IP models.
-/
namespace Pcie.Spec
open Pcie

/-- The posted requests that have been sent or dropped, in this order. -/
def postedDone (h : List HipObs) : List Tlp :=
  h.filterMap fun | .sent t | .refused t => if t.isNonposted then none else some (untagged t) | _ => none

/-- The posted requests that the user has made, in this order. -/
def postedMade (h : List HipObs) : List Tlp := ((acceptedOf h).filter fun t => !t.isNonposted).map untagged

/-- The non-posted requests that have been sent or dropped, in this order; their tags are left open. -/
def nonpostedDone (h : List HipObs) : List Tlp :=
  h.filterMap fun | .sent t | .refused t => if t.isNonposted then some (untagged t) else none | _ => none

/-- The non-posted requests that the user has made, in this order. -/
def nonpostedMade (h : List HipObs) : List Tlp := ((acceptedOf h).filter fun t => t.isNonposted).map untagged

end Pcie.Spec
