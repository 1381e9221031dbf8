import Verif.Model.IntelDev
import Verif.Spec.UsCq
import Verif.Spec.Tlp
/-
Specification vocabulary for the Intel hard IP models between the link and the user.
-/
namespace Pcie.Spec
open Pcie
variable {F : Type}

/-- The frames handed to the user, in order. -/
def rxSent (h : List (IntelObs F)) : List F := h.filterMap fun | .sent f => some f | _ => none

/-- The TLPs that arrived, in order. -/
def rxArrived (h : List (IntelObs F)) : List Tlp := h.filterMap fun | .arrived t _ => some t | _ => none

/-- The frame that a TLP is handed to the user as, if it is. -/
def toUser (es : List (RxEff F)) : List F := es.filterMap fun | .user f => some f | _ => none

/-- The frames for the user, in the order of arrival. -/
def rxOffered (h : List (IntelObs F)) : List F := h.flatMap fun | .arrived _ es => toUser es | _ => []

/-- How often the credits of the TLP are given back. -/
def releases (es : List (RxEff F)) : Nat :=
  (es.map fun | .release => 1 | .fn _ es => es.count .release | _ => 0).sum

/-- The frame carries the TLP, with the number of the base address register and the function number, and its parity is right. -/
structure S10Carries (f : S10Frame) (t : Tlp) (bar fn : Nat) : Prop where
  tlp : f.toTlp = .ok t
  bar : f.barRange = bar
  fn : f.funcNum = fn
  parity : f.checkParity = true

/-- Likewise for P-Tile. -/
structure PTileCarries (f : PTileFrame) (t : Tlp) (bar fn : Nat) : Prop where
  tlp : f.toTlp = .ok t
  bar : f.barRange = bar
  fn : f.funcNum = fn
  parity : f.checkParity = true

/-- The Intel encoding of the register: its number for memory, 6 for I/O. -/
def barCode (io : Bool) (w : Window) : Nat := if io then 6 else w.idx

end Pcie.Spec
