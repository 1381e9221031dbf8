import Verif.Model.IntelRx
/-
Specification vocabulary for the receive queue of the Intel hard IP models.
-/
namespace Pcie.Spec
open Pcie

/-- Everything received and not yet handed to the user, in order. -/
def pendingRx (s : IntelRx) : List Tlp := s.sending.toList ++ s.queue

/-- The completions among them. -/
def heldCpls (s : IntelRx) : List Tlp := (pendingRx s).filter Tlp.isCompletion

/-- The data credits of completions. -/
def cplCredits (l : List Tlp) : Nat := (l.map Tlp.dataCredits).sum

end Pcie.Spec
