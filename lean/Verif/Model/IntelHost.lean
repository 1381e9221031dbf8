import Verif.Model.IntelDev
import Verif.Model.Region
/-
Model of a request from the host on its whole way to the user of the Intel hard IP models (intel/s10/s10_model.py, intel/ptile/ptile_model.py) and back. The line numbers are those of
s10_model.py.
-/
namespace Pcie
namespace IntelDev
variable {F : Type}

/-- s10_model.py:611-716, 755-767: the completions that the host gets for a memory or I/O request, if the user answers a frame with the frames `user`. Simplifications: the frames reach
the user and the model as they are (that the streaming interfaces carry them faithfully is C42 and C50); the order with respect to other TLPs is left out (it is C64); what functions
answer to configuration requests is left out. An exception ends the task; no completions arrive after it. -/
def answerAll (mk : Tlp → Nat → Nat → Py F) (conv : F → Py Tlp) (p : RxLimits) (s : IntelDev F) (user : F → List F) (t : Tlp) : List Tlp :=
  match s.recv mk p t with
  | .error _ => []
  | .ok (_, es) => es.flatMap fun
    | .up c => [c]
    | .user f => tx conv (user f)
    | _ => []

/-- rc.py:267-302 with the hard IP and its user as completer; `tag` is the allocated tag. -/
def answer (mk : Tlp → Nat → Nat → Py F) (conv : F → Py Tlp) (p : RxLimits) (s : IntelDev F) (user : F → List F) (tag : Tlp → Nat) (t : Tlp) : List Tlp :=
  (Region.collect (Region.isMemRead t) (s.answerAll mk conv p user { t with tag := tag t })).1

end IntelDev
end Pcie
