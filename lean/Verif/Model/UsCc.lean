import Verif.Model.UsCq
import Verif.Model.Region
/-
Model of the completer completion side of the Xilinx hard IP models (xilinx/us/us_model.py, xilinx/us/usp_model.py), and of a request from the host on its whole way to the user and back.
The line numbers are those of us_model.py; usp_model.py has the same code (usp_model.py:1155-1163 `_run_cc_logic`).
-/
namespace Pcie
namespace UsDev

/-- us_model.py:1015-1023, one round of `_run_cc_logic`: what is sent to the link for a frame from the user; `check` is `enable_parity`. `self.send` (device.py:157-163) checks the TLP. -/
def ccOne (d : UsDev) (check : Bool) (f : UsFrame) : Py (Option Tlp) :=
  match UsTlp.unpackCc f check with
  | .error e => .error e
  | .ok u =>
    let u := if u.completerIdEnable then u else { u with tlp := { u.tlp with completer_id := { u.tlp.completer_id with bus := d.bus } } }
    if u.discontinue then .ok none
    else match assertCheck u.tlp.copy with
      | .error e => .error e
      | .ok () => .ok (some u.tlp.copy)

/-- us_model.py:1015-1023 for frame after frame; an exception ends the task. What has been sent, and the exception if there was one. -/
def ccAll (d : UsDev) (check : Bool) : List UsFrame → List Tlp × Option String
  | [] => ([], none)
  | f :: fs =>
    match d.ccOne check f with
    | .error e => ([], some e)
    | .ok none => d.ccAll check fs
    | .ok (some t) => let r := d.ccAll check fs; (t :: r.1, r.2)

/-- us_model.py:768-942, 977-1013: what the user unpacks for a request from the link. Simplification: the frame reaches the user as it is; that the streaming interface carries it
faithfully is C40, that it is neither lost nor repeated while it waits is C58. -/
def deliver (d : UsDev) (check : Bool) (t : Tlp) : Py (Option UsTlp) :=
  match d.recv t with
  | some (.error e) => .error e
  | some (.ok (_, .user u)) =>
    match u.packCq with
    | .error e => .error e
    | .ok f => match UsTlp.unpackCq f check with
      | .error e => .error e
      | .ok v => .ok (some v)
  | _ => .ok none

/-- xilinx/us/tlp.py:229-265 for each completion of the user; those that cannot be packed are not sent. -/
def packAll : List UsTlp → List UsFrame
  | [] => []
  | u :: us => match u.packCc with
    | .error _ => packAll us
    | .ok f => f :: packAll us

/-- us_model.py:768-942, 977-1023: all the completions that the host gets for a request, if the user answers with `user`. -/
def answerAll (d : UsDev) (check : Bool) (user : UsTlp → List UsTlp) (t : Tlp) : List Tlp :=
  match d.recv t with
  | some (.ok (_, .answer c)) => [c]
  | _ => match d.deliver check t with
    | .ok (some v) => (d.ccAll check (packAll (user v))).1
    | _ => []

/-- rc.py:267-302 with the hard IP and its user as completer; `tag` is the allocated tag. -/
def answer (d : UsDev) (check : Bool) (user : UsTlp → List UsTlp) (tag : Tlp → Nat) (t : Tlp) : List Tlp :=
  (Region.collect (Region.isMemRead t) (d.answerAll check user { t with tag := tag t })).1

end UsDev
end Pcie
