import Verif.Model.UsHip
/-
A Xilinx hard IP model (xilinx/us/us_model.py, xilinx/us/usp_model.py) at work: the requester side of `UsHip.lean` together with what answers its requests. Each non-posted
request that is sent gets a list of completions; they arrive in order for each request, and in any order for different requests, interleaved with everything else the device does.
-/
namespace Pcie

/-- A non-posted request on its way (us_model.py:1051-1059, 1113-1118 send it): the packet as sent, the completions it is answered with, and how many of them have arrived. -/
structure DmaReq where
  req : Tlp
  ans : List Tlp
  done : Nat := 0
deriving DecidableEq, Repr

/-- The device (us_model.py:328-359) and the requests it has sent, oldest first. -/
structure Dma where
  hip : Hip
  reqs : List DmaReq := []
deriving DecidableEq, Repr

/-- What happens: a task of the device runs (us_model.py:1025-1120, 1154-1160, any event but the arrival of a completion), `ans` being the answer to the non-posted request it sends, if it
sends one; or the next completion of request number `i` arrives (us_model.py:801-881). -/
inductive DmaEv where
  | dev (e : HipEv) (ans : List Tlp)
  | cpl (i : Nat)
deriving DecidableEq, Repr

namespace Dma

/-- The non-posted requests sent (us_model.py:1059, 1118) according to some observations. -/
def sentNp (h : List HipObs) : List Tlp := h.filterMap fun | .sent t => if t.isNonposted then some t else none | _ => none

/-- One event; `none` means that it cannot happen in this state. The device is `Hip.step` (us_model.py:801-881, 1025-1120, 1154-1160). -/
def step (p : HipParams) (s : Dma) : DmaEv → Option (Py Dma)
  | .dev (.cpl _) _ => none
  | .dev e ans => match s.hip.step p e with
    | none => none
    | some (.error x) => some (.error x)
    | some (.ok h) => some (.ok { hip := h, reqs := s.reqs ++ (sentNp (h.hist.drop s.hip.hist.length)).map fun t => { req := t, ans := ans } })
  | .cpl i => match s.reqs[i]? with
    | none => none
    | some q => match q.ans[q.done]? with
      | none => none
      | some c => match s.hip.step p (.cpl c) with
        | none => none
        | some (.error x) => some (.error x)
        | some (.ok h) => some (.ok { hip := h, reqs := s.reqs.set i { q with done := q.done + 1 } })

/-- A history (us_model.py:801-881, 1025-1120, 1154-1160). -/
def run (p : HipParams) (s : Dma) : List DmaEv → Option (Py Dma)
  | [] => some (.ok s)
  | e :: es => match s.step p e with
    | none => none
    | some (.error x) => some (.error x)
    | some (.ok s) => s.run p es

end Dma
end Pcie
