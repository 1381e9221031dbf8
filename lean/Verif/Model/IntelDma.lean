import Verif.Model.IntelDev
import Verif.Model.UsDma
/-
An Intel hard IP model (intel/s10/s10_model.py, intel/ptile/ptile_model.py) at work: the device of `IntelDev.lean`, with both directions, together with what answers its user's requests. Each
non-posted request that the user sends gets a list of completions; they arrive in order for each request, and in any order for different requests, interleaved with everything else.
-/
namespace Pcie

/-- The device (s10_model.py:120-121, 256-263), the TLPs the user has sent through it (s10_model.py:763-767), the non-posted ones among them with their answers, and what has been
seen so far (a history, not part of the code). -/
structure IntelDma (F : Type) where
  dev : IntelDev F
  sent : List Tlp := []
  reqs : List DmaReq := []
  hist : List (IntelObs F) := []
deriving DecidableEq, Repr

/-- What happens: the user sends a frame (s10_model.py:763-767), `ans` being the answer if it is a non-posted request; the next completion of request number `i` arrives
(s10_model.py:633-660); or any other event of the device (s10_model.py:611-632, 661-716, 755-761). -/
inductive IntelDmaEv (F : Type) where
  | tx (f : F) (ans : List Tlp)
  | cpl (i : Nat)
  | dev (e : IntelEv)
deriving DecidableEq, Repr

namespace IntelDma
variable {F : Type}

/-- s10_model.py:763-767 `_run_tx_logic`, for one frame (ptile_model.py:905-909); `send`: device.py:157-163. -/
def tx (conv : F → Py Tlp) (s : IntelDma F) (f : F) (ans : List Tlp) : Py (IntelDma F) :=
  match conv f with
  | .error e => .error e
  | .ok t => match assertCheck t with
    | .error e => .error e
    | .ok () => .ok { s with sent := s.sent ++ [t], reqs := s.reqs ++ if t.isNonposted then [{ req := t, ans := ans }] else [] }

/-- The device handles an event (s10_model.py:611-716, 755-761). -/
def devStep (mk : Tlp → Nat → Nat → Py F) (p : RxLimits) (s : IntelDma F) (e : IntelEv) : Option (Py (IntelDma F)) :=
  match s.dev.step mk p e with
  | none => none
  | some (.error x) => some (.error x)
  | some (.ok (d, o)) => some (.ok { s with dev := d, hist := s.hist ++ o })

/-- One event; `none` means that it cannot happen in this state (s10_model.py:611-716, 755-767). -/
def step (mk : Tlp → Nat → Nat → Py F) (conv : F → Py Tlp) (p : RxLimits) (s : IntelDma F) : IntelDmaEv F → Option (Py (IntelDma F))
  | .tx f ans => some (s.tx conv f ans)
  | .cpl i => match s.reqs[i]? with
    | none => none
    | some q => match q.ans[q.done]? with
      | none => none
      | some c => ({ s with reqs := s.reqs.set i { q with done := q.done + 1 } } : IntelDma F).devStep mk p (.recv c)
  | .dev e => s.devStep mk p e

/-- A history (s10_model.py:611-716, 755-767). -/
def run (mk : Tlp → Nat → Nat → Py F) (conv : F → Py Tlp) (p : RxLimits) (s : IntelDma F) : List (IntelDmaEv F) → Option (Py (IntelDma F))
  | [] => some (.ok s)
  | e :: es => match s.step mk conv p e with
    | none => none
    | some (.error x) => some (.error x)
    | some (.ok s) => s.run mk conv p es

end IntelDma
end Pcie
