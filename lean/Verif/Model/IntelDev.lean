import Verif.Model.UsCq
import Verif.Model.FrameTlp
import Verif.Model.IntelRx
/-
Model of the Intel hard IP models between the link and the user: `upstream_recv`, `_run_rx_logic` and `_run_tx_logic` of intel/s10/s10_model.py and intel/ptile/ptile_model.py. The code of
the two is the same, with the frames of each; the line numbers are those of s10_model.py (ptile_model.py: 757-862, 897-909).
-/
namespace Pcie

/-- s10_model.py:636-638, 671-674, 692-695: the frame for the user, made from a TLP, with `bar_range` and `func_num`. -/
def S10Frame.ofRx (t : Tlp) (bar fn : Nat) : Py S10Frame := do
  let f ← S10Frame.fromTlp t
  return { f with barRange := bar, funcNum := fn }

/-- ptile_model.py:782-784, 817-820, 838-841: likewise. -/
def PTileFrame.ofRx (t : Tlp) (bar fn : Nat) : Py PTileFrame := do
  let f ← PTileFrame.fromTlp t
  return { f with barRange := bar, funcNum := fn }

/-- What is done with a TLP from the link. `F` are the frames. -/
inductive RxEff (F : Type) where
  /-- `release_fc()` of the TLP is called -/
  | release
  /-- the function with this position gets the TLP -/
  | fn (k : Nat) (es : List Eff)
  /-- the TLP is put into the queue for the user, as this frame -/
  | user (f : F)
  /-- a TLP is sent upstream -/
  | up (c : Tlp)
deriving DecidableEq, Repr

/-- s10_model.py:120-121, 256-263: the device, the queue, the TLP that `_run_rx_logic` is handing over, and the counters. -/
structure IntelDev (F : Type) where
  dev : Dev := {}
  queue : List (Tlp × F) := []
  sending : Option (Tlp × F) := none
  cplh : Nat := 0
  cpld : Nat := 0
deriving DecidableEq, Repr

namespace IntelDev
variable {F : Type}

/-- s10_model.py:714-716 (`upstream_send`: device.py:157-160). -/
def answerUr (s : IntelDev F) (t : Tlp) : Py (IntelDev F × List (RxEff F)) :=
  match assertCheck (t.createUr ⟨s.dev.bus, 0, 0⟩) with
  | .error e => .error e
  | .ok () => .ok (s, [.release, .up (t.createUr ⟨s.dev.bus, 0, 0⟩)])

/-- s10_model.py:614-628: a configuration request of type 0. -/
def recvCfg (s : IntelDev F) (t : Tlp) : Py (IntelDev F × List (RxEff F)) :=
  let s := { s with dev := s.dev.setBus t.completer_id.bus }
  match UsDev.findId t.completer_id 0 s.dev.fns with
  | none => s.answerUr t
  | some k =>
    match s.dev.fns[k]? with
    | none => .error "unreachable"
    | some f => match f.upstreamRecv t with
      | .error e => .error e
      | .ok (f, es) => .ok ({ s with dev := { s.dev with fns := s.dev.fns.set k f } }, [.fn k es])

/-- s10_model.py:633-660: a completion. `mk` makes the frame. -/
def recvCpl (mk : Tlp → Nat → Nat → Py F) (p : RxLimits) (s : IntelDev F) (t : Tlp) : Py (IntelDev F × List (RxEff F)) :=
  match UsDev.findId t.requester_id 0 s.dev.fns with
  | none => .ok (s, [.release])
  | some _ =>
    match mk t 0 t.requester_id.function with
    | .error e => .error e
    | .ok f =>
      if s.cplh + 1 ≤ p.cplh ∧ s.cpld + t.dataCredits ≤ p.cpld then
        .ok ({ s with cplh := s.cplh + 1, cpld := s.cpld + t.dataCredits, queue := s.queue ++ [(t, f)] }, [.user f, .release])
      else .ok (s, [.release])

/-- s10_model.py:663-684: an I/O request. -/
def recvIo (mk : Tlp → Nat → Nat → Py F) (s : IntelDev F) (t : Tlp) : Py (IntelDev F × List (RxEff F)) :=
  match UsDev.findBar true t.address 0 s.dev.fns with
  | .error e => .error e
  | .ok none => s.answerUr t
  | .ok (some _) =>
    match mk t 6 t.requester_id.function with
    | .error e => .error e
    | .ok f => .ok ({ s with queue := s.queue ++ [(t, f)] }, [.user f, .release])

/-- s10_model.py:685-710: a memory request. -/
def recvMem (mk : Tlp → Nat → Nat → Py F) (s : IntelDev F) (t : Tlp) : Py (IntelDev F × List (RxEff F)) :=
  match UsDev.findBar false t.address 0 s.dev.fns with
  | .error e => .error e
  | .ok none => if t.fmtType = some .MEM_WRITE ∨ t.fmtType = some .MEM_WRITE_64 then .ok (s, [.release]) else s.answerUr t
  | .ok (some (_, idx)) =>
    match mk t idx t.requester_id.function with
    | .error e => .error e
    | .ok f => .ok ({ s with queue := s.queue ++ [(t, f)] }, [.user f, .release])

/-- s10_model.py:611-716 `upstream_recv`. -/
def recv (mk : Tlp → Nat → Nat → Py F) (p : RxLimits) (s : IntelDev F) (t : Tlp) : Py (IntelDev F × List (RxEff F)) :=
  match t.fmtType with
  | none => .error "ValueError"
  | some ty =>
    if ty.isCfg0 then s.recvCfg t
    else if ty.isCfg1 then s.answerUr t
    else if ty.isCpl then s.recvCpl mk p t
    else if ty.isIo then s.recvIo mk t
    else if ty.isMem then s.recvMem mk t
    else .error "TODO"

end IntelDev

/-- What can happen: a TLP arrives from the link, `_run_rx_logic` takes a frame from the queue, or has handed it to the streaming interface, or others change the configuration. -/
inductive IntelEv where
  | recv (t : Tlp)
  | get
  | done
  | cfg (d : Dev)
deriving DecidableEq, Repr

/-- What can be seen from outside (a history, not part of the code): a TLP arrived, with what was done with it; a frame was handed to the streaming interface. -/
inductive IntelObs (F : Type) where
  | arrived (t : Tlp) (es : List (RxEff F))
  | sent (f : F)
deriving DecidableEq, Repr

namespace IntelDev
variable {F : Type}

/-- One event, with what can be seen; `none` means that it cannot happen in this state. s10_model.py:611-716, 755-761. -/
def step (mk : Tlp → Nat → Nat → Py F) (p : RxLimits) (s : IntelDev F) : IntelEv → Option (Py (IntelDev F × List (IntelObs F)))
  | .recv t => some (match s.recv mk p t with
    | .error e => .error e
    | .ok (s, es) => .ok (s, [.arrived t es]))
  | .get => match s.sending, s.queue with
    | none, x :: rest => some (.ok ({ s with sending := some x, queue := rest }, []))
    | _, _ => none
  | .done => match s.sending with
    | some (t, f) => some (.ok ({ s with sending := none, cplh := s.cplh - 1, cpld := s.cpld - t.dataCredits }, [.sent f]))
    | none => none
  | .cfg d => some (.ok ({ s with dev := d }, []))

/-- A history. -/
def run (mk : Tlp → Nat → Nat → Py F) (p : RxLimits) (s : IntelDev F) : List IntelEv → Option (Py (IntelDev F × List (IntelObs F)))
  | [] => some (.ok (s, []))
  | e :: es => match s.step mk p e with
    | none => none
    | some (.error x) => some (.error x)
    | some (.ok (s, o)) => match run mk p s es with
      | none => none
      | some (.error x) => some (.error x)
      | some (.ok (s, o')) => some (.ok (s, o ++ o'))

/-- s10_model.py:763-767 `_run_tx_logic`, for the frames that the user sends one after another: the TLPs that are passed to the port (device.py:157-163), up to the first that raises an
exception. -/
def tx (conv : F → Py Tlp) : List F → List Tlp
  | [] => []
  | f :: fs => match conv f with
    | .error _ => []
    | .ok t => match assertCheck t with
      | .error _ => []
      | .ok () => t :: tx conv fs

end IntelDev
end Pcie
