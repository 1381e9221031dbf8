import Verif.Model.Tlp
/-
Model of the receive queue of the Intel hard IP models (intel/s10/s10_model.py, intel/ptile/ptile_model.py; the code is the same, the limits differ). The line numbers are
those of s10_model.py.
-/
namespace Pcie

/-- s10_model.py:260-261, ptile_model.py:335-343: the limits of the buffer for completions. -/
structure RxLimits where
  cplh : Nat := 770
  cpld : Nat := 2432

/-- s10_model.py:256-263: the queue, the TLP that `_run_rx_logic` has taken from it and not yet accounted for, and the counters. `got` and `lost` are histories. -/
structure IntelRx where
  queue : List Tlp := []
  sending : Option Tlp := none
  cplh : Nat := 0
  cpld : Nat := 0
  got : List Tlp := []
  lost : List Tlp := []

/-- What can happen: `upstream_recv` gets a TLP that matches a function (completions) or a BAR (requests), `_run_rx_logic` takes a TLP from the queue, or has handed it to
the streaming interface. -/
inductive RxAct where
  | recv (t : Tlp)
  | get
  | done

namespace IntelRx

/-- s10_model.py:645-655 (completions), 676 and 697 (requests), 755-761 `_run_rx_logic`; `none` means that it cannot happen in this state. -/
def step (p : RxLimits) (s : IntelRx) : RxAct → Option IntelRx
  | .recv t =>
    if t.isCompletion then
      if s.cplh + 1 ≤ p.cplh ∧ s.cpld + t.dataCredits ≤ p.cpld then
        some { s with cplh := s.cplh + 1, cpld := s.cpld + t.dataCredits, queue := s.queue ++ [t] }
      else some { s with lost := s.lost ++ [t] }
    else some { s with queue := s.queue ++ [t] }
  | .get => match s.sending, s.queue with
    | none, t :: rest => some { s with sending := some t, queue := rest }
    | _, _ => none
  | .done => match s.sending with
    | some t => some { s with sending := none, cplh := s.cplh - 1, cpld := s.cpld - t.dataCredits, got := s.got ++ [t] }
    | none => none

/-- A history. -/
def run (p : RxLimits) (s : IntelRx) : List RxAct → Option IntelRx
  | [] => some s
  | a :: as => (s.step p a).bind fun s => run p s as

end IntelRx
end Pcie
