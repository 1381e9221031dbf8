import Verif.Spec.FcTime
/-
Time until TLPs are acknowledged.
-/
namespace Pcie.Spec

/-- The times of the TLPs in a history of packets. -/
def tlpTimes (l : List (Pkt × Nat)) : List Nat := l.filterMap fun e => match e.1 with
  | .tlp _ => some e.2
  | .dllp _ => none

/-- How many TLPs of a sender have been acknowledged: those it accepted, without those that wait to be transmitted and those in the retry buffer. -/
def acked (p : Port) : Nat := p.accepted.length - (p.txq.length + p.retry.length)

/-- The time within which a TLP that has been received is acknowledged: the latency of the ACK timer, the time of one packet (at most `D`) that is being sent, that of the
ACK (at most `d`), and the delay of the link. -/
def ackTime (cfg : ClockCfg) (D d : Nat) : Nat := max cfg.latency 1 + D + d + cfg.delay

/-- The time from the moment a TLP (which takes at most `D`) is sent until it is acknowledged. -/
def roundTrip (cfg : ClockCfg) (D d : Nat) : Nat := D + cfg.delay + ackTime cfg D d

/-- All packets that two ports have sent: none takes longer than `D`, and no TLP less than `m`. -/
def Sizes (cfg : ClockCfg) (D m : Nat) (c : ClockLink) : Prop :=
  ∀ e ∈ c.l.ab.sent ++ c.l.ba.sent, cfg.dur e.1 ≤ D ∧ ∀ t, e.1 = .tlp t → m ≤ cfg.dur e.1

end Pcie.Spec
