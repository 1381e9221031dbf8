import Verif.Model.SimPort
/-
Model of the timers of a port: port.py, `get_update_factor`, `get_max_update_latency`, the ACK latency timer, the flow-control update timer and the idle timer,
on top of the ports and wires of `TimedLink`.
-/
namespace Pcie

/-- port.py:53-65 `get_update_factor`, in tenths. -/
def updateFactor (maxPayload width : Nat) : Nat :=
  if maxPayload ≤ 256 then
    if width ≤ 4 then 14
    else if width = 8 then 25
    else 30
  else
    if width ≤ 8 then 10
    else 20

/-- port.py:68-76 `get_max_update_latency`, in symbol times, as a fraction. -/
def maxUpdateLatency (maxPayload width speed : Nat) : Nat × Nat :=
  let delay := if speed = 1 then 19 else if speed = 2 then 70 else 115
  ((maxPayload + 28) * updateFactor maxPayload width + delay * (10 * width), 10 * width)

/-- port.py:696-703: `max_latency_timer_steps` of a connected port; `max_payload_size` is always 128 (port.py:399). Simplification: exact instead of floating point. -/
def SimPort.latencySteps (p : SimPort) (scale : Nat) : Nat :=
  match p.curWidth, p.curSpeed with
  | some w, some s => match genRate s with
    | some (n, d) =>
      let l := maxUpdateLatency 128 w s
      l.1 * 8 * d * scale / (l.2 * n)
    | none => 0
  | _, _ => 0

/-- The times of a link, in steps: how long a packet takes on the wire, the delay of the link, `fc_update_steps`, `max_latency_timer_steps` and `fc_idle_timer_steps`
(port.py:399-418). -/
structure ClockCfg where
  dur : Pkt → Nat
  delay : Nat
  steps : Nat
  latency : Nat
  idle : Nat

/-- port.py:404, 418, 427: when the three timers of a port expire; `none`: not running. -/
structure Timers where
  ackAt : Option Nat := none
  fcAt : Option Nat := none
  idleAt : Nat
deriving DecidableEq, Repr

/-- Two ports, their timers and the wires between them. -/
structure ClockLink where
  l : TimedLink
  ta : Timers
  tb : Timers

/-- The link seen from the other end. -/
def ClockLink.swap (c : ClockLink) : ClockLink := { l := c.l.swap, ta := c.tb, tb := c.ta }

/-- port.py:611-626: the ACK latency timer after a port has changed from `p` to `q`: started if it was not running, or stopped. -/
def Timers.ack (cfg : ClockCfg) (now : Nat) (p q : Port) (t : Timers) : Timers :=
  { t with ackAt := if q.ackTimer then (if p.ackTimer then t.ackAt else some (now + max cfg.latency 1)) else none }

/-- port.py:628-634, 640-641: `start_fc_update_timer`. -/
def Timers.startFc (cfg : ClockCfg) (now : Nat) (t : Timers) : Timers :=
  { t with fcAt := some (t.fcAt.getD (now + max cfg.latency 1)) }

/-- What can happen at a port. -/
inductive ClockAct
  /-- an event of the timed link; `ackTimeout` and `fcTimeout` only when the timer expires -/
  | timed (e : TimedAct)
  /-- port.py:644-648: the idle timer expires -/
  | idle

/-- One event at port `a`; `none` if it cannot happen. -/
def ClockLink.stepA (cfg : ClockCfg) (c : ClockLink) : ClockAct → Option (Py ClockLink)
  | .timed (.act .ackTimeout) =>
    if c.ta.ackAt = some c.l.now then
      some (.ok { c with l := { c.l with a := c.l.a.ackTimeout }, ta := { c.ta with ackAt := none } })
    else none
  | .timed (.act .fcTimeout) =>
    if c.ta.fcAt = some c.l.now then
      some (.ok { c with l := { c.l with a := c.l.a.fcTimeout }, ta := { c.ta with fcAt := none } })
    else none
  | .idle =>
    if c.ta.idleAt = c.l.now then
      some (.ok { c with l := { c.l with a := c.l.a.fcTimeout }, ta := { c.ta with idleAt := c.l.now + max cfg.idle 1 } })
    else none
  | .timed (.act (.release token)) =>
    some (.ok { c with l := { c.l with a := c.l.a.release token },
                       ta := if c.l.a.fc.dict.any (·.1 = token) then c.ta.startFc cfg c.l.now else c.ta })
  | .timed (.arrive i) => (c.l.stepA cfg.dur cfg.delay cfg.steps (.arrive i)).map fun r => match r with
    | .ok l => .ok { c with l := l, tb := c.tb.ack cfg c.l.now c.l.b l.b }
    | .error e => .error e
  | .timed e => (c.l.stepA cfg.dur cfg.delay cfg.steps e).map fun r => match r with
    | .ok l => .ok { c with l := l }
    | .error e => .error e

/-- port.py:441: `_run_transmit` does not wait: it has something to do, and is not waiting for `handle_tx`. -/
def ready (p : Port) (w : Wire Pkt) : Bool :=
  w.ser.isNone && !(p.txq.isEmpty && !p.sendAck && !p.sendFc && p.fcInitialized)

/-- No timer of a port expires before `t`. -/
def Timers.waits (t : Nat) (x : Timers) : Bool := x.ackAt.all (t ≤ ·) && x.fcAt.all (t ≤ ·) && decide (t ≤ x.idleAt)

/-- Events at one of the ports (`true`: `a`) or the passing of time. -/
inductive ClockEv
  | port (atA : Bool) (e : ClockAct)
  | advance (t : Nat)

/-- One event. The simulator lets time pass only when every task waits, and not beyond the expiry of a timer. -/
def ClockLink.step (cfg : ClockCfg) (c : ClockLink) : ClockEv → Option (Py ClockLink)
  | .port true e => c.stepA cfg e
  | .port false e => (c.swap.stepA cfg e).map fun r => match r with
    | .ok c => .ok c.swap
    | .error e => .error e
  | .advance t =>
    if c.l.now ≤ t ∧ c.l.ab.waits t ∧ c.l.ba.waits t ∧ c.ta.waits t ∧ c.tb.waits t ∧
        (c.l.now < t → ready c.l.a c.l.ab = false ∧ ready c.l.b c.l.ba = false) then
      some (.ok { c with l := { c.l with now := t } })
    else none

/-- A history of events, as far as the ports raise no exception. -/
def ClockLink.run (cfg : ClockCfg) (c : ClockLink) : List ClockEv → Option (Py ClockLink)
  | [] => some (.ok c)
  | e :: es => match ClockLink.step cfg c e with
    | none => none
    | some (.error x) => some (.error x)
    | some (.ok c) => c.run cfg es

end Pcie
