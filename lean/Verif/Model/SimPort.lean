import Verif.Model.Port
/-
Model of the link between two simulated ports: port.py, `SimPort` and `PCIE_GEN_RATE`.
-/
namespace Pcie

/-- port.py:36-42: `PCIE_GEN_RATE`, in bits per second, as a fraction; `none` is the `KeyError`. -/
def genRate : Nat → Option (Nat × Nat)
  | 1 => some (2500000000 * 8, 10)
  | 2 => some (5000000000 * 8, 10)
  | 3 => some (8000000000 * 128, 130)
  | 4 => some (16000000000 * 128, 130)
  | 5 => some (32000000000 * 128, 130)
  | _ => none

/-- port.py:650-660: a `SimPort`; `other` is the number of the connected port. Simplification: `port_delay` is in femtoseconds (the default is 5 ns), and
`symbol_period` is a fraction of a second. -/
structure SimPort where
  maxSpeed : Option Nat := none
  maxWidth : Option Nat := none
  portDelay : Nat := 5000000
  other : Option Nat := none
  curSpeed : Option Nat := none
  curWidth : Option Nat := none
  symbolPeriod : Nat × Nat := (0, 1)
  linkDelay : Nat := 0
deriving DecidableEq, Repr

namespace SimPort

/-- port.py:680-686 and 688-694: what two ports agree on; `None` and 0 are false in Python. -/
def agree (mine other : Option Nat) : Option Nat :=
  match mine with
  | some (m + 1) => match other with
    | some (o + 1) => some (min (m + 1) (o + 1))
    | _ => some (m + 1)
  | _ => other

/-- port.py:674-703: `_connect_int`; `scale` is the number of steps in a second. Simplification: exact instead of floating point; the latency timer is left out. A
width of 0 is a division by zero. -/
def connectInt (p : SimPort) (i : Nat) (port : SimPort) (scale : Nat) : Py SimPort :=
  if p.other.isSome then .error "Already connected"
  else
    let p := { p with other := some i, curSpeed := agree p.maxSpeed port.maxSpeed, curWidth := agree p.maxWidth port.maxWidth }
    match p.curWidth, p.curSpeed with
    | some w, some s => match genRate s with
      | none => .error "KeyError"
      | some (n, d) =>
        if w = 0 then .error "ZeroDivisionError"
        else .ok { p with symbolPeriod := (8 * d, n * w), linkDelay := (p.portDelay + port.portDelay) * scale / 10 ^ 15 }
    | _, _ => .ok { p with symbolPeriod := (0, 1), linkDelay := 0 }

/-- port.py:662-672: `connect` of port `i` to port `j`. -/
def connect (ps : Nat → SimPort) (i j scale : Nat) : Py (Nat → SimPort) :=
  if (ps i).other.isSome then .error "Already connected"
  else match connectInt (ps j) i (ps i) scale with
    | .error e => .error e
    | .ok q =>
      let ps := fun k => if k = j then q else ps k
      match connectInt (ps i) j (ps j) scale with
      | .error e => .error e
      | .ok p => .ok fun k => if k = i then p else ps k

/-- port.py:706: how long a packet takes on the wire, in steps: the argument of the `Timer`. -/
def duration (p : SimPort) (scale size : Nat) : Nat := max (size * p.symbolPeriod.1 * scale / p.symbolPeriod.2) 1

/-- port.py:712: the delay of the link: the argument of the `Timer`. -/
def delay (p : SimPort) : Nat := max p.linkDelay 1

end SimPort

/-- port.py:705-713: one direction of a link. `ser` is the packet for which `handle_tx` waits, with the time at which its timer expires; `fly` are the tasks started by
`_transmit`, in the order they were started, with the times at which their timers expire. `sent` and `got` are history: packets and times at which `handle_tx` was called
and `ext_recv` was called. -/
structure Wire (α : Type) where
  ser : Option (α × Nat) := none
  fly : List (α × Nat) := []
  sent : List (α × Nat) := []
  got : List (α × Nat) := []

namespace Wire
variable {α : Type}

/-- port.py:706 `handle_tx`; the transmitter waits for it to return (541-542) before it takes the next packet. -/
def start (dur : α → Nat) (now : Nat) (p : α) (w : Wire α) : Option (Wire α) :=
  match w.ser with
  | none => some { w with ser := some (p, now + dur p), sent := w.sent ++ [(p, now)] }
  | some _ => none

/-- port.py:707-712: the timer of `handle_tx` expires and `_transmit` starts. -/
def pass (delay now : Nat) (w : Wire α) : Option (Wire α) :=
  match w.ser with
  | some (p, t) => if t = now then some { w with ser := none, fly := w.fly ++ [(p, now + delay)] } else none
  | none => none

/-- port.py:713: the timer of task `i` expires; the packet goes to `ext_recv`. -/
def arrive (now i : Nat) (w : Wire α) : Option (α × Wire α) :=
  match w.fly[i]? with
  | some (p, t) => if t = now then some (p, { w with fly := w.fly.eraseIdx i, got := w.got ++ [(p, now)] }) else none
  | none => none

/-- The simulator: time does not pass the expiry of a timer. -/
def waits (t : Nat) (w : Wire α) : Bool := w.ser.all (fun e => t ≤ e.2) && w.fly.all (fun e => t ≤ e.2)

end Wire

/-- Events on one direction of a link, chosen by the simulator in any order that the timers allow; of several timers that expire at the same time any may be first. -/
inductive WireEv (α : Type)
  | start (p : α)
  | pass
  | arrive (i : Nat)
  | advance (t : Nat)

/-- One event; `none` if it cannot happen. -/
def Wire.step {α : Type} (dur : α → Nat) (delay : Nat) (s : Nat × Wire α) : WireEv α → Option (Nat × Wire α)
  | .start p => (s.2.start dur s.1 p).map (s.1, ·)
  | .pass => (s.2.pass delay s.1).map (s.1, ·)
  | .arrive i => (s.2.arrive s.1 i).map fun r => (s.1, r.2)
  | .advance t => if s.1 ≤ t ∧ s.2.waits t then some (t, s.2) else none

/-- A history of events. -/
def Wire.run {α : Type} (dur : α → Nat) (delay : Nat) (s : Nat × Wire α) : List (WireEv α) → Option (Nat × Wire α)
  | [] => some s
  | e :: es => (Wire.step dur delay s e).bind fun s => Wire.run dur delay s es

/-- tlp.py:452-454, dllp.py:137-139: `get_wire_size`. -/
def Pkt.wireSize : Pkt → Nat
  | .dllp _ => 8
  | .tlp t => t.wireSize

/-- Two ports and the wires between them. -/
structure TimedLink where
  now : Nat := 0
  a : Port := {}
  b : Port := {}
  ab : Wire Pkt := {}
  ba : Wire Pkt := {}

/-- What can happen at a port or on the wire that starts there. -/
inductive TimedAct
  /-- anything except `transmit` and `recv`, which are the next three; these take no part -/
  | act (e : PortAct)
  /-- port.py:438-542: an iteration of `_run_transmit`, up to `handle_tx` -/
  | transmit
  | pass
  /-- the packet of task `i` arrives at the other port -/
  | arrive (i : Nat)

/-- The link seen from the other end. -/
def TimedLink.swap (l : TimedLink) : TimedLink := { now := l.now, a := l.b, b := l.a, ab := l.ba, ba := l.ab }

/-- One event at port `a` and its wire; `none` if it cannot happen. `steps` is `fc_update_steps`. -/
def TimedLink.stepA (dur : Pkt → Nat) (delay steps : Nat) (l : TimedLink) : TimedAct → Option (Py TimedLink)
  | .act (.send t) => match l.a.send t with
    | some p => some (.ok { l with a := p })
    | none => some (.ok l)
  | .act (.release token) => some (.ok { l with a := l.a.release token })
  | .act .ackTimeout => some (.ok { l with a := l.a.ackTimeout })
  | .act .fcTimeout => some (.ok { l with a := l.a.fcTimeout })
  | .act .take => some (.ok { l with a := l.a.take })
  | .act (.transmit _) => none
  | .act .recv => none
  | .transmit =>
    match l.ab.ser with
    | some _ => none
    | none =>
      match l.a.transmit l.now steps with
      | (p, none) => some (.ok { l with a := p })
      | (p, some pkt) => (l.ab.start dur l.now pkt).map fun w => .ok { l with a := p, ab := w }
  | .pass => (l.ab.pass delay l.now).map fun w => .ok { l with ab := w }
  | .arrive i => (l.ab.arrive l.now i).map fun r => match l.b.recv r.1 with
    | .ok b => .ok { l with b := b, ab := r.2 }
    | .error e => .error e

/-- Events at one of the ports (`true`: `a`) or the passing of time. -/
inductive TimedEv
  | port (atA : Bool) (e : TimedAct)
  | advance (t : Nat)

/-- One event. -/
def TimedLink.step (dur : Pkt → Nat) (delay steps : Nat) (l : TimedLink) : TimedEv → Option (Py TimedLink)
  | .port true e => l.stepA dur delay steps e
  | .port false e => (l.swap.stepA dur delay steps e).map fun r => match r with
    | .ok l => .ok l.swap
    | .error e => .error e
  | .advance t => if l.now ≤ t ∧ l.ab.waits t ∧ l.ba.waits t then some (.ok { l with now := t }) else none

/-- A history of events, as far as the ports raise no exception. -/
def TimedLink.run (dur : Pkt → Nat) (delay steps : Nat) (l : TimedLink) : List TimedEv → Option (Py TimedLink)
  | [] => some (.ok l)
  | e :: es => match TimedLink.step dur delay steps l e with
    | none => none
    | some (.error x) => some (.error x)
    | some (.ok l) => l.run dur delay steps es

end Pcie
