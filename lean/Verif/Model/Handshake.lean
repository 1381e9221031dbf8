import Verif.Model.Tlp
/-
Model of the ready/valid handshakes between sources and sinks: intel/s10/interface.py and intel/ptile/interface.py (with ready latency),
xilinx/us/interface.py (AXI stream). The transactions that are transferred are of any type.

Simplifications: no reset while transactions are transferred; a task that is woken by an event runs before the next clock edge (the scheduler
of cocotb runs woken tasks in the same time step), so `_run` of a sink has taken `sample_obj` before the next one comes; values written
to signals are seen at the next clock edge.
-/
namespace Pcie
namespace Hs

/-- A source, the bus and a sink. `todo`: what `_run` of the source gives to `_drive` next; `got`: what `_run` of the sink has been given. -/
structure St (α : Type) where
  todo : List α := []
  drive : Option α := none
  valid : Bool := false
  bus : Option α := none
  ready : Bool := false
  srcDelay : List Bool := []
  snkDelay : List Bool := []
  got : List α := []
deriving DecidableEq, Repr

/-- What can happen: `_run` builds a transaction (`give`), `_drive` finds `drive_obj` empty (`load`), a clock edge. The source may be paused
at an edge; the sink may be paused or full. -/
inductive Ev (α : Type)
  | give (a : α)
  | load
  | edge (srcPause snkPause : Bool)
deriving DecidableEq, Repr

/-- intel/s10/interface.py:404-409 with `n = ready_latency-1`, 563-568 with `n = ready_latency`: the delayed sample of `ready` and the new list. -/
def delay (n : Nat) (d : List Bool) (ready : Bool) : Bool × List Bool :=
  if n > 0 then
    let d := (if d.length ≠ n then List.replicate n false else d) ++ [ready]
    (d.headD false, d.tail)
  else (ready, d)

/-- intel/s10/interface.py:346-351: `_drive`; it waits while `drive_obj` is not None. -/
def St.load {α} (s : St α) : St α :=
  match s.drive, s.todo with
  | none, a :: r => { s with drive := some a, todo := r }
  | _, _ => s

/-- intel/s10/interface.py:393-421: one clock edge in `_run_source`. `nz a`: some bit of `a.valid` is set. (intel/ptile/interface.py:427-455 is the same.) -/
def St.source {α} (latency : Nat) (nz : α → Bool) (pause : Bool) (s : St α) : St α :=
  let r := delay (latency - 1) s.srcDelay s.ready
  let s' := { s with srcDelay := r.2 }
  if (r.1 && s.valid) || !s.valid || decide (latency > 0) then
    match s.drive with
    | some a => if !pause && (r.1 || decide (latency = 0)) then { s' with bus := some a, valid := nz a, drive := none } else { s' with valid := false }
    | none => { s' with valid := false }
  else s'

/-- intel/s10/interface.py:553-577: one clock edge in `_run_sink`, for the values of the bus before the edge; `s'` is the state after the source.
(intel/ptile/interface.py:591-615 is the same.) -/
def St.sink {α} (latency : Nat) (pause : Bool) (s s' : St α) : Py (St α) :=
  let r := delay latency s.snkDelay s.ready
  let s' := { s' with snkDelay := r.2, ready := !pause }
  if s.valid && r.1 then .ok { s' with got := s.got ++ s.bus.toList }
  else if decide (latency > 0) && s.valid then .error "handshake error: valid asserted outside of ready cycle"
  else .ok s'

def St.step {α} (latency : Nat) (nz : α → Bool) (s : St α) : Ev α → Py (St α)
  | .give a => .ok { s with todo := s.todo ++ [a] }
  | .load => .ok s.load
  | .edge p q => s.sink latency q (s.source latency nz p)

def St.run {α} (latency : Nat) (nz : α → Bool) : St α → List (Ev α) → Py (St α)
  | s, [] => .ok s
  | s, e :: es => match s.step latency nz e with
    | .error e => .error e
    | .ok s => St.run latency nz s es

end Hs

namespace Axis

/-- A source, the bus and a sink of xilinx/us/interface.py. `srcAsleep`: `_run_source` waits for `bus_active_event` (338); `snkAsleep`: `_run_sink` waits
for `wake_event` (485); `pauseSample`: its local variable (450); `full`: what `full()` of the sink returns. -/
structure St (α : Type) where
  todo : List α := []
  drive : Option α := none
  valid : Bool := false
  bus : Option α := none
  ready : Bool := false
  srcAsleep : Bool := false
  snkAsleep : Bool := false
  pause : Bool := false
  pauseSample : Bool := false
  full : Bool := false
  got : List α := []
deriving DecidableEq, Repr

/-- What can happen: as for `Hs.Ev`; `setPause` on the sink; a frame is put in the queue of the sink (`queued full`), or taken from it
(`recv full`), with the resulting value of `full()`. -/
inductive Ev (α : Type)
  | give (a : α)
  | load
  | edge (srcPause : Bool)
  | setPause (v : Bool)
  | queued (full : Bool)
  | recv (full : Bool)
deriving DecidableEq, Repr

/-- xilinx/us/interface.py:255-261: `_drive`; sets `bus_active_event`. -/
def St.load {α} (s : St α) : St α :=
  match s.drive, s.todo with
  | none, a :: r => { s with drive := some a, todo := r, srcAsleep := false }
  | _, _ => s

/-- xilinx/us/interface.py:450, 485: `wake_event` is set; the sink starts the next iteration of its loop. -/
def St.wake {α} (s : St α) : St α := if s.snkAsleep then { s with snkAsleep := false, pauseSample := s.pause } else s

/-- xilinx/us/interface.py:302-338: one clock edge in `_run_source`. -/
def St.source {α} (pause : Bool) (s : St α) : St α :=
  if s.srcAsleep then s
  else if (s.ready && s.valid) || !s.valid then
    match s.drive with
    | some a => if !pause then { s with bus := some a, valid := true, drive := none } else { s with valid := false }
    | none => { s with valid := false, srcAsleep := true }
  else s

/-- xilinx/us/interface.py:450-485: one clock edge in `_run_sink`, for the values of the bus before the edge. -/
def St.sink {α} (s s' : St α) : St α :=
  if s.snkAsleep then s'
  else
    let s' := if s.ready && s.valid then { s' with got := s.got ++ s.bus.toList } else s'
    let paused := s.full || s.pauseSample
    let s' := { s' with ready := !paused }
    if (!s.valid || paused) && s.pauseSample == s.pause then { s' with snkAsleep := true }
    else { s' with pauseSample := s.pause }

/-- xilinx/us/interface.py:430-442: the monitors set `wake_event` when `tvalid` or `tready` rises. -/
def St.monitor {α} (s s' : St α) : St α :=
  if (!s.valid && s'.valid) || (!s.ready && s'.ready) then s'.wake else s'

def St.step {α} (s : St α) : Ev α → St α
  | .give a => { s with todo := s.todo ++ [a] }
  | .load => s.load
  | .edge p => s.monitor (s.sink (s.source p))
  -- 199-202 and 389: `_pause_update` when the value changes
  | .setPause v => if s.pause ≠ v then { s with pause := v }.wake else s
  -- 490-495
  | .queued f => { s with full := s.full || f }
  -- 392-401: `_dequeue` sets `wake_event`
  | .recv f => { s with full := s.full && f }.wake

def St.run {α} (s : St α) (es : List (Ev α)) : St α := es.foldl St.step s

end Axis
end Pcie
