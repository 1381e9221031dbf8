import Verif.Model.Handshake
import Verif.Model.S10Stream
import Verif.Model.PTileStream
import Verif.Model.UsStream
/-
The queues of the sources and sinks of the streaming interfaces, with their limits and with what tells the user that everything has been sent: intel/s10/interface.py,
intel/ptile/interface.py and xilinx/us/interface.py, `send`, `send_nowait`, `recv`, `clear`, `full`, `idle`, `wait`. Line numbers without a file are those of
intel/s10/interface.py; the other two files have the same code unless said otherwise.

Simplifications: no reset; the limits do not change; no pause generators (the pauses are arbitrary).
-/
namespace Pcie
namespace Sq

/-- 317-318, 505-506: `queue_occupancy_limit_bytes` and `queue_occupancy_limit_frames`. -/
structure Limits where
  bytes : Int := -1
  frames : Int := -1
deriving DecidableEq, Repr

/-- 372-378, 528-534: `full`, from the two counters. -/
def Limits.full (l : Limits) (bytes frames : Int) : Bool :=
  if l.bytes > 0 ∧ bytes > l.bytes then true
  else if l.frames > 0 ∧ frames > l.frames then true
  else false

/-- How `_run` turns frames of type `F` into transactions of type `T`; `C` are its local variables while it has a frame. `size` is `__len__` of a frame, `beat` one
iteration of the inner loop, with what it leaves in the queue. -/
structure Packer (F C T : Type) where
  size : F → Nat
  beat : Option C → List F → Py (Option C × List F × T)

/-- 164-165, 430-472. -/
def s10 (b : S10.Bus) : Packer S10Frame S10.Cur S10.Txn where
  size f := f.data.length
  beat c q := match S10.putSegs b (List.range b.segs) {} c q with
    | .error e => .error e
    | .ok (t, c, q) => match b.carry t with
      | .error e => .error e
      | .ok t => .ok (c, q, t)

/-- intel/ptile/interface.py:182-183, 464-510. -/
def ptile (b : PTile.Bus) : Packer PTileFrame PTile.Cur PTile.Txn where
  size f := f.data.length
  beat c q := match PTile.putSegs b (List.range b.segs) {} c q with
    | .error e => .error e
    | .ok (t, c, q) => match b.carry t with
      | .error e => .error e
      | .ok t => .ok (c, q, t)

/-- xilinx/us/interface.py:95-96, 513-588, 713-782, 907-979, 1097-1159. -/
def us (b : Us.Bus) : Packer UsFrame Us.Cur Us.Txn where
  size f := f.data.length
  beat c q := match Us.putSegs b (List.range b.segs) {} c q with
    | .error e => .error e
    | .ok (a, c, q) => match b.carry a.t with
      | .error e => .error e
      | .ok t => .ok (c, q, t)

/-- What `_run_source` does at a clock edge: drives a transaction, takes `valid` away, or leaves everything as it is. -/
inductive Did
  | drove
  | stopped
  | kept
deriving DecidableEq, Repr

/-- A handshake (Model/Handshake.lean): its state `B`, its events `V`. `give` and `load` are what `_drive` does; the other events are `outside`,
and `edge` tells which of them is a clock edge. -/
structure Wires (T B V : Type) where
  init : B
  step : B → V → Py B
  give : T → V
  load : V
  outside : V → Bool
  edge : V → Bool
  drive : B → Option T
  todo : B → List T
  did : B → V → Did

/-- 410-421, in the interfaces with ready latency. -/
def hsDid {T : Type} (latency : Nat) (s : Hs.St T) : Hs.Ev T → Did
  | .edge pause _ =>
    let r := Hs.delay (latency - 1) s.srcDelay s.ready
    if (r.1 && s.valid) || !s.valid || decide (latency > 0) then
      if s.drive.isSome && !pause && (r.1 || decide (latency = 0)) then .drove else .stopped
    else .kept
  | _ => .kept

/-- 346-351, 386-421, 547-577. -/
def hs {T : Type} (latency : Nat) (nz : T → Bool) : Wires T (Hs.St T) (Hs.Ev T) where
  init := {}
  step s e := s.step latency nz e
  give := .give
  load := .load
  outside | .give _ => false | .load => false | _ => true
  edge | .edge .. => true | _ => false
  drive s := s.drive
  todo s := s.todo
  did := hsDid latency

/-- xilinx/us/interface.py:322-338. -/
def axisDid {T : Type} (s : Axis.St T) : Axis.Ev T → Did
  | .edge pause =>
    if s.srcAsleep then .kept
    else if (s.ready && s.valid) || !s.valid then
      if s.drive.isSome && !pause then .drove else .stopped
    else .kept
  | _ => .kept

/-- xilinx/us/interface.py:255-261, 296-338, 444-485. -/
def axis {T : Type} : Wires T (Axis.St T) (Axis.Ev T) where
  init := {}
  step s e := .ok (s.step e)
  give := .give
  load := .load
  outside | .give _ => false | .load => false | _ => true
  edge | .edge .. => true | _ => false
  drive s := s.drive
  todo s := s.todo
  did := axisDid

/-- 209-221, 314-318, 387: a source. `idleEvent`: `idle_event` is set; `waiting`: the tasks that wait in `send` (354-356), each with whether `dequeue_event` has woken it; `log`, `given`
and `ran` are history: the frames put in the queue (`some`) and the iterations of `_run` (`none`); the transactions built; and the events of the handshake. -/
structure Src (F C T B V : Type) where
  queue : List F := []
  bytes : Int := 0
  frames : Int := 0
  cur : Option C := none
  wires : B
  idleEvent : Bool := true
  active : Bool := false
  waiting : List (F × Bool) := []
  log : List (Option F) := []
  given : List T := []
  ran : List V := []

/-- What can happen: a task calls `send` or `send_nowait`; one that waits in `send` and has been woken goes on; `clear`; `_run` goes on; something happens in the handshake. -/
inductive SrcEv (F V : Type)
  | send (f : F)
  | sendNowait (f : F)
  | retry (i : Nat)
  | clear
  | work
  | bus (e : V)
deriving DecidableEq, Repr

namespace Src
variable {F C T B V : Type}

/-- 372-378. -/
def full (l : Limits) (s : Src F C T B V) : Bool := l.full s.bytes s.frames

/-- 380-381: `idle`. -/
def idle (s : Src F C T B V) : Bool := s.queue.isEmpty && !s.active

/-- 357-361: the frame is put in the queue, which is not bounded. -/
def put (P : Packer F C T) (f : F) (s : Src F C T B V) : Src F C T B V :=
  { s with queue := s.queue ++ [f], idleEvent := false, bytes := s.bytes + P.size f, frames := s.frames + 1, log := s.log ++ [some f] }

/-- 474-486: `_get_frame` and `_get_frame_nowait` have taken the frames `l`, and `q` is left; `dequeue_event` wakes the tasks in `send`. -/
def took (P : Packer F C T) (l q : List F) (s : Src F C T B V) : Src F C T B V :=
  { s with queue := q, bytes := s.bytes - ((l.map P.size).sum : Nat), frames := s.frames - l.length,
           waiting := if l.isEmpty then s.waiting else s.waiting.map fun x => (x.1, true) }

/-- Whether `_run` can go on: it neither waits for a frame (425) nor for `drive_obj` to be taken (347-349). -/
def canWork (W : Wires T B V) (s : Src F C T B V) : Bool :=
  match W.todo s.wires with
  | _ :: _ => (W.drive s.wires).isNone
  | [] => s.cur.isSome || !s.queue.isEmpty

/-- 346-351, 423-472: `_run` goes on: it leaves `_drive`, or builds a transaction and enters `_drive`. -/
def work (P : Packer F C T) (W : Wires T B V) (s : Src F C T B V) : Option (Py (Src F C T B V)) :=
  if s.canWork W then
    match W.todo s.wires with
    | _ :: _ => match W.step s.wires W.load with
      | .error e => some (.error e)
      | .ok b => some (.ok { s with wires := b, ran := s.ran ++ [W.load] })
    | [] => match P.beat s.cur s.queue with
      | .error e => some (.error e)
      | .ok (c, q, t) => match W.step s.wires (W.give t) with
        | .error e => some (.error e)
        | .ok b =>
          let s := s.took P (s.queue.take (s.queue.length - q.length)) q
          some (.ok { s with cur := c, wires := b, log := s.log ++ [none], given := s.given ++ [t], ran := s.ran ++ [W.give t] })
  else none

/-- One event; `none` if it cannot happen. 353-361 `send`; 363-370 `send_nowait` (the exception `QueueFull` goes to the caller, and nothing else happens); 268-272 `clear`;
410-421 `_run_source`. -/
def step (P : Packer F C T) (W : Wires T B V) (l : Limits) (s : Src F C T B V) : SrcEv F V → Option (Py (Src F C T B V))
  | .send f => some (.ok (if s.full l then { s with waiting := s.waiting ++ [(f, false)] } else s.put P f))
  | .sendNowait f => some (.ok (if s.full l then s else s.put P f))
  | .retry i => match s.waiting[i]? with
    | some (f, true) =>
      some (.ok (if s.full l then { s with waiting := s.waiting.set i (f, false) } else { s with waiting := s.waiting.eraseIdx i }.put P f))
    | _ => none
  | .clear => some (.ok { s with queue := [], idleEvent := true })
  | .work => s.work P W
  | .bus e =>
    if W.outside e then
      match W.step s.wires e with
      | .error x => some (.error x)
      | .ok b =>
        let s' := { s with wires := b, ran := s.ran ++ [e] }
        some (.ok (match W.did s.wires e with
          | .drove => { s' with active := true }
          | .stopped => { s' with active := (W.drive s.wires).isSome, idleEvent := if (W.drive s.wires).isSome then s.idleEvent else true }
          | .kept => s'))
    else none

/-- A history. -/
def run (P : Packer F C T) (W : Wires T B V) (l : Limits) (s : Src F C T B V) : List (SrcEv F V) → Option (Py (Src F C T B V))
  | [] => some (.ok s)
  | e :: es => match s.step P W l e with
    | none => none
    | some (.error x) => some (.error x)
    | some (.ok s) => s.run P W l es

end Src

/-- 209-221, 505-506: the queue of a sink; `activeEvent`: `active_event` is set. `came` and `got` are history: the frames received from the bus, and those that the user has got. -/
structure Snk (F : Type) where
  queue : List F := []
  bytes : Int := 0
  frames : Int := 0
  activeEvent : Bool := false
  came : List F := []
  got : List F := []
deriving DecidableEq, Repr

/-- What can happen: a frame is complete (637-642 `_sink_frame`); the user gets one (513-526 `recv`, `recv_nowait`; while there is none, `recv` waits and `recv_nowait` raises
`QueueEmpty`); `clear`. -/
inductive SnkEv (F : Type)
  | frame (f : F)
  | recv
  | clear
deriving DecidableEq, Repr

namespace Snk
variable {F : Type}

/-- 528-534. -/
def full (l : Limits) (s : Snk F) : Bool := l.full s.bytes s.frames

/-- 539-545: whether `wait` returns (without the time-out). -/
def ready (s : Snk F) : Bool := !s.queue.isEmpty || s.activeEvent

/-- One event; `none` if it cannot happen. 268-272 `clear`; 513-526 `recv`; 637-642 `_sink_frame`. -/
def step (size : F → Nat) (s : Snk F) : SnkEv F → Option (Snk F)
  | .frame f => some { s with bytes := s.bytes + size f, frames := s.frames + 1, queue := s.queue ++ [f], activeEvent := true, came := s.came ++ [f] }
  | .recv => match s.queue with
    | [] => none
    | f :: q => some { s with queue := q, activeEvent := if q.isEmpty then false else s.activeEvent, bytes := s.bytes - size f, frames := s.frames - 1, got := s.got ++ [f] }
  | .clear => some { s with queue := [], activeEvent := false }

/-- A history. -/
def run (size : F → Nat) (s : Snk F) : List (SnkEv F) → Option (Snk F)
  | [] => some s
  | e :: es => match s.step size e with
    | none => none
    | some s => s.run size es

end Snk
end Sq
end Pcie
