/-
The queues of one egress port of a switch and the task that empties them (switch.py:41-43, 151-161, 175-196, 230-248).

A step is one atomic part of the code; the tasks that put TLPs into the queues may run between any two of them, which is
more than the cooperative scheduler allows. `TxHandler` calls may take any time.
-/
namespace Pcie
namespace Arb

/-- Where the arbitration task is. -/
inductive Pc where
  /-- `await port.rx_event.wait()` (line 232) -/
  | waiting
  /-- in the `for` loop, about to look at queue `k`; `ok` is the local variable (lines 236-241) -/
  | scan (k : Nat) (ok : Bool)
  /-- `await port.tx_handler(tlp)` for a TLP of queue `k` (line 242) -/
  | sending (k : Nat)
deriving DecidableEq, Repr

/-- The state of one egress port. `put`, `out`: the history of TLPs put into the queues and passed to `tx_handler`, with the
number of the queue. -/
structure St (α : Type) where
  queues : List (List α) := []
  event : Bool := false
  pc : Pc := .waiting
  put : List (Nat × α) := []
  out : List (Nat × α) := []
deriving DecidableEq, Repr

variable {α : Type}

/-- switch.py:154-161: another port is added, with its empty queue to this port. -/
def addPort (s : St α) : St α := { s with queues := s.queues ++ [[]] }

/-- switch.py:177-179, 184-186, 192-194: `await tx_queue.put(tlp); other.rx_event.set()`; the queue is unbounded. -/
def putTlp (s : St α) (k : Nat) (x : α) : St α :=
  match s.queues[k]? with
  | none => s
  | some q => { s with queues := s.queues.set k (q ++ [x]), event := true, put := s.put ++ [(k, x)] }

/-- One step of `_run_arbitration` (switch.py:230-248). `none`: it waits. The end of `sending` is the return of
`tx_handler`. -/
def step (s : St α) : Option (St α) :=
  match s.pc with
  | .waiting => if s.event then some { s with event := false, pc := .scan 0 false } else none
  | .scan k ok =>
    match s.queues[k]? with
    | none => some { s with pc := if ok then .scan 0 false else .waiting }
    | some [] => some { s with pc := .scan (k + 1) ok }
    | some (x :: q) => some { s with queues := s.queues.set k q, pc := .sending k, out := s.out ++ [(k, x)] }
  | .sending k => some { s with pc := .scan (k + 1) true }

/-- Every history of a port, from its creation. -/
inductive Reach : St α → Prop
  | init : Reach {}
  | addPort {s} : Reach s → Reach (addPort s)
  | put {s} (k x) : Reach s → Reach (putTlp s k x)
  | step {s s'} : Reach s → step s = some s' → Reach s'

/-- The task alone, for `n` steps or until it waits. -/
def run : Nat → St α → St α
  | 0, s => s
  | n + 1, s => match step s with
    | none => s
    | some s' => run n s'

end Arb
end Pcie
