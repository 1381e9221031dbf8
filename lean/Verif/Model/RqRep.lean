import Verif.Model.UsTlp
/-
Model of what the Xilinx hard IP models (xilinx/us/us_model.py, xilinx/us/usp_model.py) tell the user about the requests they send: sequence numbers and tags. The line numbers are
those of us_model.py. Here the sending of a request takes time (`send` waits for flow control credits), and the requests keep their sequence numbers; whether there are credits and
tags, which tag is free and whether bus mastering is enabled is decided in `UsHip.lean` and is an input here.
-/
namespace Pcie

/-- What a task is doing with a request: nothing, waiting until there is space, credits or tags, or sending it (us_model.py:1059, 1081, 1118: `await self.send`). -/
inductive RepTask where
  | idle
  | waiting (u : UsTlp)
  | sending (u : UsTlp)
deriving DecidableEq, Repr

/-- The interface: whether it is 512 bits wide (usp_model.py:1273, 1300; never for us_model.py), which of the outputs are connected, `enable_client_tag`, and the size of the queue. -/
structure RepPorts where
  wide : Bool := false
  seq0 : Bool := true
  seq1 : Bool := true
  tag0 : Bool := true
  tag1 : Bool := true
  client : Bool := false
  npLimit : Nat := 16
deriving DecidableEq, Repr

/-- What can be seen from outside (a history, not part of the code): a request taken from the user, dropped because bus mastering is disabled, handed over to `send`, put into the transmit
queue of the link; the sequence numbers and the tags that are shown as valid at a clock edge, on the first and on the second port. -/
inductive RepObs where
  | accepted (u : UsTlp)
  | dropped (u : UsTlp)
  | started (u : UsTlp)
  | linked (u : UsTlp)
  | shown (s0 s1 t0 t1 : Option Nat)
deriving DecidableEq, Repr

/-- us_model.py:328-359: the tasks, the queue of non-posted requests, and the queues `rq_seq_num` and `rq_tag`. -/
structure RqRep where
  rq : RepTask := .idle
  np : RepTask := .idle
  npq : List UsTlp := []
  seqQ : List Nat := []
  tagQ : List Nat := []
  hist : List RepObs := []
deriving DecidableEq, Repr

inductive RepEv where
  /-- `_run_rq_logic` gets a request; `room` is the part of the condition of us_model.py:1041 that is about credits and tags, `master` is `bus_master_enable`, `tag` is the free tag -/
  | rq (u : UsTlp) (room master : Bool) (tag : Nat)
  /-- `_run_rq_logic` continues when there is space in the queue -/
  | rqWake
  /-- `send` returns in `_run_rq_logic` -/
  | rqSent
  /-- `_run_rq_np_queue_logic` gets a request -/
  | npGet
  /-- there are credits and tags for it -/
  | npGo (master : Bool) (tag : Nat)
  /-- `send` returns in `_run_rq_np_queue_logic` -/
  | npSent
  /-- a clock edge in `_run_rq_seq_num_logic` and `_run_rq_tag_logic` -/
  | clock
deriving DecidableEq, Repr

namespace RqRep

/-- us_model.py:1053-1055, 1112-1114: the tag. -/
def retag (p : RepPorts) (u : UsTlp) (tag : Nat) : UsTlp := if p.client then u else { u with tlp := { u.tlp with tag := tag } }

/-- us_model.py:1129-1134, 1146-1151: what one output does at a clock edge: it shows the next value if it is connected; the value is taken in any case. -/
def pop (conn : Bool) : List Nat → Option Nat × List Nat
  | [] => (none, [])
  | n :: r => (if conn then some n else none, r)

/-- usp_model.py:1262-1281, 1289-1308: the two outputs at a clock edge. -/
def pop2 (wide conn0 conn1 : Bool) (q : List Nat) : Option Nat × Option Nat × List Nat :=
  let (a, q) := pop conn0 q
  let (b, q) := if wide then pop conn1 q else (none, q)
  (a, b, q)

/-- us_model.py:1046-1060, 1106-1119: a non-posted request that can be sent: dropped, or tagged and handed over to `send`. The assertions about tags are in `UsHip.lean`. -/
def go (p : RepPorts) (s : RqRep) (u : UsTlp) (master : Bool) (tag : Nat) : RqRep × RepTask :=
  if master then
    let u := retag p u tag
    ({ s with tagQ := if p.client then s.tagQ else s.tagQ ++ [tag], hist := s.hist ++ [.started u] }, .sending u)
  else ({ s with hist := s.hist ++ [.dropped u] }, .idle)

/-- One stretch; `none` means that it cannot happen in this state. us_model.py:1025-1152. Simplification: requests of unknown type, for which `is_nonposted` raises an exception, count
as posted. -/
def step (p : RepPorts) (s : RqRep) : RepEv → Option RqRep
  | .rq u room master tag =>
    match s.rq with
    | .idle =>
      if u.discontinue then some s
      else
        let s := { s with hist := s.hist ++ [.accepted u] }
        if u.tlp.isNonposted then
          if s.npq = [] ∧ room then
            let (s, t) := go p s u master tag
            some { s with rq := t }
          else if p.npLimit ≤ s.npq.length then some { s with rq := .waiting u }
          else some { s with npq := s.npq ++ [u] }
        else if master then some { s with rq := .sending u, hist := s.hist ++ [.started u] }
        else some { s with hist := s.hist ++ [.dropped u] }
    | _ => none
  | .rqWake =>
    match s.rq with
    | .waiting u => if p.npLimit ≤ s.npq.length then none else some { s with rq := .idle, npq := s.npq ++ [u] }
    | _ => none
  | .rqSent =>
    match s.rq with
    | .sending u => some { s with rq := .idle, seqQ := s.seqQ ++ [u.seqNum], hist := s.hist ++ [.linked u] }
    | _ => none
  | .npGet =>
    match s.np, s.npq with
    | .idle, u :: rest => some { s with np := .waiting u, npq := rest }
    | _, _ => none
  | .npGo master tag =>
    match s.np with
    | .waiting u =>
      let (s, t) := go p s u master tag
      some { s with np := t }
    | _ => none
  | .npSent =>
    match s.np with
    | .sending u => some { s with np := .idle, seqQ := s.seqQ ++ [u.seqNum], hist := s.hist ++ [.linked u] }
    | _ => none
  | .clock =>
    let (a, b, q) := pop2 p.wide p.seq0 p.seq1 s.seqQ
    let (c, d, r) := pop2 p.wide p.tag0 p.tag1 s.tagQ
    some { s with seqQ := q, tagQ := r, hist := s.hist ++ [.shown a b c d] }

/-- A history (us_model.py:1025-1152). -/
def run (p : RepPorts) (s : RqRep) : List RepEv → Option RqRep
  | [] => some s
  | e :: es => match s.step p e with
    | none => none
    | some s => s.run p es

end RqRep
end Pcie
