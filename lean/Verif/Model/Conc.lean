import Verif.Model.Tag
import Verif.Model.Completer
/-
A requester (`RootComplex`, rc.py, or `Function`, function.py) on which any number of tasks read and write memory at the same time, an in-order link, and a completer that handles the
requests one after the other. The requester's operations are those of `Tag.lean`; what the completer answers is not fixed in advance here but computed when it handles the request.
-/
namespace Pcie

/-- A completer: what handling a write request does and which completions handling a read request sends (rc.py:426-561, endpoint.py:316-434). -/
structure Completer (σ : Type) where
  write : σ → Tlp → Py σ
  read : σ → Tlp → Py (List Tlp)

/-- The root complex (rc.py:426-561): a device's requests to host memory. -/
def Completer.rc (cfg : CplCfg) : Completer AddrSpace where
  write s t := .ok (Rc.handleMemWrite s t)
  read s t := .ok (Rc.handleMemRead cfg s t)

/-- A memory endpoint (endpoint.py:316-434): the host's requests to device memory. -/
def Completer.ep : Completer MemEp where
  write e t := e.handleMemWrite t
  read e t := e.handleMemRead t

/-- What happens at the completer, for the record: it handles the request of operation `op` (rc.py:426-493), or a posted request (`none`, rc.py:495-561), or its memory is changed otherwise. -/
inductive ConcAct (σ : Type) where
  | req (op : Option Nat) (t : Tlp)
  | other (s : σ)

/-- The requester with its operations (rc.py:56-68, 222-302); which of these have not sent their request yet; the requests on the link, oldest first, each with the number of its operation;
the completer; and for the record the requests sent, the operations answered and what happened at the completer. -/
structure Conc (σ : Type) where
  ops : Ops := {}
  unsent : List Nat := []
  link : List (Option Nat × Tlp) := []
  mem : σ
  sent : List (Option Nat × Tlp) := []
  served : List Nat := []
  log : List (ConcAct σ) := []

/-- What happens: a task starts a memory read operation and gets a tag if one is free (rc.py:267-272); the request of an operation passes the flow control gate (rc.py:273, port.py:432-436);
a task sends a posted request (rc.py:264-265); the completer handles the next request; the completer's memory changes otherwise; a completion of an operation arrives (rc.py:208-211); an
operation takes a completion from the queue of its tag (rc.py:222-242, 274-302). Operations do not time out. -/
inductive ConcEv (σ : Type) where
  | start (req : Tlp) (tagCount : Nat)
  | send (i : Nat)
  | post (t : Tlp)
  | handle
  | other (s : σ)
  | arrive (i : Nat)
  | recv (i : Nat)

namespace Conc

/-- The completions `ans` are sent for operation `i` (rc.py:459-493). -/
def answer (o : Ops) (i : Nat) (ans : List Tlp) : Ops :=
  { o with ops := o.ops.modify i fun x => { x with answers := ans }, net := o.net.set i ans }

/-- One event; `none` means that it cannot happen in this state (rc.py:208-302, 426-561; function.py:448-545; endpoint.py:316-434). -/
def step {σ : Type} (C : Completer σ) (s : Conc σ) : ConcEv σ → Option (Py (Conc σ))
  | .start req n => match s.ops.step (.start req [] n) with
    | .error e => some (.error e)
    | .ok o => some (.ok { s with ops := o, unsent := if o.ops.length > s.ops.ops.length then s.unsent ++ [s.ops.ops.length] else s.unsent })
  | .send i => match s.ops.ops[i]? with
    | none => none
    | some o =>
      if i ∈ s.unsent then
        let t := { o.req with tag := o.tag }
        some (.ok { s with unsent := s.unsent.erase i, link := s.link ++ [(some i, t)], sent := s.sent ++ [(some i, t)] })
      else none
  | .post t => some (.ok { s with link := s.link ++ [(none, t)], sent := s.sent ++ [(none, t)] })
  | .handle => match s.link with
    | [] => none
    | (none, t) :: rest => match C.write s.mem t with
      | .error e => some (.error e)
      | .ok m => some (.ok { s with link := rest, mem := m, log := s.log ++ [.req none t] })
    | (some i, t) :: rest => match C.read s.mem t with
      | .error e => some (.error e)
      | .ok ans => some (.ok { s with link := rest, ops := answer s.ops i ans, served := s.served ++ [i], log := s.log ++ [.req (some i) t] })
  | .other m => some (.ok { s with mem := m, log := s.log ++ [.other m] })
  | .arrive i => match s.ops.step (.arrive i) with
    | .error e => some (.error e)
    | .ok o => some (.ok { s with ops := o })
  | .recv i => match s.ops.step (.recv i) with
    | .error e => some (.error e)
    | .ok o => some (.ok { s with ops := o })

/-- A history (rc.py:208-302, 426-561; function.py:448-545; endpoint.py:316-434). -/
def run {σ : Type} (C : Completer σ) (s : Conc σ) : List (ConcEv σ) → Option (Py (Conc σ))
  | [] => some (.ok s)
  | e :: es => match s.step C e with
    | none => none
    | some (.error x) => some (.error x)
    | some (.ok s) => s.run C es

end Conc
end Pcie
