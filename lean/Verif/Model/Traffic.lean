import Verif.Model.Tlp
/-
TLPs on their way through a hierarchy with flow control: which task of which component holds them, which of them wait for credits, and who waits for whom.

A link is one direction of a connection between two ports. The places of a TLP are
 * a task of the sender, at the flow control gate of the link (`tasks`),
 * the link and the receive queue at its end, in order (`rx`),
 * the queues of a switch between the port it came in on and the port it goes to (`q`),
 * the arbitration task of that port, at the flow control gate of the next link (`arb`),
 * the receive task of a component that answers requests, at the flow control gate of the link back (`busy`).
-/
namespace Pcie

/-- A TLP as far as flow control is concerned: its credit type and data credits (tlp.py:456-461), and the links it still has to take after the one it is on or waits for.
Simplification: the route is fixed when the TLP is sent (`C54`, `C74` say which one it is). -/
structure TPkt where
  id : Nat
  cls : FcType
  dc : Nat
  route : List Nat
deriving DecidableEq, Repr

/-- A network: the header and data credits that the receiver of each link advertises, 0 meaning infinite (port.py:80-157, bridge.py:475, 499, device.py:47); the link by which the receiver at the end
of a link sends its completions; and the completions of each request, in order (endpoint.py:322-378, rc.py:426-490).
The root complex is a switch with a host bridge (rc.py:75-77, 194-219): between its switch and its handlers there is a link in each direction that has no flow control, that is, infinite credits. -/
structure TNet where
  hdr : Nat → FcType → Nat
  data : Nat → FcType → Nat
  back : Nat → Nat
  answer : Nat → List TPkt

/-- The TLPs of the network. -/
structure TState where
  tasks : Nat → List TPkt
  rx : Nat → List TPkt
  q : Nat → List TPkt
  arb : Nat → Option TPkt
  busy : Nat → List TPkt
  done : List TPkt

/-- Nothing on its way. -/
def TState.init : TState := ⟨fun _ => [], fun _ => [], fun _ => [], fun _ => none, fun _ => [], []⟩

/-- A new value at one place. -/
def setAt {α : Type} (f : Nat → α) (m : Nat) (v : α) : Nat → α := fun j => if j = m then v else f j

/-- Headers of a credit type among TLPs (port.py:219-234, 252-261: one for each TLP). -/
def hdrUse (l : List TPkt) (c : FcType) : Nat := (l.filter fun p => p.cls = c).length

/-- Data credits of a credit type among TLPs (port.py:219-234, 252-261). -/
def dataUse (l : List TPkt) (c : FcType) : Nat := ((l.filter fun p => p.cls = c).map (·.dc)).sum

/-- port.py:211-217 `tx_has_credit`. The credits in use are those of the TLPs that went on the link and have not been released: those in the receive queue and, in a switch, those that have not yet been taken by
an arbitration task (port.py:433 `release_fc`).
Simplification: released credits are back at the sender at once (`C79`: in bounded time). -/
def TState.hasCredit (N : TNet) (s : TState) (m : Nat) (p : TPkt) : Bool :=
  (N.hdr m p.cls == 0 || decide (hdrUse (s.rx m ++ s.q m) p.cls + 1 ≤ N.hdr m p.cls)) &&
  (N.data m p.cls == 0 || decide (dataUse (s.rx m ++ s.q m) p.cls + p.dc ≤ N.data m p.cls))

/-- What may happen: a task starts to send, a task passes the gate, a receive task takes a TLP, an arbitration task takes a TLP from a queue, an arbitration task passes the gate, a receive task that answers a
request passes the gate. -/
inductive TEv where
  | start (m : Nat) (p : TPkt)
  | send (m i : Nat)
  | recv (m : Nat)
  | take (m i : Nat)
  | pass (m : Nat)
  | reply (m : Nat)
deriving DecidableEq, Repr

/-- What happens to the network; `none` when it cannot happen.
 * `send`, `pass`, `reply`: port.py:432-436 `send`; the TLP goes on the link when there are credits. The tasks at a gate get the credits in any order (port.py:236-250).
 * `recv`: port.py:574-579 `_run_receive`, which takes the next TLP only when the handler of the one before has returned. At a switch the TLP goes through `ingress_queue` to the queue for its egress port
   (switch.py:163-188); at its destination its credits are released and, if it is a request, the same task sends the completions (function.py:448-460, rc.py:208-219).
 * `take`: switch.py:227-243 `_run_arbitration`, which takes TLPs one at a time from any of the queues of its port, each queue in order, and sends them with `port.send`, which first releases the credits
   they hold (port.py:433).
Simplifications: the delay of `tx_queue`, of the wire and of `ingress_queue` is part of `recv`; a completion is released when it arrives (it is, when its requester waits for it: function.py:465-485); TLPs
for a downstream bridge itself and TLPs that cannot be routed are left out. -/
def TState.step (N : TNet) (s : TState) : TEv → Option TState
  | .start m p => some { s with tasks := setAt s.tasks m (s.tasks m ++ [p]) }
  | .send m i =>
    match (s.tasks m)[i]? with
    | none => none
    | some p => if s.hasCredit N m p then some { s with tasks := setAt s.tasks m ((s.tasks m).eraseIdx i), rx := setAt s.rx m (s.rx m ++ [p]) } else none
  | .recv m =>
    match s.busy m with
    | _ :: _ => none
    | [] =>
      match s.rx m with
      | [] => none
      | p :: r =>
        match p.route with
        | [] => some { s with rx := setAt s.rx m r, busy := setAt s.busy m (N.answer p.id), done := s.done ++ [p] }
        | _ :: _ => some { s with rx := setAt s.rx m r, q := setAt s.q m (s.q m ++ [p]) }
  | .take m i =>
    match (s.q m)[i]? with
    | none => none
    | some p =>
      match p.route with
      | [] => none
      | n :: r =>
        match s.arb n with
        | some _ => none
        | none =>
          if ((s.q m).take i).all fun x => x.route.head? != some n then
            some { s with q := setAt s.q m ((s.q m).eraseIdx i), arb := setAt s.arb n (some { p with route := r }) }
          else none
  | .pass m =>
    match s.arb m with
    | none => none
    | some p => if s.hasCredit N m p then some { s with arb := setAt s.arb m none, rx := setAt s.rx m (s.rx m ++ [p]) } else none
  | .reply m =>
    match s.busy m with
    | [] => none
    | c :: cs =>
      if s.hasCredit N (N.back m) c then some { s with busy := setAt s.busy m cs, rx := setAt s.rx (N.back m) (s.rx (N.back m) ++ [c]) } else none

/-- A history: everything in it happens. -/
def TState.run (N : TNet) (s : TState) : List TEv → Option TState
  | [] => some s
  | e :: es => (s.step N e).bind fun s' => s'.run N es

end Pcie
