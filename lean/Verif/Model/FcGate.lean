/-
Tasks that wait for flow control credits: in which order they wait, when they are woken, and who gets the credits.
-/
namespace Pcie

/-- A TLP at the gate, with the data credits it needs (tlp.py:456-461); every TLP needs one header credit. -/
structure GateTlp where
  id : Nat
  dc : Nat
deriving DecidableEq, Repr

/-- One credit type of a port (port.py:160-189; the three types have separate counters and events): the credits available (port.py:117-122 `tx_credits_available`, `none` if infinite), the tasks that have been
woken by `set` and have not run yet, the tasks that wait for the event (both in the order in which they run), and the TLPs that have passed.
Simplifications: available credits are a number (`C21`, `C22` are about the counters behind it); the link is initialised (port.py:239). -/
structure Gate where
  hdr : Option Nat
  data : Option Nat
  woken : List GateTlp
  waiting : List GateTlp
  sent : List GateTlp

/-- A link after initialisation with the credits that the receiver has advertised. -/
def Gate.fresh (hdr data : Option Nat) : Gate := ⟨hdr, data, [], [], []⟩

/-- port.py:211-217 `tx_has_credit`. -/
def Gate.has (g : Gate) (t : GateTlp) : Bool := g.hdr.all (fun h => decide (0 < h)) && g.data.all (fun d => decide (t.dc ≤ d))

/-- port.py:224-234 `tx_consume_fc`, 434-435: the TLP goes to `tx_queue`. -/
def Gate.consume (g : Gate) (t : GateTlp) : Gate := { g with hdr := g.hdr.map (· - 1), data := g.data.map (· - t.dc), sent := g.sent ++ [t] }

/-- What may happen: a task calls `send`, an UpdateFC DLLP grants further credits, a woken task runs. -/
inductive GateEv where
  | call (t : GateTlp)
  | update (h d : Nat)
  | wake
deriving DecidableEq, Repr

/-- What happens; `none` when it cannot happen.
 * `call`: port.py:236-250 `tx_tlp_fc_gate` up to the first `wait`.
 * `update`: port.py:340-363, `set` wakes all the tasks that wait, in the order in which they began to wait; they run later, perhaps after other tasks.
 * `wake`: port.py:240-250, one turn of the loop: the task checks again; if there are no credits it clears the event and waits again, behind those that wait already. -/
def Gate.step (g : Gate) : GateEv → Option Gate
  | .call t => some (if g.has t then g.consume t else { g with waiting := g.waiting ++ [t] })
  | .update h d => some { g with hdr := g.hdr.map (· + h), data := g.data.map (· + d), woken := g.woken ++ g.waiting, waiting := [] }
  | .wake =>
    match g.woken with
    | [] => none
    | t :: r => some (if g.has t then Gate.consume { g with woken := r } t else { g with woken := r, waiting := g.waiting ++ [t] })

/-- A history. -/
def Gate.run (g : Gate) : List GateEv → Option Gate
  | [] => some g
  | e :: es => (g.step e).bind fun g' => g'.run es

end Pcie
