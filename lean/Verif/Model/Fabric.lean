/-
A whole hierarchy: the root complex, switches and devices connected by links, and the way of one TLP through it
(switch.py:48-63, 148-243, device.py:108-160, bridge.py:325-452, rc.py:72, 196-206).

The components are those of `Model/Route.lean`. The queues inside a switch (C49) and the links (C24) deliver every TLP once,
so that the way of a TLP is a function of the TLP; a link hands over a copy (`Tlp(tlp)`, port.py:560), which loses `th`.
Simplification: the status bits that a TLP sets on its way in the components are not carried over to the next TLP, and a
device's capture of its bus number is in `Dev.upstreamRecv` only.
-/
import Verif.Model.Route
namespace Pcie

/-- A function of a device: its registers, ID and handlers. -/
structure EpFn (σ : Type) extends Ep σ where
  id : PcieId := ⟨0, 0, 0⟩
  handlers : List TlpType := [.CFG_READ_0, .CFG_WRITE_0, .IO_READ, .IO_WRITE, .MEM_READ, .MEM_READ_64, .MEM_WRITE, .MEM_WRITE_64]

/-- What the routing of a device looks at. -/
def EpFn.rfn {σ} (f : EpFn σ) : RFn :=
  { id := f.id, bars := f.bars, handlers := f.handlers, parityResp := f.parityResp, masterParity := f.masterParity
    sigTargetAbort := f.sigTargetAbort, rcvTargetAbort := f.rcvTargetAbort, rcvMasterAbort := f.rcvMasterAbort }

mutual
/-- What can be at the lower end of a link: nothing, a device (device.py:33-59), a switch (switch.py:64-82). The root complex
is a switch whose upstream bridge is the host bridge (rc.py:45-72). -/
inductive Node (σ : Type) where
  | none
  | dev (bus : Nat) (fns : List (EpFn σ))
  | sw (up : BrFn σ) (ports : Ports σ)
/-- The downstream ports of a switch (switch.py:113-158), each with what is connected to it. -/
inductive Ports (σ : Type) where
  | nil
  | cons (b : BrFn σ) (below : Node σ) (rest : Ports σ)
end

variable {σ : Type}

/-- The downstream ports as a list. -/
def Ports.list : Ports σ → List (BrFn σ × Node σ)
  | .nil => []
  | .cons b n rest => (b, n) :: rest.list

/-- switch.py:73-79, 148-158: `switch_ports`; the upstream port is the first. -/
def swPorts (up : BrFn σ) (ports : Ports σ) : List (SwPort σ) := ⟨up, true⟩ :: ports.list.map fun x => ⟨x.1, false⟩

/-- Where the way of a TLP ends. Components are given by the path from the top: the indices of the downstream ports. -/
inductive Fate where
  /-- at function `k` of the device -/
  | fn (path : List Nat) (k : Nat) (es : List Eff)
  /-- at the device itself, no function takes it -/
  | dev (path : List Nat) (es : List Eff)
  /-- at the upstream bridge of the switch -/
  | up (path : List Nat) (es : List Eff)
  /-- at the bridge of downstream port `j` of the switch -/
  | port (path : List Nat) (j : Nat) (es : List Eff)
  /-- the switch has no route for it; it came in at its port `i` (0: the upstream port), which gets the answers -/
  | refused (path : List Nat) (i : Nat) (answers : List Tlp)
  /-- it leaves the hierarchy at its top: it is sent on the upstream link, or given to the root complex -/
  | exit (t : Tlp)
  /-- nothing is connected to the port -/
  | open_ (path : List Nat)
deriving DecidableEq, Repr

/-- The same, seen from the switch above, where it is behind port `j`. -/
def Fate.under (j : Nat) : Fate → Fate
  | fn p k es => fn (j :: p) k es
  | dev p es => dev (j :: p) es
  | up p es => up (j :: p) es
  | port p i es => port (j :: p) i es
  | refused p i as => refused (j :: p) i as
  | exit t => exit t
  | open_ p => open_ (j :: p)

mutual
/-- A TLP arrives from above: `Device.upstream_recv` (device.py:108-155); `Bridge.upstream_recv` of the upstream bridge of a
switch (bridge.py:325-378), `_run_routing` (switch.py:163-225) and `upstream_recv` of the bridge of the port found
(switch.py:57-63, 227-243). -/
def Node.recv : Node σ → Tlp → Py Fate
  | .none, _ => .ok (.open_ [])
  | .dev bus fns, t =>
    match Dev.upstreamRecv ⟨bus, fns.map EpFn.rfn⟩ t with
    | .error e => .error e
    | .ok (_, some k, es) => .ok (.fn [] k es)
    | .ok (_, Option.none, es) => .ok (.dev [] es)
  | .sw up ports, t =>
    match up.upstreamRecv t with
    | .error e => .error e
    | .ok (_, [.down t']) =>
      match Sw.route (swPorts up ports) 0 t' with
      | .error e => .error e
      | .ok (.to j) => ports.recv 0 (j - 1) t'
      | .ok (.drop as) => .ok (.refused [] 0 as)
    | .ok (_, es) => .ok (.up [] es)
/-- The bridge of downstream port `j` gets a TLP from inside the switch; `i` is the number of the first of the ports here. -/
def Ports.recv : Ports σ → (i j : Nat) → Tlp → Py Fate
  | .nil, _, _, _ => .error "unreachable"
  | .cons b n _, i, 0, t =>
    match b.upstreamRecv t with
    | .error e => .error e
    | .ok (_, [.down t']) =>
      match n.recv t'.copy with
      | .error e => .error e
      | .ok f => .ok (f.under i)
    | .ok (_, es) => .ok (.port [] i es)
  | .cons _ _ rest, i, j + 1, t => rest.recv (i + 1) j t
end

/-- switch.py:163-243: a TLP from downstream port `j` inside the switch. -/
def fromPort (up : BrFn σ) (ports : Ports σ) (j : Nat) (t : Tlp) : Py Fate :=
  match Sw.route (swPorts up ports) (j + 1) t with
  | .error e => .error e
  | .ok (.to 0) =>
    match up.downstreamRecv t with
    | .error e => .error e
    | .ok (_, [.up t']) => .ok (.exit t')
    | .ok (_, es) => .ok (.up [] es)
  | .ok (.to (k + 1)) => ports.recv 0 k t
  | .ok (.drop as) => .ok (.refused [] (j + 1) as)

/-- A TLP from the component at `path`, on its way up: `start` is what happens there. -/
def Node.rise : Node σ → (path : List Nat) → (start : Node σ → Py Fate) → Py Fate
  | n, [], start => start n
  | .sw up ports, j :: path, start =>
    match ports.list[j]? with
    | Option.none => .error "unreachable"
    | some (b, n) =>
      match n.rise path start with
      | .error e => .error e
      | .ok (.exit t) =>
        match b.downstreamRecv t.copy with
        | .error e => .error e
        | .ok (_, [.up t']) => fromPort up ports j t'
        | .ok (_, es) => .ok (.port [] j es)
      | .ok f => .ok (f.under j)
  | _, _ :: _, _ => .error "unreachable"

/-- device.py:157-160 and function.py:427-431: a function of the device at `path` sends a TLP; bridge.py:316-323: the upstream
bridge of the switch at `path` sends one upwards. -/
def Node.send (n : Node σ) (path : List Nat) (t : Tlp) : Py Fate := n.rise path fun _ => .ok (.exit t)

/-- bridge.py:316-323, switch.py:57-63: the bridge of downstream port `j` of the switch at `path` sends a TLP upwards, which
puts it into the ingress queue of the port. -/
def Node.sendPort (n : Node σ) (path : List Nat) (j : Nat) (t : Tlp) : Py Fate :=
  n.rise path fun
    | .sw up ports => fromPort up ports j t
    | _ => .error "unreachable"

/-- switch.py:222-225: the switch at `path` answers on its upstream port: `downstream_recv` of the upstream bridge. -/
def Node.answerUp (n : Node σ) (path : List Nat) (t : Tlp) : Py Fate :=
  n.rise path fun
    | .sw up _ =>
      match up.downstreamRecv t with
      | .error e => .error e
      | .ok (_, [.up t']) => .ok (.exit t')
      | .ok (_, es) => .ok (.up [] es)
    | _ => .error "unreachable"

end Pcie
