/- Configuration accesses as they are carried out by the hierarchy: the request goes down from the root complex, the function
that it gets to handles it, and the completion goes back up, all by the routing of the components (Model/Route.lean). -/
import Verif.Model.Enumerate
import Verif.Model.CfgAccess
namespace Pcie

/-- function.py:451-463 with 547-600: the handler of a type 0 configuration request; if it raises an exception, no completion
is sent. (It can raise one only after it has taken the bus number and before the registers are changed.) -/
def Cfg.Fn.serve {σ} (ops : CapOps σ) (f : Cfg.Fn σ) (t : Tlp) : Cfg.Fn σ × List Tlp :=
  match (if t.fmtType = some .CFG_READ_0 then f.handleRead ops t
    else if t.fmtType = some .CFG_WRITE_0 then f.handleWrite ops t
    else .ok (f, [])) with
  | .error _ => ({ f with id := { f.id with bus := t.completer_id.bus } }, [])
  | .ok r => r

variable {σ : Type}

/-- The function after `Device.upstream_recv` (device.py:108-155), which has given it its bus number (device.py:66-74). -/
def EpFn.after (f : EpFn σ) (r : RFn) : EpFn σ :=
  { f with id := r.id, masterParity := r.masterParity, rcvTargetAbort := r.rcvTargetAbort, rcvMasterAbort := r.rcvMasterAbort }

/-- The handler of a function of a device. -/
def EpFn.serve (ops : CapOps σ) (f : EpFn σ) (t : Tlp) : EpFn σ × List Tlp :=
  let r := Cfg.Fn.serve ⟨Ep.read ops, Ep.write ops⟩ ⟨f.id, f.toEp⟩ t
  ({ f with toEp := r.1.regs, id := r.1.id }, r.2)

/-- The handler of a bridge. -/
def BrFn.serve (ops : CapOps σ) (b : BrFn σ) (t : Tlp) : BrFn σ × List Tlp :=
  let r := Cfg.Fn.serve ⟨Br.read ops, Br.write ops⟩ ⟨b.id, b.toBr⟩ t
  ({ b with toBr := r.1.regs, id := r.1.id }, r.2)

/-- What a component sends upwards (nothing if it raises an exception). What a completion that passes through changes in a
component, the data parity bits if it is poisoned, is left out: no completion here is. -/
def sentUp {β : Type} : Py (β × List Eff) → List Tlp
  | .ok (_, es) => es.filterMap fun | .up c => some c | _ => none
  | .error _ => []

/-- switch.py:163-243: a completion from downstream port `j` of the switch, if it goes to the upstream port; what becomes of
others does not matter here. -/
def swUp (up : BrFn σ) (ports : Ports σ) (j : Nat) (c : Tlp) : List Tlp :=
  match Sw.route (swPorts up ports) (j + 1) c with
  | .ok (.to 0) => sentUp (up.downstreamRecv c)
  | _ => []

mutual
/-- A configuration request arrives from above, as in `Node.recv`: the hierarchy afterwards, and the completions that come back
up on the same link. -/
def Node.cfg (ops : CapOps σ) : Node σ → Tlp → Py (Node σ × List Tlp)
  | .none, _ => .ok (.none, [])
  | .dev bus fns, t =>
    match Dev.upstreamRecv ⟨bus, fns.map EpFn.rfn⟩ t with
    | .error e => .error e
    | .ok (d, some k, [.release, .handler t']) =>
      let fns := List.zipWith EpFn.after fns d.fns
      match fns[k]? with
      | Option.none => .error "unreachable"
      | some f =>
        let r := f.serve ops t'
        .ok (.dev d.bus (fns.set k r.1), r.2.flatMap fun c => sentUp (r.1.rfn.send c))
    | .ok (d, _, es) => .ok (.dev d.bus (List.zipWith EpFn.after fns d.fns), sentUp (.ok ((), es)))
  | .sw up ports, t =>
    match up.upstreamRecv t with
    | .error e => .error e
    | .ok (up, [.down t']) =>
      match Sw.route (swPorts up ports) 0 t' with
      | .error e => .error e
      | .ok (.to j) =>
        match ports.cfg ops (j - 1) t' with
        | .error e => .error e
        | .ok (ports, cs) => .ok (.sw up ports, cs.flatMap (swUp up ports (j - 1)))
      | .ok (.drop cs) => .ok (.sw up ports, cs.flatMap fun c => sentUp (up.downstreamRecv c))
    | .ok (up, [.release, .handler t']) =>
      let r := up.serve ops t'
      .ok (.sw r.1 ports, r.2.flatMap fun c => sentUp (r.1.upstreamSend c))
    | .ok (up, es) => .ok (.sw up ports, sentUp (.ok ((), es)))
/-- The bridge of downstream port `j` gets a configuration request from inside the switch; the completions are those that it
puts into the ingress queue of the port. -/
def Ports.cfg (ops : CapOps σ) : Ports σ → (j : Nat) → Tlp → Py (Ports σ × List Tlp)
  | .nil, _, _ => .error "unreachable"
  | .cons b n rest, 0, t =>
    match b.upstreamRecv t with
    | .error e => .error e
    | .ok (b, [.down t']) =>
      match n.cfg ops t'.copy with
      | .error e => .error e
      | .ok (n, cs) => .ok (.cons b n rest, cs.flatMap fun c => sentUp (b.downstreamRecv c.copy))
    | .ok (b, [.release, .handler t']) =>
      let r := b.serve ops t'
      .ok (.cons r.1 n rest, r.2.flatMap fun c => sentUp (r.1.upstreamSend c))
    | .ok (b, es) => .ok (.cons b n rest, sentUp (.ok ((), es)))
  | .cons b n rest, j + 1, t =>
    match rest.cfg ops j t with
    | .error e => .error e
    | .ok (rest, cs) => .ok (.cons b n rest, cs)
end

/-- rc.py:267-302 `perform_nonposted_operation` for a configuration request of the root complex; `tag` is the tag that it gets.
Of the completions that come back the root complex takes those with that tag (rc.py:206-208). -/
def Node.cfgOp (ops : CapOps σ) (tag : Tlp → Nat) : Cfg.Op (Node σ) := fun n t =>
  let t' := { t with tag := tag t }
  match n.cfg ops t' with
  | .error _ => (n, [], Option.none)
  | .ok (n, cs) => (n, (Region.collect (Region.isMemRead t) (cs.filter fun c => c.tag = t'.tag)).1, Option.none)

/-- rc.py:605-628, 648-659 `config_read_dword` and `config_write_dword`. -/
def Node.cfgReadDword (ops : CapOps σ) (tag : Tlp → Nat) (n : Node σ) (id : PcieId) (reg : Nat) : Py (Node σ × Nat) :=
  match Cfg.read (Node.cfgOp ops tag) n id (4 * reg) 4 with
  | .error e => .error e
  | .ok (n, d) => match Cfg.unpackLE d with
    | .error e => .error e
    | .ok v => .ok (n, v)
@[inherit_doc Node.cfgReadDword]
def Node.cfgWriteDword (ops : CapOps σ) (tag : Tlp → Nat) (n : Node σ) (id : PcieId) (reg v : Nat) : Py (Node σ) :=
  match Cfg.packLE v with
  | .error _ => .error "OverflowError"
  | .ok d => .ok (Cfg.write (Node.cfgOp ops tag) n id (4 * reg) d)

/-- Whether the function is a PCI Express downstream port, as in `cfgDsp`: the capability registers that the host reads this from
are not modelled. -/
def Node.cfgDsp (n : Node σ) (id : PcieId) : Bool :=
  match n with
  | .sw _ ports => Pcie.cfgDsp ports.bus id
  | _ => false

/-- pci.py:169-189, as `probeFns`, but by accesses to the hierarchy, which may change with each. -/
def Node.probeFns (ops : CapOps σ) (tag : Tlp → Nat) (b d : Nat) : List Nat → Node σ → Py (Node σ × List PDev)
  | [], n => .ok (n, [])
  | f :: fs, n =>
    match n.cfgReadDword ops tag ⟨b, d, f⟩ 0 with
    | .error e => .error e
    | .ok (n, v) =>
      if v = 0xffffffff then Node.probeFns ops tag b d fs n
      else match n.cfgReadDword ops tag ⟨b, d, f⟩ 3 with
        | .error e => .error e
        | .ok (n, h) =>
          let h := h >>> 16 &&& 0xff
          let dev : PDev := ⟨⟨b, d, f⟩, h &&& 0x7f = 1 ∨ h &&& 0x7f = 2, n.cfgDsp ⟨b, d, f⟩⟩
          if h &&& 0x80 = 0 then .ok (n, [dev])
          else match Node.probeFns ops tag b d fs n with
            | .error e => .error e
            | .ok (n, rs) => .ok (n, dev :: rs)

/-- pci.py:143-193, as `probeDevs`. -/
def Node.probeDevs (ops : CapOps σ) (tag : Tlp → Nat) (b : Nat) (one : Bool) : List Nat → Node σ → Py (Node σ × List PDev)
  | [], n => .ok (n, [])
  | d :: ds, n =>
    if b = 0 ∧ d = 0 then Node.probeDevs ops tag b one ds n
    else if 255 < b then .error "ValueError"
    else match n.cfgReadDword ops tag ⟨b, d, 0⟩ 0 with
      | .error e => .error e
      | .ok (n, v) =>
        if v = 0 ∨ v = 0xffffffff ∨ v = 0xffff0000 ∨ v = 0x0000ffff then Node.probeDevs ops tag b one ds n
        else if v = 0xffff0001 then .error "CRS"
        else match Node.probeFns ops tag b d (List.range 8) n with
          | .error e => .error e
          | .ok (n, fs) =>
            if one then .ok (n, fs)
            else match Node.probeDevs ops tag b one ds n with
              | .error e => .error e
              | .ok (n, rs) => .ok (n, fs ++ rs)

/-- pci.py:195-226, as `scanBridges`. -/
def Node.scanBridges (ops : CapOps σ) (tag : Tlp → Nat) (child : Node σ → Nat → Bool → Py (Node σ × Nat × List PcieId)) (b : Nat) :
    List PDev → Node σ → Nat → Py (Node σ × Nat × List PcieId)
  | [], n, last => .ok (n, last, [])
  | p :: ds, n, last =>
    if p.bridge then
      match n.cfgReadDword ops tag p.id 6 with
      | .error e => .error e
      | .ok (n, buses) =>
        let buses := busesReg buses b (last + 1) 0xff
        match n.cfgWriteDword ops tag p.id 6 buses with
        | .error e => .error e
        | .ok n => match child n (last + 1) p.dsp with
          | .error e => .error e
          | .ok (n, last', ids) => match n.cfgWriteDword ops tag p.id 6 (busesReg buses b (last + 1) last') with
            | .error e => .error e
            | .ok n => match Node.scanBridges ops tag child b ds n last' with
              | .error e => .error e
              | .ok (n, last'', ids') => .ok (n, last'', ids ++ ids')
    else Node.scanBridges ops tag child b ds n last

/-- pci.py:145-202 `scan`, as `Pcie.scan`. -/
def Node.scan (ops : CapOps σ) (tag : Tlp → Nat) : (fuel : Nat) → Node σ → (b : Nat) → (one : Bool) → Py (Node σ × Nat × List PcieId)
  | 0, _, _, _ => .error "fuel"
  | fuel + 1, n, b, one =>
    match Node.probeDevs ops tag b one (List.range 32) n with
    | .error e => .error e
    | .ok (n, ds) => match Node.scanBridges ops tag (Node.scan ops tag fuel) b ds n b with
      | .error e => .error e
      | .ok (n, last, ids) => .ok (n, last, ds.map (·.id) ++ ids)

end Pcie
