/-
Routing of TLPs: functions (function.py:397-463), devices (device.py:108-160), bridges (bridge.py:279-461) and
switches (switch.py:36-63, 125-225).

What a component does with a TLP that it receives is a list of effects. The contents of logs are not modelled. A call of
`tlp.release_fc()` before an exception is not recorded.
-/
import Verif.Model.Config
namespace Pcie

namespace TlpType
/-- The set literals of function.py:397-415, bridge.py:279-312, device.py:129-151. -/
def isCfg0 : TlpType → Bool
  | CFG_READ_0 | CFG_WRITE_0 => true
  | _ => false
@[inherit_doc isCfg0] def isCfg1 : TlpType → Bool
  | CFG_READ_1 | CFG_WRITE_1 => true
  | _ => false
@[inherit_doc isCfg0] def isIo : TlpType → Bool
  | IO_READ | IO_WRITE => true
  | _ => false
@[inherit_doc isCfg0] def isMem : TlpType → Bool
  | MEM_READ | MEM_READ_64 | MEM_WRITE | MEM_WRITE_64 => true
  | _ => false
@[inherit_doc isCfg0] def isMemWrite : TlpType → Bool
  | MEM_WRITE | MEM_WRITE_64 => true
  | _ => false
end TlpType

/-- What happens to a received TLP. -/
inductive Eff where
  /-- `release_fc()` of the received TLP is called -/
  | release
  /-- it is put into the completion queue of its tag -/
  | queue (t : Tlp)
  /-- the handler registered for its type is called -/
  | handler (t : Tlp)
  /-- a TLP is passed to `upstream_tx_handler` -/
  | up (t : Tlp)
  /-- a TLP is passed to `downstream_tx_handler` -/
  | down (t : Tlp)
deriving DecidableEq, Repr

/-- function.py:397-415 `Function.match_tlp`. -/
def matchTlp (id : PcieId) (bars : List BarReg) (t : Tlp) : Py Bool :=
  match t.fmtType with
  | none => .error "ValueError"
  | some ty =>
    if ty.isCfg0 then .ok (id.device = t.completer_id.device ∧ id.function = t.completer_id.function)
    else if ty.isCfg1 then .ok false
    else if ty.isCpl then .ok (id = t.requester_id)
    else if ty.isIo then
      match matchBar bars t.address true with
      | .ok r => .ok r.isSome
      | .error e => .error e
    else if ty.isMem then
      match matchBar bars t.address with
      | .ok r => .ok r.isSome
      | .error e => .error e
    else .error "TODO"

/-- function.py:448-460 `handle_tlp` (rc.py:208-217 for the root complex); there are 256 completion queues. -/
def handleTlp (handlers : List TlpType) (t : Tlp) : Py (List Eff) :=
  match t.fmtType with
  | none => .error "ValueError"
  | some ty =>
    if ty.isCpl then if t.tag < 256 then .ok [.queue t] else .error "IndexError"
    else if ty ∈ handlers then .ok [.release, .handler t]
    else .error "Unhandled TLP"

/-- `assert tlp.check()`. -/
def assertCheck (t : Tlp) : Py Unit :=
  match t.check with
  | .error e => .error e
  | .ok true => .ok ()
  | .ok false => .error "AssertionError"

/-- The common ending of device.py:129-160, bridge.py:355-383 and 419-448, switch.py:197-225 for a TLP that could not be
routed: whether an unsupported request completion is sent. `cfg`: the configuration types answered there. -/
def answerUr (t : Tlp) : Py Bool :=
  match t.fmtType with
  | none => .error "ValueError"
  | some ty =>
    if ty.isCfg0 then .ok true
    else if ty.isCfg1 then .ok true
    else if ty.isCpl then .ok false
    else if ty.isIo then .ok true
    else if ty.isMem then .ok (!ty.isMemWrite)
    else .error "TODO"

/-! ### Functions and devices -/

/-- A function of a device, as far as routing and error reporting are concerned. -/
structure RFn where
  id : PcieId := ⟨0, 0, 0⟩
  bars : List BarReg := []
  handlers : List TlpType := [.CFG_READ_0, .CFG_WRITE_0]
  parityResp : Bool := false
  masterParity : Bool := false
  sigTargetAbort : Bool := false
  rcvTargetAbort : Bool := false
  rcvMasterAbort : Bool := false
deriving DecidableEq, Repr

namespace RFn

/-- function.py:417-425 `upstream_send`, 427-431 `send`. -/
def send (f : RFn) (t : Tlp) : Py (RFn × List Eff) :=
  let f := if t.isCompletion ∧ t.status = CplStatus.CA then { f with sigTargetAbort := true } else f
  match assertCheck t with
  | .error e => .error e
  | .ok () => .ok (if f.parityResp ∧ t.ep then { f with masterParity := true } else f, [.up t])

/-- function.py:433-446 `upstream_recv`. -/
def upstreamRecv (f : RFn) (t : Tlp) : Py (RFn × List Eff) :=
  match assertCheck t with
  | .error e => .error e
  | .ok () =>
    let f := if t.isCompletion ∧ t.status = CplStatus.CA then { f with rcvTargetAbort := true }
      else if t.isCompletion ∧ t.status = CplStatus.UR then { f with rcvMasterAbort := true } else f
    let f := if f.parityResp ∧ t.ep then { f with masterParity := true } else f
    match handleTlp f.handlers t with
    | .error e => .error e
    | .ok es => .ok (f, es)

end RFn

/-- device.py:33-59: a device with its functions. -/
structure Dev where
  bus : Nat := 0
  fns : List RFn := []
deriving DecidableEq, Repr

namespace Dev

/-- device.py:66-74: the `bus_num` setter (the range check cannot fail for a bus number from a `PcieId`). -/
def setBus (d : Dev) (bus : Nat) : Dev :=
  if d.bus ≠ bus then { bus := bus, fns := d.fns.map fun f => { f with id := { f.id with bus := bus } } } else d

/-- device.py:115-119: the bus number is taken from every type 0 configuration request. -/
def latch (d : Dev) (t : Tlp) : Dev :=
  match t.fmtType with
  | some ty => if ty.isCfg0 then d.setBus t.completer_id.bus else d
  | none => d

/-- device.py:121-124: the first function that matches. -/
def findFn (t : Tlp) : Nat → List RFn → Py (Option Nat)
  | _, [] => .ok none
  | k, f :: rest =>
    match matchTlp f.id f.bars t with
    | .error e => .error e
    | .ok true => .ok (some k)
    | .ok false => findFn t (k + 1) rest

/-- device.py:108-155 `Device.upstream_recv`: the device afterwards, and the function that got the TLP (`none`: the device
itself dealt with it) with the effects. -/
def upstreamRecv (d : Dev) (t : Tlp) : Py (Dev × Option Nat × List Eff) :=
  match assertCheck t with
  | .error e => .error e
  | .ok () =>
    let d := d.latch t
    match findFn t 0 d.fns with
    | .error e => .error e
    | .ok (some k) =>
      match d.fns[k]? with
      | none => .error "unreachable"
      | some f => match f.upstreamRecv t with
        | .error e => .error e
        | .ok (f, es) => .ok ({ d with fns := d.fns.set k f }, some k, es)
    | .ok none =>
      match answerUr t with
      | .error e => .error e
      | .ok false => .ok (d, none, [.release])
      | .ok true =>
        let cpl := t.createUr ⟨d.bus, 0, 0⟩
        match assertCheck cpl with
        | .error e => .error e
        | .ok () => .ok (d, none, [.release, .up cpl])

end Dev

/-! ### Bridges -/

/-- A bridge: its registers, its ID and whether it is the host bridge (`root`, bridge.py:75 and 528). -/
structure BrFn (σ : Type) extends Br σ where
  id : PcieId := ⟨0, 0, 0⟩
  root : Bool := false
  handlers : List TlpType := [.CFG_READ_0, .CFG_WRITE_0]

namespace BrFn
variable {σ : Type}

/-- `sec_bus_num <= id.bus <= sub_bus_num and id != PcieId(0, 0, 0)` (bridge.py:285, 288, 291). -/
def busMatch (b : BrFn σ) (id : PcieId) : Bool := b.secBus ≤ id.bus ∧ id.bus ≤ b.subBus ∧ id ≠ ⟨0, 0, 0⟩

/-- bridge.py:279-312 `match_tlp_secondary`. -/
def matchSecondary (b : BrFn σ) (t : Tlp) : Py Bool :=
  match t.fmtType with
  | none => .error "ValueError"
  | some ty =>
    if ty.isCfg0 then .ok false
    else if ty.isCfg1 then .ok (b.busMatch t.completer_id)
    else if ty.isCpl then .ok (b.busMatch t.requester_id)
    else if ty = .MSG_ID ∨ ty = .MSG_DATA_ID then .ok (b.busMatch t.completer_id)
    else if ty.isIo then .ok (b.ioBase ≤ t.address ∧ t.address ≤ b.ioLimit)
    else if ty.isMem then
      .ok ((b.memBase ≤ t.address ∧ t.address ≤ b.memLimit) ∨ (b.prefBase ≤ t.address ∧ t.address ≤ b.prefLimit))
    else if ty = .MSG_TO_RC ∨ ty = .MSG_DATA_TO_RC then .ok false
    else if ty = .MSG_BCAST ∨ ty = .MSG_DATA_BCAST then .ok true
    else if ty = .MSG_LOCAL ∨ ty = .MSG_DATA_LOCAL then .ok false
    else if ty = .MSG_GATHER ∨ ty = .MSG_DATA_GATHER then .ok false
    else .error "Unknown/invalid packet type"

/-- bridge.py:314-321 `upstream_send`. -/
def upstreamSend (b : BrFn σ) (t : Tlp) : Py (BrFn σ × List Eff) :=
  match assertCheck t with
  | .error e => .error e
  | .ok () => .ok (if b.parityResp ∧ t.ep then { b with masterParity := true } else b, [.up t])

/-- bridge.py:388-395 `downstream_send` (and 385-386 `route_downstream_tlp`). -/
def downstreamSend (b : BrFn σ) (t : Tlp) : Py (BrFn σ × List Eff) :=
  match assertCheck t with
  | .error e => .error e
  | .ok () => .ok (if b.brParityResp ∧ t.ep then { b with secMasterParity := true } else b, [.down t])

/-- bridge.py:345-350: the type 1 to type 0 conversion. -/
def convert (b : BrFn σ) (t : Tlp) : Tlp :=
  if (t.fmtType = some .CFG_READ_1 ∨ t.fmtType = some .CFG_WRITE_1) ∧ t.completer_id.bus = b.secBus then
    if t.fmtType = some .CFG_READ_1 then t.setFmtType .CFG_READ_0
    else t.setFmtType .CFG_WRITE_0
  else t

/-- bridge.py:323-383 `upstream_recv`. -/
def upstreamRecv (b : BrFn σ) (t : Tlp) : Py (BrFn σ × List Eff) :=
  match assertCheck t with
  | .error e => .error e
  | .ok () =>
    let b := if b.parityResp ∧ t.ep then { b with masterParity := true } else b
    match matchTlp b.id b.bars t with
    | .error e => .error e
    | .ok true =>
      let b := if t.isCompletion ∧ t.status = CplStatus.CA then { b with rcvTargetAbort := true }
        else if t.isCompletion ∧ t.status = CplStatus.UR then { b with rcvMasterAbort := true } else b
      match handleTlp b.handlers t with
      | .error e => .error e
      | .ok es => .ok (b, es)
    | .ok false =>
      match b.matchSecondary t with
      | .error e => .error e
      | .ok true => b.downstreamSend (b.convert t)
      | .ok false =>
        match answerUr t with
        | .error e => .error e
        | .ok false => .ok (b, [.release])
        | .ok true => match b.upstreamSend (t.createUr b.id) with
          | .error e => .error e
          | .ok (b, es) => .ok (b, .release :: es)

/-- bridge.py:397-448 `downstream_recv`. -/
def downstreamRecv (b : BrFn σ) (t : Tlp) : Py (BrFn σ × List Eff) :=
  match assertCheck t with
  | .error e => .error e
  | .ok () =>
    let b := if b.brParityResp ∧ t.ep then { b with secMasterParity := true } else b
    let isCfg := t.fmtType.any TlpType.isCfg
    match (if isCfg ∨ b.root then .ok false else matchTlp b.id b.bars t : Py Bool) with
    | .error e => .error e
    | .ok true =>
      let b := if t.isCompletion ∧ t.status = CplStatus.CA then { b with secRcvTargetAbort := true }
        else if t.isCompletion ∧ t.status = CplStatus.UR then { b with secRcvMasterAbort := true } else b
      match handleTlp b.handlers t with
      | .error e => .error e
      | .ok es => .ok (b, es)
    | .ok false =>
      match (if isCfg then .ok true else b.matchSecondary t : Py Bool) with
      | .error e => .error e
      | .ok m =>
        if ¬ isCfg ∧ (¬ m ∨ b.root) then b.upstreamSend t
        else
          match answerUr t with
          | .error e => .error e
          | .ok false => .ok (b, [.release])
          | .ok true => match b.downstreamSend (t.createUr b.id) with
            | .error e => .error e
            | .ok (b, es) => .ok (b, .release :: es)

/-- bridge.py:450-461 `Bridge.send`: TLPs originated by the bridge itself. Both branches set `signaled_target_abort`. -/
def send (b : BrFn σ) (t : Tlp) : Py (BrFn σ × List Eff) :=
  match b.matchSecondary t with
  | .error e => .error e
  | .ok m =>
    let b := if t.isCompletion ∧ t.status = CplStatus.CA then { b with sigTargetAbort := true } else b
    if m then b.downstreamSend t else b.upstreamSend t

end BrFn

/-! ### Switches -/

/-- switch.py:36-63 `SwitchPort`: its bridge, and whether it is the upstream port. -/
structure SwPort (σ : Type) where
  bridge : BrFn σ
  upstream : Bool := false

/-- What the switch does with a TLP from an ingress queue. -/
inductive SwOut where
  /-- it is put into the queue to port `j` -/
  | to (j : Nat)
  /-- it is dropped and its credits released; the TLPs are passed to the ingress port's `tx_handler` -/
  | drop (answers : List Tlp)
deriving DecidableEq, Repr

namespace Sw
variable {σ : Type}

/-- switch.py:176-193: whether port `p` takes the TLP. -/
def claims (p : SwPort σ) (t : Tlp) : Py Bool :=
  match matchTlp p.bridge.id p.bridge.bars t with
  | .error e => .error e
  | .ok true => .ok true
  | .ok false =>
    match p.bridge.matchSecondary t with
    | .error e => .error e
    | .ok m => .ok (if p.upstream then !m else m)

/-- switch.py:175-196: the loop over `tx_queues`, which holds the other ports in the order in which they were added
(switch.py:151-158). -/
def find (i : Nat) (t : Tlp) : Nat → List (SwPort σ) → Py (Option Nat)
  | _, [] => .ok none
  | j, p :: rest =>
    if j = i then find i t (j + 1) rest
    else match claims p t with
      | .error e => .error e
      | .ok true => .ok (some j)
      | .ok false => find i t (j + 1) rest

/-- switch.py:164-225 `_run_routing`: one iteration for a TLP from port `i`. -/
def route (ports : List (SwPort σ)) (i : Nat) (t : Tlp) : Py SwOut :=
  match find i t 0 ports with
  | .error e => .error e
  | .ok (some j) => .ok (.to j)
  | .ok none =>
    match answerUr t with
    | .error e => .error e
    | .ok false => .ok (.drop [])
    | .ok true => match ports[i]? with
      | none => .error "unreachable"
      | some p => .ok (.drop [t.createUr p.bridge.id])

end Sw
end Pcie
