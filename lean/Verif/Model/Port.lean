/-
Ports: flow control (port.py:80-363) and the data link layer (port.py:366-648), and two ports connected by a link.

Only virtual channel 0 is active (port.py:424) and every TLP is classified to it (port.py:429-430), so one flow-control
channel is modelled; the loops over the other seven channels skip them.
-/
import Verif.Model.Dllp
namespace Pcie

/-- port.py:80-110: the credit counters of one credit type. `bits` is the field size: 16 for data, 12 for header credits. -/
structure FcState where
  bits : Nat := 16
  txInit : Nat := 0
  txConsumed : Nat := 0
  txLimit : Nat := 0
  rxInit : Nat := 0
  rxAlloc : Nat := 0
  rxRecv : Nat := 0
deriving DecidableEq, Repr

namespace FcState

/-- port.py:81-110 and 154-157: the constructor. Negative initial values (which become 0) are not modelled. -/
def new (bits init : Nat) : Py FcState :=
  if init ≥ 2 ^ (bits - 1) then .error "ValueError" else .ok { bits := bits, rxInit := init, rxAlloc := init }

/-- port.py:133-137. -/
def txInfinite (s : FcState) : Bool := s.txInit = 0
@[inherit_doc txInfinite] def rxInfinite (s : FcState) : Bool := s.rxInit = 0

/-- `(a - b) & (2**bits - 1)` for Python integers. -/
def subMask (bits a b : Nat) : Nat := (((a : Int) - b) % ((2 ^ bits : Nat) : Int)).toNat

/-- port.py:119-124 `tx_credits_available`. -/
def txAvail (s : FcState) : Nat := if s.txInfinite then 2 ^ s.bits - 1 else subMask s.bits s.txLimit s.txConsumed

/-- port.py:126-131 `rx_credits_available`. -/
def rxAvail (s : FcState) : Nat := if s.rxInfinite then 2 ^ s.bits - 1 else subMask s.bits s.rxAlloc s.rxRecv

/-- port.py:139-142 (`x & mask` with `mask = 2**bits - 1` is `x % 2**bits`). -/
def txConsume (s : FcState) (fc : Nat) : FcState :=
  if s.txInfinite then s else { s with txConsumed := (s.txConsumed + fc) % 2 ^ s.bits }

/-- port.py:144-147. -/
def rxConsume (s : FcState) (fc : Nat) : FcState :=
  if s.rxInfinite then s else { s with rxRecv := (s.rxRecv + fc) % 2 ^ s.bits }

/-- port.py:149-151. -/
def rxRelease (s : FcState) (fc : Nat) : FcState :=
  if s.rxInfinite then s else { s with rxAlloc := (s.rxAlloc + fc) % 2 ^ s.bits }

/-- port.py:313-315: take the initial credits from an InitFC DLLP. -/
def capture (s : FcState) (v : Nat) : FcState := { s with txInit := v, txLimit := v }

end FcState

/-- port.py:160-187 `FcChannelState`. `initialized` is set exactly when `fi2` is. Tokens (`object()`) are numbers, handed
out in order; `dict` is `rx_release_fc_dict`. -/
structure FcCh where
  ph : FcState := { bits := 12 }
  pd : FcState := {}
  nph : FcState := { bits := 12 }
  npd : FcState := {}
  cplh : FcState := { bits := 12 }
  cpld : FcState := {}
  fi1 : Bool := false
  fi1p : Bool := false
  fi1np : Bool := false
  fi1cpl : Bool := false
  fi2 : Bool := false
  nextP : Nat := 0
  nextNp : Nat := 0
  nextCpl : Nat := 0
  dict : List (Nat × FcType × Nat) := []
  nextToken : Nat := 0
deriving DecidableEq, Repr

namespace FcCh

/-- port.py:161-167. -/
def new (ph pd nph npd cplh cpld : Nat) : Py FcCh := do
  let ph ← FcState.new 12 ph
  let pd ← FcState.new 16 pd
  let nph ← FcState.new 12 nph
  let npd ← FcState.new 16 npd
  let cplh ← FcState.new 12 cplh
  let cpld ← FcState.new 16 cpld
  .ok { ph := ph, pd := pd, nph := nph, npd := npd, cplh := cplh, cpld := cpld }

/-- port.py:211-217 `tx_has_credit`. -/
def txHasCredit (c : FcCh) (ty : FcType) (dc : Nat) : Bool :=
  match ty with
  | .P => c.ph.txAvail > 0 ∧ c.pd.txAvail ≥ dc
  | .NP => c.nph.txAvail > 0 ∧ c.npd.txAvail ≥ dc
  | .CPL => c.cplh.txAvail > 0 ∧ c.cpld.txAvail ≥ dc

/-- port.py:222-231 `tx_consume_fc`. -/
def txConsume (c : FcCh) (ty : FcType) (dc : Nat) : FcCh :=
  match ty with
  | .P => { c with ph := c.ph.txConsume 1, pd := c.pd.txConsume dc }
  | .NP => { c with nph := c.nph.txConsume 1, npd := c.npd.txConsume dc }
  | .CPL => { c with cplh := c.cplh.txConsume 1, cpld := c.cpld.txConsume dc }

/-- port.py:252-261 `rx_consume_fc`. -/
def rxConsume (c : FcCh) (ty : FcType) (dc : Nat) : FcCh :=
  match ty with
  | .P => { c with ph := c.ph.rxConsume 1, pd := c.pd.rxConsume dc }
  | .NP => { c with nph := c.nph.rxConsume 1, npd := c.npd.rxConsume dc }
  | .CPL => { c with cplh := c.cplh.rxConsume 1, cpld := c.cpld.rxConsume dc }

/-- port.py:266-278 `rx_release_fc`, without the start of the update timer. -/
def rxRelease (c : FcCh) (ty : FcType) (dc : Nat) : FcCh :=
  match ty with
  | .P => { c with nextP := 0, ph := c.ph.rxRelease 1, pd := c.pd.rxRelease dc }
  | .NP => { c with nextNp := 0, nph := c.nph.rxRelease 1, npd := c.npd.rxRelease dc }
  | .CPL => { c with nextCpl := 0, cplh := c.cplh.rxRelease 1, cpld := c.cpld.rxRelease dc }

/-- port.py:284-287 `rx_release_fc_token`. -/
def releaseToken (c : FcCh) (token : Nat) : FcCh :=
  match c.dict.find? (·.1 = token) with
  | some (tok, ty, dc) => { c with dict := c.dict.erase (tok, ty, dc) }.rxRelease ty dc
  | none => c

/-- port.py:289-298 `rx_process_tlp_fc`; the token is handed to the TLP. `none`: `get_fc_type` raises. -/
def process (c : FcCh) (t : Tlp) : Py (FcCh × Nat) :=
  match t.fcType with
  | none => .error "KeyError"
  | some ty =>
    let c := c.rxConsume ty t.dataCredits
    .ok ({ c with dict := c.dict ++ [(c.nextToken, ty, t.dataCredits)], nextToken := c.nextToken + 1 }, c.nextToken)

/-- port.py:310-329: the FC_INIT1 state. -/
def init1 (c : FcCh) (d : Dllp) : FcCh :=
  if d.type ∈ [Dllp.INIT_FC1_P, Dllp.INIT_FC1_NP, Dllp.INIT_FC1_CPL, Dllp.INIT_FC2_P, Dllp.INIT_FC2_NP, Dllp.INIT_FC2_CPL] then
    let c :=
      if d.type ∈ [Dllp.INIT_FC1_P, Dllp.INIT_FC2_P] then
        { c with ph := c.ph.capture d.hdr_fc, pd := c.pd.capture d.data_fc, fi1p := true }
      else if d.type ∈ [Dllp.INIT_FC1_NP, Dllp.INIT_FC2_NP] then
        { c with nph := c.nph.capture d.hdr_fc, npd := c.npd.capture d.data_fc, fi1np := true }
      else if d.type ∈ [Dllp.INIT_FC1_CPL, Dllp.INIT_FC2_CPL] then
        { c with cplh := c.cplh.capture d.hdr_fc, cpld := c.cpld.capture d.data_fc, fi1cpl := true }
      else c
    { c with fi1 := c.fi1p && c.fi1np && c.fi1cpl }
  else c

/-- port.py:340-343, 348-351, 356-359: the two assertions on an UpdateFC for infinite credits. -/
def updateAssert (h p : FcState) (d : Dllp) : Bool :=
  (h.txInfinite → d.hdr_fc = 0) ∧ (p.txInfinite → d.data_fc = 0)

/-- port.py:300-363 `handle_fc_dllp`. -/
def handleFc (c : FcCh) (d : Dllp) : Py FcCh :=
  if ¬ c.fi1 then .ok (c.init1 d)
  else if ¬ c.fi2 then
    if d.type ∈ [Dllp.INIT_FC2_P, Dllp.INIT_FC2_NP, Dllp.INIT_FC2_CPL, Dllp.UPDATE_FC_P, Dllp.UPDATE_FC_NP, Dllp.UPDATE_FC_CPL] then
      .ok { c with fi2 := true }
    else .ok c
  else if d.type = Dllp.UPDATE_FC_P then
    if updateAssert c.ph c.pd d then
      .ok { c with ph := { c.ph with txLimit := d.hdr_fc }, pd := { c.pd with txLimit := d.data_fc } }
    else .error "AssertionError"
  else if d.type = Dllp.UPDATE_FC_NP then
    if updateAssert c.nph c.npd d then
      .ok { c with nph := { c.nph with txLimit := d.hdr_fc }, npd := { c.npd with txLimit := d.data_fc } }
    else .error "AssertionError"
  else if d.type = Dllp.UPDATE_FC_CPL then
    if updateAssert c.cplh c.cpld d then
      .ok { c with cplh := { c.cplh with txLimit := d.hdr_fc }, cpld := { c.cpld with txLimit := d.data_fc } }
    else .error "AssertionError"
  else .ok c

/-- port.py:466-495: the UpdateFC DLLP to send at time `now`, if one is due; `steps` is `fc_update_steps`. -/
def update (c : FcCh) (now steps : Nat) : Option (FcCh × Dllp) :=
  if c.nextP ≤ now then
    some ({ c with nextP := now + steps }, { type := Dllp.UPDATE_FC_P, hdr_fc := c.ph.rxAlloc, data_fc := c.pd.rxAlloc })
  else if c.nextNp ≤ now then
    some ({ c with nextNp := now + steps }, { type := Dllp.UPDATE_FC_NP, hdr_fc := c.nph.rxAlloc, data_fc := c.npd.rxAlloc })
  else if c.nextCpl ≤ now then
    some ({ c with nextCpl := now + steps }, { type := Dllp.UPDATE_FC_CPL, hdr_fc := c.cplh.rxAlloc, data_fc := c.cpld.rxAlloc })
  else none

/-- port.py:499-518: the InitFC DLLP of credit type `ty`. -/
def initDllp (c : FcCh) (ty : FcType) : Dllp :=
  match ty with
  | .P => { type := if c.fi1 then Dllp.INIT_FC2_P else Dllp.INIT_FC1_P, hdr_fc := c.ph.rxAlloc, data_fc := c.pd.rxAlloc }
  | .NP => { type := if c.fi1 then Dllp.INIT_FC2_NP else Dllp.INIT_FC1_NP, hdr_fc := c.nph.rxAlloc, data_fc := c.npd.rxAlloc }
  | .CPL => { type := if c.fi1 then Dllp.INIT_FC2_CPL else Dllp.INIT_FC1_CPL, hdr_fc := c.cplh.rxAlloc, data_fc := c.cpld.rxAlloc }

end FcCh

/-- A packet on the link (port.py:547-551). -/
inductive Pkt where
  | dllp (d : Dllp)
  | tlp (t : Tlp)
deriving DecidableEq, Repr

/-- port.py:366-427 `Port`. `txq` stands for `tx_queue` together with the senders waiting to put into it, `rxq` for
`rx_queue` (each TLP with its release token). `accepted` and `delivered` are history variables, not part of the code: the
TLPs that passed the flow-control gate, and the TLPs put into `rx_queue`. -/
structure Port where
  nextTx : Nat := 0
  ackd : Nat := 0xfff
  retry : List Tlp := []
  nextRx : Nat := 0
  nak : Bool := false
  sendAck : Bool := false
  ackTimer : Bool := false
  sendFc : Bool := false
  fcTimer : Bool := false
  fc : FcCh := {}
  fcInitialized : Bool := false
  fcInitType : FcType := .P
  txq : List Tlp := []
  rxq : List (Tlp × Nat) := []
  accepted : List Tlp := []
  delivered : List Tlp := []
deriving DecidableEq, Repr

namespace Port

/-- port.py:432-436 `send`, and 236-250 `tx_tlp_fc_gate`: `none` while the gate is closed (the sender waits). -/
def send (p : Port) (t : Tlp) : Option Port :=
  match t.fcType with
  | none => none
  | some ty =>
    if p.fc.fi2 ∧ p.fc.txHasCredit ty t.dataCredits then
      some { p with fc := p.fc.txConsume ty t.dataCredits, txq := p.txq ++ [t], accepted := p.accepted ++ [t] }
    else none

/-- port.py:534-539: transmit a TLP from the queue. -/
def transmitTlp (p : Port) : Port × Option Pkt :=
  match p.txq with
  | [] => (p, none)
  | t :: rest =>
    let t := { t with seq := p.nextTx }
    ({ p with txq := rest, nextTx := (p.nextTx + 1) % 4096, retry := p.retry ++ [t] }, some (.tlp t))

/-- The credit type after `ty` in the rotation of port.py:504, 509, 514. -/
def nextType : FcType → FcType
  | .P => .NP
  | .NP => .CPL
  | .CPL => .P

/-- port.py:438-542: one iteration of `_run_transmit` at simulation time `now`: the port afterwards and the packet handed
to `handle_tx`. `(next_recv_seq-1) & 0xfff` is written with 4095 added. -/
def transmit (p : Port) (now steps : Nat) : Port × Option Pkt :=
  if p.sendAck then
    ({ p with sendAck := false },
      some (.dllp (if p.nak then Dllp.createNak ((p.nextRx + 4095) % 4096) else Dllp.createAck ((p.nextRx + 4095) % 4096))))
  else if p.sendFc ∨ (¬ p.fcInitialized ∧ p.txq = []) then
    match (if p.sendFc ∧ p.fc.fi2 then p.fc.update now steps else none) with
    | some (fc, d) => ({ p with fc := fc }, some (.dllp d))
    | none =>
      if ¬ p.fcInitialized then
        ({ p with fcInitType := nextType p.fcInitType, fcInitialized := p.fc.fi2 }, some (.dllp (p.fc.initDllp p.fcInitType)))
      else transmitTlp { p with sendFc := false }
  else transmitTlp p

/-- port.py:596-600: purge the retry buffer up to sequence number `seq`; `n` bounds the number of iterations (the
sequence numbers repeat after 4096). `get_nowait` raises on an empty buffer. -/
def purge (seq : Nat) : Nat → Port → Py Port
  | 0, p => .ok p
  | n + 1, p =>
    if seq ≠ p.ackd then
      match p.retry with
      | [] => .error "QueueEmpty"
      | _ :: rest => purge seq n { p with retry := rest, ackd := (p.ackd + 1) % 4096 }
    else .ok p

/-- port.py:581-609 `handle_dllp`. -/
def handleDllp (p : Port) (d : Dllp) : Py Port :=
  if d.type = Dllp.NOP then .ok p
  else if d.type = Dllp.ACK ∨ d.type = Dllp.NAK then
    if FcState.subMask 12 ((p.nextTx + 4095) % 4096) d.seq > 2048 then .ok p
    else if FcState.subMask 12 d.seq p.ackd > 2048 then .ok p
    else match purge d.seq 4096 p with
      | .error e => .error e
      | .ok p => if d.type = Dllp.NAK then .error "TODO" else .ok p
  else if d.type ∈ Dllp.fcTypes then
    match p.fc.handleFc d with
    | .ok fc => .ok { p with fc := fc }
    | .error e => .error e
  else .error "TODO"

/-- port.py:553-572: `ext_recv` of a TLP. -/
def recvTlp (p : Port) (t : Tlp) : Py Port :=
  if t.seq = p.nextRx then
    let t' := t.copy
    match p.fc.process t' with
    | .error e => .error e
    | .ok (fc, token) =>
      .ok { p with nextRx := (p.nextRx + 1) % 4096, nak := false, ackTimer := true, fc := fc,
                   rxq := p.rxq ++ [(t', token)], delivered := p.delivered ++ [t'] }
  else if FcState.subMask 12 p.nextRx t.seq < 2048 then
    .ok { p with ackTimer := false, sendAck := true }
  else if ¬ p.nak then .ok { p with nak := true, ackTimer := false, sendAck := true }
  else .ok p

/-- port.py:547-572 `ext_recv`. -/
def recv (p : Port) : Pkt → Py Port
  | .dllp d => p.handleDllp d
  | .tlp t => p.recvTlp t

/-- `tlp.release_fc()` for the TLP that holds `token` (port.py:266-287). The update timer is started. -/
def release (p : Port) (token : Nat) : Port :=
  if p.fc.dict.any (·.1 = token) then { p with fc := p.fc.releaseToken token, fcTimer := true } else p

/-- port.py:623-626: the ACK latency timer expires. -/
def ackTimeout (p : Port) : Port :=
  if p.ackTimer then { p with ackTimer := false, sendAck := if p.nak then p.sendAck else true } else p

/-- port.py:640-648: the update timer or the idle timer expires. -/
def fcTimeout (p : Port) : Port := { p with fcTimer := false, sendFc := true }

/-- port.py:574-579: `_run_receive` hands the next TLP to the handler. -/
def take (p : Port) : Port := { p with rxq := p.rxq.tail }

end Port

/-- Two connected ports and the packets on their way from `a` to `b` and from `b` to `a`. -/
structure Link where
  a : Port := {}
  b : Port := {}
  ab : List Pkt := []
  ba : List Pkt := []
deriving DecidableEq, Repr

/-- What can happen at a port. -/
inductive PortAct where
  /-- a TLP is passed to `send`; nothing happens while the gate is closed -/
  | send (t : Tlp)
  /-- an iteration of `_run_transmit` at time `now` -/
  | transmit (now : Nat)
  /-- the next packet arrives -/
  | recv
  /-- the receiver of a TLP releases its credits (any number of times, at any time) -/
  | release (token : Nat)
  | ackTimeout
  | fcTimeout
  | take

/-- The link seen from the other end. -/
def Link.swap (l : Link) : Link := { a := l.b, b := l.a, ab := l.ba, ba := l.ab }

/-- One event at port `a`; `steps` is `fc_update_steps`. -/
def Link.stepA (steps : Nat) (l : Link) : PortAct → Py Link
  | .send t => match l.a.send t with
    | some p => .ok { l with a := p }
    | none => .ok l
  | .transmit now =>
    let (p, pkt) := l.a.transmit now steps
    .ok { l with a := p, ab := l.ab ++ pkt.toList }
  | .recv => match l.ba with
    | [] => .ok l
    | pkt :: rest => match l.a.recv pkt with
      | .ok p => .ok { l with a := p, ba := rest }
      | .error e => .error e
  | .release token => .ok { l with a := l.a.release token }
  | .ackTimeout => .ok { l with a := l.a.ackTimeout }
  | .fcTimeout => .ok { l with a := l.a.fcTimeout }
  | .take => .ok { l with a := l.a.take }

/-- One event at port `a` (`atA`) or port `b`. -/
def Link.step (steps : Nat) (l : Link) (e : Bool × PortAct) : Py Link :=
  if e.1 then l.stepA steps e.2
  else match l.swap.stepA steps e.2 with
    | .ok l => .ok l.swap
    | .error e => .error e

/-- A history of events at both ports, in any order. -/
def Link.run (steps : Nat) (l : Link) : List (Bool × PortAct) → Py Link
  | [] => .ok l
  | e :: es => match l.step steps e with
    | .ok l => l.run steps es
    | .error x => .error x

end Pcie
