import Verif.Model.FrameTlp
/-
Model of the UltraScale descriptors: xilinx/us/tlp.py (`Tlp_us`).
-/
namespace Pcie
open Tlp

/-- xilinx/us/tlp.py:104-113: the fields of `Tlp_us`. Simplification: `request_completed` is its truth value (`unpack_us_rc`, line 469, leaves the integer
`1 << 30` there). -/
structure UsTlp where
  tlp : Tlp := {}
  barId : Nat := 0
  barAperture : Nat := 0
  completerIdEnable : Bool := false
  requesterIdEnable : Bool := false
  discontinue : Bool := false
  seqNum : Nat := 0
  errorCode : Nat := 0
  requestCompleted : Bool := false
deriving DecidableEq, Repr

/-- xilinx/us/tlp.py:34-49: `ReqType`, and 65-84: `tlp_type_to_req_type`; `none` is the `KeyError`. -/
def TlpType.reqType : TlpType → Option Nat
  | .MEM_READ | .MEM_READ_64 => some 0
  | .MEM_READ_LOCKED | .MEM_READ_LOCKED_64 => some 7
  | .MEM_WRITE | .MEM_WRITE_64 => some 1
  | .IO_READ => some 2
  | .IO_WRITE => some 3
  | .CFG_READ_0 => some 8
  | .CFG_WRITE_0 => some 10
  | .CFG_READ_1 => some 9
  | .CFG_WRITE_1 => some 11
  | .FETCH_ADD | .FETCH_ADD_64 => some 4
  | .SWAP | .SWAP_64 => some 5
  | .CAS | .CAS_64 => some 6
  | _ => none

/-- xilinx/us/tlp.py:87-100: `req_type_to_tlp_type`; `none` is the `KeyError`. -/
def TlpType.ofReqType : Nat → Option TlpType
  | 0 => some .MEM_READ
  | 1 => some .MEM_WRITE
  | 2 => some .IO_READ
  | 3 => some .IO_WRITE
  | 4 => some .FETCH_ADD
  | 5 => some .SWAP
  | 6 => some .CAS
  | 7 => some .MEM_READ_LOCKED
  | 8 => some .CFG_READ_0
  | 9 => some .CFG_READ_1
  | 10 => some .CFG_WRITE_0
  | 11 => some .CFG_WRITE_1
  | _ => none

namespace UsTlp

/-- xilinx/us/tlp.py:104-113: `Tlp_us(tlp)` for a `Tlp`. -/
def ofTlp (t : Tlp) : UsTlp := { tlp := t.copy }

/-- xilinx/us/tlp.py:115-123: `Tlp_us(tlp)` for a `Tlp_us`. Line 123 compares instead of assigning, so `request_completed` is not copied. -/
def copy (u : UsTlp) : UsTlp := { u with tlp := u.tlp.copy, requestCompleted := false }

/-- xilinx/us/tlp.py:161-166, 213-218, 444-449, 501-506: the byte enables of the payload. -/
def byteEns (n first last : Nat) : List Nat :=
  (if n ≥ 1 then [first] else []) ++ (if n > 2 then List.replicate (n - 2) 0xf else []) ++ (if n > 1 then [last] else [])

/-- xilinx/us/tlp.py:132-133 and 317-318: the first dword of a memory, I/O or atomic request descriptor. -/
def addrDw (t : Tlp) : Nat := (t.at_ &&& 0x3) ||| (t.address &&& 0xfffffffc)

/-- xilinx/us/tlp.py:135 and 320: the second dword. -/
def addrHi (t : Tlp) : Nat := (t.address &&& 0xffffffff00000000) >>> 32

/-- xilinx/us/tlp.py:137-139. -/
def cqDw2 (t : Tlp) (rt : Nat) : Nat := (t.length &&& 0x7ff) ||| rt <<< 11 ||| t.requester_id.toInt <<< 16

/-- xilinx/us/tlp.py:141-146. -/
def cqDw3 (u : UsTlp) : Nat :=
  (u.tlp.tag &&& 0xff) ||| (u.tlp.completer_id.function &&& 0xff) <<< 8 ||| (u.barId &&& 0x7) <<< 16 ||| (u.barAperture &&& 0x3f) <<< 19 |||
    (u.tlp.tc &&& 0x7) <<< 25 ||| (u.tlp.attr &&& 0x7) <<< 28

/-- xilinx/us/tlp.py:125-173: `pack_us_cq`. -/
def packCq (u : UsTlp) : Py UsFrame :=
  match u.tlp.fmtType with
  | none => .error "ValueError"
  | some ty =>
    if ty.isReq ∧ ¬ ty.isCfg then
      match ty.reqType with
      | none => .error "KeyError"
      | some rt => match leDwords u.tlp.data with
        | .error e => .error e
        | .ok d =>
          .ok (UsFrame.updateParity
            { data := [addrDw u.tlp, addrHi u.tlp, cqDw2 u.tlp rt, cqDw3 u] ++ d
              firstBe := u.tlp.first_be
              lastBe := u.tlp.last_be
              discontinue := u.discontinue
              byteEn := [0, 0, 0, 0] ++ byteEns u.tlp.payloadSizeDw u.tlp.first_be u.tlp.last_be })
    else .error "Invalid TLP type for interface"

/-- xilinx/us/tlp.py:192-196 and 371-375: the 64-bit form for high addresses. -/
def highFmt (fmt address : Nat) : Nat :=
  if address > 0xffffffff then
    if fmt = TlpType.THREE_DW then TlpType.FOUR_DW else if fmt = TlpType.THREE_DW_DATA then TlpType.FOUR_DW_DATA else fmt
  else fmt

/-- `assert`. -/
def assert (b : Bool) : Py Unit := if b then .ok () else .error "AssertionError"

/-- xilinx/us/tlp.py:175-227: `unpack_us_cq`. Simplification: a frame of less than four dwords raises an `IndexError`, although for some the code raises a `KeyError`
first. -/
def unpackCq (f : UsFrame) (check : Bool) : Py UsTlp :=
  match f.data with
  | d0 :: d1 :: d2 :: d3 :: rest =>
    let rt := (d2 >>> 11) &&& 0xf
    match TlpType.ofReqType rt with
    | none => .error "KeyError"
    | some ty =>
      let t := Tlp.setFmtType {} ty
      let t := { t with
        length := d2 &&& 0x7ff
        requester_id := PcieId.fromInt (d2 >>> 16)
        tag := d3 &&& 0xff
        tc := (d3 >>> 25) &&& 0x7
        attr := (d3 >>> 28) &&& 0x7 }
      if rt &&& 8 = 0 then do
        let a ← atOf (d0 &&& 3)
        let address := d1 <<< 32 ||| (d0 &&& 0xfffffffc)
        let id ← match PcieId.mk? 0 0 ((d3 >>> 8) &&& 0xff) with
          | none => .error "ValueError"
          | some id => .ok id
        let data ← packDwords Cfg.packLE rest
        let t := { t with
          at_ := a
          address := address
          fmt := highFmt t.fmt address
          completer_id := id
          first_be := f.firstBe
          last_be := f.lastBe
          data := data }
        assert ([0, 0, 0, 0] ++ byteEns t.payloadSizeDw t.first_be t.last_be == f.byteEn)
        if check then assert f.checkParity
        return { tlp := t, barId := (d3 >>> 16) &&& 7, barAperture := (d3 >>> 19) &&& 0x3f, discontinue := f.discontinue }
      else .ok { tlp := t }
  | _ => .error "IndexError"

/-- xilinx/us/tlp.py:234-238. -/
def ccDw0 (t : Tlp) (locked : Bool) : Nat :=
  let dw := (t.lower_address &&& 0x7f) ||| (t.at_ &&& 3) <<< 8 ||| (t.byte_count &&& 0x1fff) <<< 16
  if locked then dw ||| 1 <<< 29 else dw

/-- xilinx/us/tlp.py:241-244 and 414-417. -/
def cplDw1 (t : Tlp) : Nat := (t.length &&& 0x7ff) ||| (t.status &&& 0x7) <<< 11 ||| t.ep.toNat <<< 14 ||| t.requester_id.toInt <<< 16

/-- xilinx/us/tlp.py:246-250. -/
def ccDw2 (u : UsTlp) : Nat :=
  (u.tlp.tag &&& 0xff) ||| u.tlp.completer_id.toInt <<< 8 ||| u.completerIdEnable.toNat <<< 24 ||| (u.tlp.tc &&& 0x7) <<< 25 ||| (u.tlp.attr &&& 0x7) <<< 28

/-- The set of xilinx/us/tlp.py:237 and 410. -/
def locked (ty : TlpType) : Bool := ty = .CPL_LOCKED ∨ ty = .CPL_LOCKED_DATA

/-- xilinx/us/tlp.py:229-264: `pack_us_cc`. -/
def packCc (u : UsTlp) : Py UsFrame :=
  match u.tlp.fmtType with
  | none => .error "ValueError"
  | some ty =>
    if ty.isCpl then
      match leDwords u.tlp.data with
      | .error e => .error e
      | .ok d =>
        .ok (UsFrame.updateParity { data := [ccDw0 u.tlp (locked ty), cplDw1 u.tlp, ccDw2 u] ++ d, discontinue := u.discontinue })
    else .error "Invalid TLP type for interface"

/-- xilinx/us/tlp.py:270, 275-276, 279-280 (and 462, 467-468, 472-473): the type of a completion. -/
def cplType (t : Tlp) (lock : Bool) : Tlp :=
  let t := if lock then t.setFmtType .CPL_LOCKED else t.setFmtType .CPL
  if t.length > 0 then { t with fmt := TlpType.THREE_DW_DATA } else t

/-- xilinx/us/tlp.py:292-294 and 484-486: the payload of a completion. -/
def cplData (length : Nat) (rest : List Nat) : Py (List UInt8) :=
  if length > 0 then packDwords Cfg.packLE (rest.take length) else .ok []

/-- xilinx/us/tlp.py:266-300: `unpack_us_cc`. -/
def unpackCc (f : UsFrame) (check : Bool) : Py UsTlp :=
  match f.data with
  | d0 :: d1 :: d2 :: rest => do
    let a ← atOf ((d0 >>> 8) &&& 3)
    let status ← statusOf ((d1 >>> 11) &&& 7)
    let t : Tlp :=
      { lower_address := d0 &&& 0x7f
        at_ := a
        byte_count := (d0 >>> 16) &&& 0x1fff
        length := d1 &&& 0x7ff
        status := status
        ep := d1 &&& 1 <<< 14 ≠ 0
        requester_id := PcieId.fromInt (d1 >>> 16)
        completer_id := PcieId.fromInt (d2 >>> 8)
        tag := d2 &&& 0xff
        tc := (d2 >>> 25) &&& 0x7
        attr := (d2 >>> 28) &&& 0x7 }
    let t := cplType t (d0 &&& 1 <<< 29 ≠ 0)
    let data ← cplData t.length rest
    if check then assert f.checkParity
    return { tlp := { t with data := data }, completerIdEnable := d2 &&& 1 <<< 24 ≠ 0, discontinue := f.discontinue }
  | _ => .error "IndexError"

/-- xilinx/us/tlp.py:322-325. -/
def rqDw2 (t : Tlp) (rt : Nat) : Nat := (t.length &&& 0x7ff) ||| (rt &&& 0xf) <<< 11 ||| t.ep.toNat <<< 15 ||| t.requester_id.toInt <<< 16

/-- xilinx/us/tlp.py:327-331. -/
def rqDw3 (u : UsTlp) : Nat :=
  (u.tlp.tag &&& 0xff) ||| u.tlp.completer_id.toInt <<< 8 ||| u.requesterIdEnable.toNat <<< 24 ||| (u.tlp.tc &&& 0x7) <<< 25 ||| (u.tlp.attr &&& 0x7) <<< 28

/-- xilinx/us/tlp.py:302-351: `pack_us_rq`. -/
def packRq (u : UsTlp) : Py UsFrame :=
  match u.tlp.fmtType with
  | none => .error "ValueError"
  | some ty =>
    if ty.isReq then
      let d01 := if ty.isCfg then [u.tlp.address &&& 0xffc, 0] else [addrDw u.tlp, addrHi u.tlp]
      match ty.reqType with
      | none => .error "KeyError"
      | some rt => match leDwords u.tlp.data with
        | .error e => .error e
        | .ok d =>
          .ok (UsFrame.updateParity
            { data := d01 ++ [rqDw2 u.tlp rt, rqDw3 u] ++ d
              firstBe := u.tlp.first_be
              lastBe := u.tlp.last_be
              discontinue := u.discontinue
              seqNum := u.seqNum })
    else .error "Invalid TLP type for interface"

/-- xilinx/us/tlp.py:367-369: the address type; configuration requests have none. -/
def rqAt (rt d0 : Nat) : Py Nat := if rt < 8 then atOf (d0 &&& 3) else .ok 0

/-- xilinx/us/tlp.py:353-400: `unpack_us_rq`. The branch of line 398 is not reached: there is no type for these codes (359). Simplification: as in `unpackCq`. -/
def unpackRq (f : UsFrame) (check : Bool) : Py UsTlp :=
  match f.data with
  | d0 :: d1 :: d2 :: d3 :: rest =>
    let rt := (d2 >>> 11) &&& 0xf
    match TlpType.ofReqType rt with
    | none => .error "KeyError"
    | some ty => do
      let t := Tlp.setFmtType {} ty
      let a ← rqAt rt d0
      let address := if rt < 8 then d1 <<< 32 ||| (d0 &&& 0xfffffffc) else d0 &&& 0xffc
      let data ← packDwords Cfg.packLE rest
      let t := { t with
        length := d2 &&& 0x7ff
        ep := d2 &&& 1 <<< 15 ≠ 0
        requester_id := PcieId.fromInt (d2 >>> 16)
        tag := d3 &&& 0xff
        tc := (d3 >>> 25) &&& 0x7
        attr := (d3 >>> 28) &&& 0x7
        at_ := a
        address := address
        fmt := if rt < 8 then highFmt t.fmt address else t.fmt
        completer_id := PcieId.fromInt (d3 >>> 8)
        first_be := f.firstBe
        last_be := f.lastBe
        data := data }
      if check then assert f.checkParity
      return { tlp := t, requesterIdEnable := d3 &&& 1 <<< 24 ≠ 0, discontinue := f.discontinue, seqNum := f.seqNum }
  | _ => .error "IndexError"

/-- xilinx/us/tlp.py:407-412. -/
def rcDw0 (u : UsTlp) (locked : Bool) : Nat :=
  let dw := (u.tlp.lower_address &&& 0xfff) ||| (u.errorCode &&& 0xf) <<< 12 ||| (u.tlp.byte_count &&& 0x1fff) <<< 16
  (if locked then dw ||| 1 <<< 29 else dw) ||| u.requestCompleted.toNat <<< 30

/-- xilinx/us/tlp.py:419-422. -/
def rcDw2 (t : Tlp) : Nat := (t.tag &&& 0xff) ||| t.completer_id.toInt <<< 8 ||| (t.tc &&& 0x7) <<< 25 ||| (t.attr &&& 0x7) <<< 28

/-- xilinx/us/tlp.py:431-449 and 488-506: the byte enables of a completion. `(4-byte_count-lower_address) & 3` is a remainder in Python, whatever the sign. -/
def rcByteEn (t : Tlp) : List Nat :=
  let first := (0xf <<< (t.lower_address &&& 3)) &&& 0xf
  let last := if t.byte_count + (t.lower_address &&& 3) > t.length * 4 then 0xf else 0xf >>> ((4 - (t.byte_count + t.lower_address) % 4) % 4)
  let r := if t.payloadSizeDw = 1 then (first &&& last, 0) else (first, last)
  [0, 0, 0] ++ byteEns t.payloadSizeDw r.1 r.2

/-- xilinx/us/tlp.py:402-456: `pack_us_rc`. -/
def packRc (u : UsTlp) : Py UsFrame :=
  match u.tlp.fmtType with
  | none => .error "ValueError"
  | some ty =>
    if ty.isCpl then
      match leDwords u.tlp.data with
      | .error e => .error e
      | .ok d =>
        .ok (UsFrame.updateParity
          { data := [rcDw0 u (locked ty), cplDw1 u.tlp, rcDw2 u.tlp] ++ d, discontinue := u.discontinue, byteEn := rcByteEn u.tlp })
    else .error "Invalid TLP type for interface"

/-- xilinx/us/tlp.py:458-515: `unpack_us_rc`. -/
def unpackRc (f : UsFrame) (check : Bool) : Py UsTlp :=
  match f.data with
  | d0 :: d1 :: d2 :: rest => do
    let status ← statusOf ((d1 >>> 11) &&& 7)
    let t : Tlp :=
      { lower_address := d0 &&& 0xfff
        byte_count := (d0 >>> 16) &&& 0x1fff
        length := d1 &&& 0x7ff
        status := status
        ep := d1 &&& 1 <<< 14 ≠ 0
        requester_id := PcieId.fromInt (d1 >>> 16)
        completer_id := PcieId.fromInt (d2 >>> 8)
        tag := d2 &&& 0xff
        tc := (d2 >>> 25) &&& 0x7
        attr := (d2 >>> 28) &&& 0x7 }
    let t := cplType t (d0 &&& 1 <<< 29 ≠ 0)
    let data ← cplData t.length rest
    let t := { t with data := data }
    assert (rcByteEn t == f.byteEn)
    if check then assert f.checkParity
    return { tlp := t, errorCode := (d0 >>> 12) &&& 0xf, requestCompleted := d0 &&& 1 <<< 30 ≠ 0, discontinue := f.discontinue }
  | _ => .error "IndexError"

end UsTlp
end Pcie
