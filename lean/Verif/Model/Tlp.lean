/-
Model of cocotbext/pcie/core/tlp.py (TLP objects and their serialisation).
-/
import Verif.Model.Utils
namespace Pcie

/-- Python exceptions are values: the string is the exception text (or class). -/
abbrev Py (α : Type) := Except String α

/-- dllp.py:59-62 `FcType`. -/
inductive FcType where
  | P | NP | CPL
deriving DecidableEq, Repr

/-- tlp.py:42-82 `TlpType`. -/
inductive TlpType where
  | MEM_READ | MEM_READ_64 | MEM_READ_LOCKED | MEM_READ_LOCKED_64 | MEM_WRITE | MEM_WRITE_64
  | IO_READ | IO_WRITE | CFG_READ_0 | CFG_WRITE_0 | CFG_READ_1 | CFG_WRITE_1
  | MSG_TO_RC | MSG_ADDR | MSG_ID | MSG_BCAST | MSG_LOCAL | MSG_GATHER
  | MSG_DATA_TO_RC | MSG_DATA_ADDR | MSG_DATA_ID | MSG_DATA_BCAST | MSG_DATA_LOCAL | MSG_DATA_GATHER
  | CPL | CPL_DATA | CPL_LOCKED | CPL_LOCKED_DATA
  | FETCH_ADD | FETCH_ADD_64 | SWAP | SWAP_64 | CAS | CAS_64
  | PREFIX_MRIOV | PREFIX_VENDOR_L0 | PREFIX_VENDOR_L1 | PREFIX_EXT_TPH | PREFIX_VENDOR_E0 | PREFIX_VENDOR_E1
deriving DecidableEq, Repr

namespace TlpType

/-- tlp.py:33-38 `TlpFmt`. -/
def THREE_DW : Nat := 0
@[inherit_doc THREE_DW] def FOUR_DW : Nat := 1
@[inherit_doc THREE_DW] def THREE_DW_DATA : Nat := 2
@[inherit_doc THREE_DW] def FOUR_DW_DATA : Nat := 3
@[inherit_doc THREE_DW] def TLP_PREFIX : Nat := 4

/-- tlp.py:43-82: the `(fmt, type)` value of each member. -/
def value : TlpType → Nat × Nat
  | MEM_READ => (0, 0x00) | MEM_READ_64 => (1, 0x00)
  | MEM_READ_LOCKED => (0, 0x01) | MEM_READ_LOCKED_64 => (1, 0x01)
  | MEM_WRITE => (2, 0x00) | MEM_WRITE_64 => (3, 0x00)
  | IO_READ => (0, 0x02) | IO_WRITE => (2, 0x02)
  | CFG_READ_0 => (0, 0x04) | CFG_WRITE_0 => (2, 0x04)
  | CFG_READ_1 => (0, 0x05) | CFG_WRITE_1 => (2, 0x05)
  | MSG_TO_RC => (1, 0x10) | MSG_ADDR => (1, 0x11) | MSG_ID => (1, 0x12)
  | MSG_BCAST => (1, 0x13) | MSG_LOCAL => (1, 0x14) | MSG_GATHER => (1, 0x15)
  | MSG_DATA_TO_RC => (3, 0x10) | MSG_DATA_ADDR => (3, 0x11) | MSG_DATA_ID => (3, 0x12)
  | MSG_DATA_BCAST => (3, 0x13) | MSG_DATA_LOCAL => (3, 0x14) | MSG_DATA_GATHER => (3, 0x15)
  | CPL => (0, 0x0A) | CPL_DATA => (2, 0x0A) | CPL_LOCKED => (0, 0x0B) | CPL_LOCKED_DATA => (2, 0x0B)
  | FETCH_ADD => (2, 0x0C) | FETCH_ADD_64 => (3, 0x0C)
  | SWAP => (2, 0x0D) | SWAP_64 => (3, 0x0D)
  | CAS => (2, 0x0E) | CAS_64 => (3, 0x0E)
  | PREFIX_MRIOV => (4, 0x00) | PREFIX_VENDOR_L0 => (4, 0x0E) | PREFIX_VENDOR_L1 => (4, 0x0F)
  | PREFIX_EXT_TPH => (4, 0x10) | PREFIX_VENDOR_E0 => (4, 0x1E) | PREFIX_VENDOR_E1 => (4, 0x1F)

/-- All members, in declaration order (tlp.py:43-82). -/
def all : List TlpType :=
  [MEM_READ, MEM_READ_64, MEM_READ_LOCKED, MEM_READ_LOCKED_64, MEM_WRITE, MEM_WRITE_64,
   IO_READ, IO_WRITE, CFG_READ_0, CFG_WRITE_0, CFG_READ_1, CFG_WRITE_1,
   MSG_TO_RC, MSG_ADDR, MSG_ID, MSG_BCAST, MSG_LOCAL, MSG_GATHER,
   MSG_DATA_TO_RC, MSG_DATA_ADDR, MSG_DATA_ID, MSG_DATA_BCAST, MSG_DATA_LOCAL, MSG_DATA_GATHER,
   CPL, CPL_DATA, CPL_LOCKED, CPL_LOCKED_DATA, FETCH_ADD, FETCH_ADD_64, SWAP, SWAP_64, CAS, CAS_64,
   PREFIX_MRIOV, PREFIX_VENDOR_L0, PREFIX_VENDOR_L1, PREFIX_EXT_TPH, PREFIX_VENDOR_E0, PREFIX_VENDOR_E1]

/-- `TlpType((fmt, type))` (tlp.py:243): lookup by value; `none` is the `ValueError`. -/
def ofPair (fmt type : Nat) : Option TlpType := all.find? (fun t => t.value == (fmt, type))

/-- tlp.py:150-185 `tlp_type_fc_type_mapping`; `none` is the `KeyError`. -/
def fcType : TlpType → Option FcType
  | MEM_READ | MEM_READ_64 | MEM_READ_LOCKED | MEM_READ_LOCKED_64 => some .NP
  | MEM_WRITE | MEM_WRITE_64 => some .P
  | IO_READ | IO_WRITE => some .NP
  | CFG_READ_0 | CFG_WRITE_0 | CFG_READ_1 | CFG_WRITE_1 => some .NP
  | MSG_TO_RC | MSG_ADDR | MSG_ID | MSG_BCAST | MSG_LOCAL | MSG_GATHER => some .P
  | MSG_DATA_TO_RC | MSG_DATA_ADDR | MSG_DATA_ID | MSG_DATA_BCAST | MSG_DATA_LOCAL | MSG_DATA_GATHER => some .P
  | CPL | CPL_DATA | CPL_LOCKED | CPL_LOCKED_DATA => some .CPL
  | FETCH_ADD | FETCH_ADD_64 | SWAP | SWAP_64 | CAS | CAS_64 => some .NP
  | PREFIX_MRIOV | PREFIX_VENDOR_L0 | PREFIX_VENDOR_L1 | PREFIX_EXT_TPH | PREFIX_VENDOR_E0
  | PREFIX_VENDOR_E1 => none

/-- The set literal of tlp.py:495-498 and 566-569: request types `pack_header`/`unpack_header` handle. -/
def isReq : TlpType → Bool
  | CFG_READ_0 | CFG_WRITE_0 | CFG_READ_1 | CFG_WRITE_1
  | MEM_READ | MEM_READ_64 | MEM_READ_LOCKED | MEM_READ_LOCKED_64 | MEM_WRITE | MEM_WRITE_64
  | IO_READ | IO_WRITE | FETCH_ADD | FETCH_ADD_64 | SWAP | SWAP_64 | CAS | CAS_64 => true
  | _ => false

/-- The set literal of tlp.py:505 and 576. -/
def isCfg : TlpType → Bool
  | CFG_READ_0 | CFG_WRITE_0 | CFG_READ_1 | CFG_WRITE_1 => true
  | _ => false

/-- The set literal of tlp.py:518 and 588. -/
def isCpl : TlpType → Bool
  | CPL | CPL_DATA | CPL_LOCKED | CPL_LOCKED_DATA => true
  | _ => false

/-- The set literal of tlp.py:562-563 (types whose length field is reserved). -/
def lengthReserved : TlpType → Bool
  | CPL | CPL_LOCKED | MSG_TO_RC | MSG_ADDR | MSG_ID | MSG_BCAST | MSG_LOCAL | MSG_GATHER => true
  | _ => false

end TlpType

/-- tlp.py:189-212 the data fields of a `Tlp` (`release_fc_cb` and `ingress_port` are modelled with the ports).
Simplification: enum-valued fields are their integer values. -/
structure Tlp where
  fmt : Nat := 0
  type : Nat := 0
  tc : Nat := 0
  ln : Bool := false
  th : Bool := false
  td : Bool := false
  ep : Bool := false
  attr : Nat := 0
  at_ : Nat := 0
  length : Nat := 0
  completer_id : PcieId := ⟨0, 0, 0⟩
  status : Nat := 0
  bcm : Bool := false
  byte_count : Nat := 0
  requester_id : PcieId := ⟨0, 0, 0⟩
  tag : Nat := 0
  first_be : Nat := 0
  last_be : Nat := 0
  lower_address : Nat := 0
  address : Nat := 0
  ph : Nat := 0
  data : List UInt8 := []
  seq : Nat := 0
deriving DecidableEq, Repr, Inhabited

/-- tlp.py:143-147 `CplStatus`. -/
def CplStatus.SC : Nat := 0
@[inherit_doc CplStatus.SC] def CplStatus.UR : Nat := 1
@[inherit_doc CplStatus.SC] def CplStatus.CRS : Nat := 2
@[inherit_doc CplStatus.SC] def CplStatus.CA : Nat := 4

namespace Tlp

/-- tlp.py:217-239: the copy constructor `Tlp(tlp)`. Note that `th` is not copied. -/
def copy (t : Tlp) : Tlp :=
  { fmt := t.fmt, type := t.type, tc := t.tc, ln := t.ln, td := t.td, ep := t.ep, attr := t.attr,
    at_ := t.at_, length := t.length, completer_id := t.completer_id, status := t.status, bcm := t.bcm,
    byte_count := t.byte_count, requester_id := t.requester_id, tag := t.tag, first_be := t.first_be,
    last_be := t.last_be, lower_address := t.lower_address, address := t.address, ph := t.ph,
    data := t.data, seq := t.seq }

/-- tlp.py:241-243 `fmt_type` getter (`none`: `ValueError`). -/
def fmtType (t : Tlp) : Option TlpType := TlpType.ofPair t.fmt t.type

/-- tlp.py:245-250 `fmt_type` setter. -/
def setFmtType (t : Tlp) (ty : TlpType) : Tlp := { t with fmt := ty.value.1, type := ty.value.2 }

/-- tlp.py:277-309 `check`. The chained comparison `0 > length > 1024` (line 284) and the comparison of
`fmt_type` with a set (line 292) are reproduced as written; both are always false. -/
def check (t : Tlp) : Py Bool :=
  match t.fmtType with
  | none => .error "ValueError"
  | some ty =>
    let ret := true
    let ret := if t.fmt = TlpType.THREE_DW_DATA ∨ t.fmt = TlpType.FOUR_DW_DATA then
        let ret := if t.length * 4 ≠ t.data.length then false else ret
        if 0 > t.length ∧ t.length > 1024 then false else ret
      else ret
    let ret := if ty ∈ [.MEM_READ, .MEM_READ_64, .MEM_READ_LOCKED, .MEM_READ_LOCKED_64,
          .MEM_WRITE, .MEM_WRITE_64] then
        if t.length * 4 > 0x1000 - (t.address &&& 0xfff) then false else ret
      else ret
    -- line 292: `self.fmt_type == {...}` compares an enum member with a set: always False
    let ret := if ty ∈ [.CPL_DATA, .CPL_LOCKED_DATA] then
        if t.byte_count + (t.lower_address &&& 3) + 3 < t.length * 4 then false else ret
      else ret
    let ret := if ty ∈ [.CPL, .CPL_LOCKED, .MSG_TO_RC, .MSG_ADDR, .MSG_ID, .MSG_BCAST, .MSG_LOCAL,
          .MSG_GATHER] then
        if t.length ≠ 0 then false else ret
      else ret
    .ok ret

/-- tlp.py:311-325 `create_completion_for_tlp`. -/
def createCompletion (t : Tlp) (completer_id : PcieId) (has_data : Bool := false)
    (status : Nat := CplStatus.SC) : Tlp :=
  let cpl : Tlp := {}
  let cpl := if has_data then cpl.setFmtType .CPL_DATA else cpl.setFmtType .CPL
  { cpl with requester_id := t.requester_id, completer_id := completer_id, status := status,
             attr := t.attr, tag := t.tag, tc := t.tc }

/-- tlp.py:327-330 `create_completion_data_for_tlp`. -/
def createCompletionData (t : Tlp) (completer_id : PcieId) : Tlp := t.createCompletion completer_id true

/-- tlp.py:332-335 `create_ur_completion_for_tlp`. -/
def createUr (t : Tlp) (completer_id : PcieId) : Tlp := t.createCompletion completer_id false CplStatus.UR

/-- tlp.py:337-340 `create_crs_completion_for_tlp`. -/
def createCrs (t : Tlp) (completer_id : PcieId) : Tlp := t.createCompletion completer_id false CplStatus.CRS

/-- tlp.py:342-345 `create_ca_completion_for_tlp`. -/
def createCa (t : Tlp) (completer_id : PcieId) : Tlp := t.createCompletion completer_id false CplStatus.CA

/-- tlp.py:347-363 `set_addr_be`: the updated TLP and the returned `(first_pad, last_pad)`.
`(addr+length-1) % 4` is Python's modulo on a possibly negative number (`addr = length = 0` gives 3),
written here as `(addr+length+3) % 4`. -/
def setAddrBe (t : Tlp) (addr length : Nat) : Tlp × Nat × Nat :=
  let address := andNot addr 3
  let first_pad := addr % 4
  let last_pad := 3 - (addr + length + 3) % 4
  let len := (length + first_pad + last_pad + 3) / 4
  let first_be := (0xf <<< first_pad) &&& 0xf
  let last_be := 0xf >>> last_pad
  let t' :=
    if len = 0 then { t with address := address, length := 1, first_be := 0, last_be := 0 }
    else if len = 1 then
      { t with address := address, length := len, first_be := first_be &&& last_be, last_be := 0 }
    else { t with address := address, length := len, first_be := first_be, last_be := last_be }
  (t', first_pad, last_pad)

/-- tlp.py:365-368 `set_data`. -/
def setData (t : Tlp) (data : List UInt8) : Tlp := { t with data := data, length := data.length / 4 }

/-- tlp.py:370-379 `set_addr_be_data`. -/
def setAddrBeData (t : Tlp) (addr : Nat) (data : List UInt8) : Tlp :=
  let (t', first_pad, last_pad) := t.setAddrBe addr data.length
  let d := List.replicate first_pad 0 ++ data ++ List.replicate last_pad 0
  if d.length = 0 then { t' with data := [0, 0, 0, 0] } else { t' with data := d }

/-- tlp.py:384-393 `get_first_be_offset`. -/
def firstBeOffset (t : Tlp) : Nat :=
  if t.first_be &&& 0x7 = 0 then 3
  else if t.first_be &&& 0x3 = 0 then 2
  else if t.first_be &&& 0x1 = 0 then 1
  else 0

/-- tlp.py:395-408 `get_last_be_offset`. -/
def lastBeOffset (t : Tlp) : Nat :=
  let be := if t.length = 1 then t.first_be else t.last_be
  if be &&& 0xf = 0x1 then 3
  else if be &&& 0xe = 0x2 then 2
  else if be &&& 0xc = 0x4 then 1
  else 0

/-- tlp.py:410-412 `get_be_byte_count` (as an integer: the Python value is negative only when `length = 0`). -/
def beByteCount (t : Tlp) : Nat := t.length * 4 - t.firstBeOffset - t.lastBeOffset

/-- tlp.py:414-416 `get_lower_address`. Python's `+` binds tighter than `&`, so this is
`address & (0x7c + offset)`. -/
def lowerAddress (t : Tlp) : Nat := t.address &&& (0x7c + t.firstBeOffset)

/-- tlp.py:418-420 `has_data`. -/
def hasData (t : Tlp) : Bool := t.fmt = TlpType.THREE_DW_DATA ∨ t.fmt = TlpType.FOUR_DW_DATA

/-- tlp.py:422-427 `get_header_size`. -/
def headerSize (t : Tlp) : Nat := if t.fmt = TlpType.FOUR_DW ∨ t.fmt = TlpType.FOUR_DW_DATA then 16 else 12

/-- tlp.py:429-434 `get_header_size_dw`. -/
def headerSizeDw (t : Tlp) : Nat := if t.fmt = TlpType.FOUR_DW ∨ t.fmt = TlpType.FOUR_DW_DATA then 4 else 3

/-- tlp.py:436-454 `get_payload_size`, `get_payload_size_dw`, `get_size`, `get_size_dw`, `get_wire_size`. -/
def payloadSize (t : Tlp) : Nat := t.data.length
@[inherit_doc payloadSize] def payloadSizeDw (t : Tlp) : Nat := t.data.length / 4
@[inherit_doc payloadSize] def size (t : Tlp) : Nat := t.headerSize + t.payloadSize
@[inherit_doc payloadSize] def sizeDw (t : Tlp) : Nat := t.headerSizeDw + t.payloadSizeDw
@[inherit_doc payloadSize] def wireSize (t : Tlp) : Nat := t.size + 8

/-- tlp.py:456-458 `get_data_credits`. -/
def dataCredits (t : Tlp) : Nat := (t.payloadSizeDw + 3) / 4

/-- tlp.py:460-461 `get_fc_type` (`none`: `ValueError`/`KeyError`). -/
def fcType (t : Tlp) : Option FcType := t.fmtType.bind TlpType.fcType

/-- tlp.py:463-470 `is_posted`, `is_nonposted`, `is_completion`. -/
def isPosted (t : Tlp) : Bool := t.fcType = some .P
@[inherit_doc isPosted] def isNonposted (t : Tlp) : Bool := t.fcType = some .NP
@[inherit_doc isPosted] def isCompletion (t : Tlp) : Bool := t.fcType = some .CPL

/-- `struct.pack('>L', dw)`; out-of-range raises `struct.error`. -/
def packL (dw : Nat) : Py (List UInt8) :=
  if dw < 2 ^ 32 then
    .ok [UInt8.ofNat (dw >>> 24), UInt8.ofNat (dw >>> 16), UInt8.ofNat (dw >>> 8), UInt8.ofNat dw]
  else .error "struct.error"

/-- `struct.pack('>Q', val)`. -/
def packQ (v : Nat) : Py (List UInt8) :=
  if v < 2 ^ 64 then
    .ok [UInt8.ofNat (v >>> 56), UInt8.ofNat (v >>> 48), UInt8.ofNat (v >>> 40), UInt8.ofNat (v >>> 32),
         UInt8.ofNat (v >>> 24), UInt8.ofNat (v >>> 16), UInt8.ofNat (v >>> 8), UInt8.ofNat v]
  else .error "struct.error"

/-- `struct.unpack_from('>L', pkt, off)`; a short buffer raises `struct.error`. -/
def unpackL (pkt : List UInt8) (off : Nat) : Py Nat :=
  match pkt.drop off with
  | a :: b :: c :: d :: _ => .ok (a.toNat <<< 24 ||| b.toNat <<< 16 ||| c.toNat <<< 8 ||| d.toNat)
  | _ => .error "struct.error"

/-- `struct.unpack_from('>Q', pkt, off)`. -/
def unpackQ (pkt : List UInt8) (off : Nat) : Py Nat :=
  match pkt.drop off with
  | a :: b :: c :: d :: e :: f :: g :: h :: _ =>
    .ok (a.toNat <<< 56 ||| b.toNat <<< 48 ||| c.toNat <<< 40 ||| d.toNat <<< 32 |||
         e.toNat <<< 24 ||| f.toNat <<< 16 ||| g.toNat <<< 8 ||| h.toNat)
  | _ => .error "struct.error"

/-- tlp.py:480-492: the first header dword. -/
def headerDw0 (t : Tlp) : Nat :=
  (t.length &&& 0x3ff)
  ||| ((t.at_ &&& 0x3) <<< 10)
  ||| ((t.attr &&& 0x3) <<< 12)
  ||| (t.ep.toNat <<< 14)
  ||| (t.td.toNat <<< 15)
  ||| (t.th.toNat <<< 16)
  ||| (t.ln.toNat <<< 17)
  ||| ((t.attr &&& 0x4) <<< 16)
  ||| ((t.tag &&& 0x100) <<< 11)
  ||| ((t.tc &&& 0x7) <<< 20)
  ||| ((t.tag &&& 0x200) <<< 14)
  ||| ((t.type &&& 0x1f) <<< 24)
  ||| ((t.fmt &&& 0x7) <<< 29)

/-- tlp.py:476-531 `pack_header`. -/
def packHeader (t : Tlp) : Py (List UInt8) := do
  let pkt ← packL t.headerDw0
  match t.fmtType with
  | none => .error "ValueError"
  | some ty =>
    if ty.isReq then
      let dw := (t.first_be &&& 0xf) ||| ((t.last_be &&& 0xf) <<< 4) ||| ((t.tag &&& 0x0ff) <<< 8)
        ||| (t.requester_id.toInt <<< 16)
      let pkt := pkt ++ (← packL dw)
      if ty.isCfg then
        let dw := (t.address &&& 0xffc) ||| (t.completer_id.toInt <<< 16)
        .ok (pkt ++ (← packL dw))
      else if t.fmt = TlpType.FOUR_DW ∨ t.fmt = TlpType.FOUR_DW_DATA then
        let val := (t.address &&& 0xfffffffffffffffc) ||| (t.ph &&& 0x3)
        .ok (pkt ++ (← packQ val))
      else
        let dw := (t.address &&& 0xfffffffc) ||| (t.ph &&& 0x3)
        .ok (pkt ++ (← packL dw))
    else if ty.isCpl then
      let dw := (t.byte_count &&& 0xfff) ||| (t.bcm.toNat <<< 12) ||| ((t.status &&& 0x7) <<< 13)
        ||| (t.completer_id.toInt <<< 16)
      let pkt := pkt ++ (← packL dw)
      let dw := (t.lower_address &&& 0x7f) ||| ((t.tag &&& 0x0ff) <<< 8) ||| (t.requester_id.toInt <<< 16)
      .ok (pkt ++ (← packL dw))
    else .error "Unknown TLP type"

/-- tlp.py:533-540 `pack`. -/
def pack (t : Tlp) : Py (List UInt8) := do
  let pkt ← t.packHeader
  if t.hasData then .ok (pkt ++ t.data) else .ok pkt

/-- `TlpAt(v)` (tlp.py:117-120); `ValueError` for 3. -/
def atOf (v : Nat) : Py Nat := if v ≤ 2 then .ok v else .error "ValueError"

/-- `CplStatus(v)` (tlp.py:143-147). -/
def statusOf (v : Nat) : Py Nat := if v = 0 ∨ v = 1 ∨ v = 2 ∨ v = 4 then .ok v else .error "ValueError"

/-- tlp.py:542-604 `unpack_header`. -/
def unpackHeader (pkt : List UInt8) : Py Tlp := do
  let dw ← unpackL pkt 0
  let at_ ← atOf ((dw >>> 10) &&& 0x3)
  let attr := (dw >>> 12) &&& 0x3
  let tag := (dw >>> 11) &&& 0x100
  let t : Tlp :=
    { length := dw &&& 0x3ff
      at_ := at_
      ep := dw &&& (1 <<< 14) ≠ 0
      td := dw &&& (1 <<< 15) ≠ 0
      th := dw &&& (1 <<< 16) ≠ 0
      ln := dw &&& (1 <<< 17) ≠ 0
      attr := attr ||| ((dw >>> 16) &&& 0x4)
      tc := (dw >>> 20) &&& 0x7
      tag := tag ||| ((dw >>> 14) &&& 0x200)
      type := (dw >>> 24) &&& 0x1f
      fmt := (dw >>> 29) &&& 0x7 }
  match t.fmtType with
  | none => .error "ValueError"
  | some ty =>
    let t := if ¬ ty.lengthReserved ∧ t.length = 0 then { t with length := 1024 } else t
    if ty.isReq then
      let dw ← unpackL pkt 4
      let t := { t with
        first_be := dw &&& 0xf
        last_be := (dw >>> 4) &&& 0xf
        tag := t.tag ||| ((dw >>> 8) &&& 0x0ff)
        requester_id := PcieId.fromInt (dw >>> 16) }
      if ty.isCfg then
        let dw ← unpackL pkt 8
        .ok { t with address := dw &&& 0xffc, completer_id := PcieId.fromInt (dw >>> 16) }
      else if t.fmt = TlpType.FOUR_DW ∨ t.fmt = TlpType.FOUR_DW_DATA then
        let val ← unpackQ pkt 8
        .ok { t with address := val &&& 0xfffffffffffffffc, ph := val &&& 0x3 }
      else
        let dw ← unpackL pkt 8
        .ok { t with address := dw &&& 0xfffffffc, ph := dw &&& 0x3 }
    else if ty.isCpl then
      let dw ← unpackL pkt 4
      let status ← statusOf ((dw >>> 13) &&& 0x7)
      let t := { t with
        byte_count := dw &&& 0xfff
        bcm := dw &&& (1 <<< 12) ≠ 0
        status := status
        completer_id := PcieId.fromInt (dw >>> 16) }
      let dw ← unpackL pkt 8
      let t := { t with
        lower_address := dw &&& 0x7f
        tag := t.tag ||| ((dw >>> 8) &&& 0x0ff)
        requester_id := PcieId.fromInt (dw >>> 16) }
      .ok (if t.byte_count = 0 then { t with byte_count := 4096 } else t)
    else .error "Unknown TLP type"

/-- tlp.py:606-613 `unpack`. -/
def unpack (pkt : List UInt8) : Py Tlp := do
  let t ← unpackHeader pkt
  .ok { t with data := pkt.drop t.headerSize }

/-- tlp.py:615-641 `__eq__` between two `Tlp` objects: every field except `th`. -/
def pyEq (a b : Tlp) : Bool :=
  a.data = b.data ∧ a.fmt = b.fmt ∧ a.type = b.type ∧ a.tc = b.tc ∧ a.ln = b.ln ∧ a.td = b.td ∧
  a.ep = b.ep ∧ a.attr = b.attr ∧ a.at_ = b.at_ ∧ a.length = b.length ∧
  a.completer_id = b.completer_id ∧ a.status = b.status ∧ a.bcm = b.bcm ∧
  a.byte_count = b.byte_count ∧ a.requester_id = b.requester_id ∧ a.tag = b.tag ∧
  a.first_be = b.first_be ∧ a.last_be = b.last_be ∧ a.lower_address = b.lower_address ∧
  a.address = b.address ∧ a.ph = b.ph ∧ a.seq = b.seq

end Tlp
end Pcie
