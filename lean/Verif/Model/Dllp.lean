/-
Model of cocotbext/pcie/core/dllp.py.
-/
import Verif.Model.Tlp
namespace Pcie

/-- dllp.py:88-92: one byte of CRC input is shifted through, `n` bits at a time (the Python loop has n = 8). -/
def crcBits (poly : Nat) : Nat → Nat → Nat
  | 0, crc => crc
  | n + 1, crc => crcBits poly n (if crc &&& 1 ≠ 0 then (crc >>> 1) ^^^ poly else crc >>> 1)

/-- dllp.py:85-93 `crc16(data, crc=0xFFFF, poly=0xD008)`. -/
def crc16 (data : List UInt8) (crc : Nat := 0xFFFF) (poly : Nat := 0xD008) : Nat :=
  data.foldl (fun crc d => crcBits poly 8 (crc ^^^ d.toNat)) crc

/-- dllp.py:96-106: `Dllp`; `type` is the integer value of `DllpType` (dllp.py:30-52). -/
structure Dllp where
  type : Nat := 0x31
  seq : Nat := 0
  vc : Nat := 0
  hdr_scale : Nat := 0
  hdr_fc : Nat := 0
  data_scale : Nat := 0
  data_fc : Nat := 0
  feature_support : Nat := 0
  feature_ack : Bool := false
deriving DecidableEq, Repr, Inhabited

namespace Dllp

/-- dllp.py:31-52 the values of `DllpType`. -/
def ACK : Nat := 0x00
@[inherit_doc ACK] def MR_INIT : Nat := 0x01
@[inherit_doc ACK] def DATA_LINK_FEATURE : Nat := 0x02
@[inherit_doc ACK] def NAK : Nat := 0x10
@[inherit_doc ACK] def PM_ENTER_L1 : Nat := 0x20
@[inherit_doc ACK] def PM_ENTER_L23 : Nat := 0x21
@[inherit_doc ACK] def PM_ACT_ST_REQ_L1 : Nat := 0x23
@[inherit_doc ACK] def PM_REQ_ACK : Nat := 0x24
@[inherit_doc ACK] def VEND : Nat := 0x30
@[inherit_doc ACK] def NOP : Nat := 0x31
@[inherit_doc ACK] def INIT_FC1_P : Nat := 0x40
@[inherit_doc ACK] def INIT_FC1_NP : Nat := 0x50
@[inherit_doc ACK] def INIT_FC1_CPL : Nat := 0x60
@[inherit_doc ACK] def MR_INIT_FC1 : Nat := 0x70
@[inherit_doc ACK] def INIT_FC2_P : Nat := 0xC0
@[inherit_doc ACK] def INIT_FC2_NP : Nat := 0xD0
@[inherit_doc ACK] def INIT_FC2_CPL : Nat := 0xE0
@[inherit_doc ACK] def MR_INIT_FC2 : Nat := 0xF0
@[inherit_doc ACK] def UPDATE_FC_P : Nat := 0x80
@[inherit_doc ACK] def UPDATE_FC_NP : Nat := 0x90
@[inherit_doc ACK] def UPDATE_FC_CPL : Nat := 0xA0
@[inherit_doc ACK] def MR_UPDATE_FC : Nat := 0xB0

/-- dllp.py:31-52: the members of `DllpType`; `DllpType(v)` raises for any other `v`. -/
def types : List Nat :=
  [ACK, MR_INIT, DATA_LINK_FEATURE, NAK, PM_ENTER_L1, PM_ENTER_L23, PM_ACT_ST_REQ_L1, PM_REQ_ACK, VEND, NOP,
   INIT_FC1_P, INIT_FC1_NP, INIT_FC1_CPL, MR_INIT_FC1, INIT_FC2_P, INIT_FC2_NP, INIT_FC2_CPL, MR_INIT_FC2,
   UPDATE_FC_P, UPDATE_FC_NP, UPDATE_FC_CPL, MR_UPDATE_FC]

/-- The set literal of dllp.py:156-158 and 194-196. -/
def fcTypes : List Nat :=
  [INIT_FC1_P, INIT_FC1_NP, INIT_FC1_CPL, INIT_FC2_P, INIT_FC2_NP, INIT_FC2_CPL,
   UPDATE_FC_P, UPDATE_FC_NP, UPDATE_FC_CPL]

/-- The set literal of dllp.py:150-151 and 188-189. -/
def plainTypes : List Nat := [NOP, PM_ENTER_L1, PM_ENTER_L23, PM_ACT_ST_REQ_L1, PM_REQ_ACK]

/-- dllp.py:65-75 and 141-142 `get_fc_type` (`none`: KeyError). -/
def fcType (d : Dllp) : Option FcType :=
  if d.type = INIT_FC1_P ∨ d.type = INIT_FC2_P ∨ d.type = UPDATE_FC_P then some .P
  else if d.type = INIT_FC1_NP ∨ d.type = INIT_FC2_NP ∨ d.type = UPDATE_FC_NP then some .NP
  else if d.type = INIT_FC1_CPL ∨ d.type = INIT_FC2_CPL ∨ d.type = UPDATE_FC_CPL then some .CPL
  else none

/-- dllp.py:119-132 `create_ack`, `create_nak`. -/
def createAck (seq : Nat) : Dllp := { type := ACK, seq := seq }
@[inherit_doc createAck] def createNak (seq : Nat) : Dllp := { type := NAK, seq := seq }

/-- dllp.py:146-165: the packed dword. -/
def packDw (d : Dllp) : Py Nat :=
  let dw := (d.type &&& 0xff) <<< 24
  if d.type = ACK ∨ d.type = NAK then .ok (dw ||| (d.seq &&& 0xfff))
  else if d.type ∈ plainTypes then .ok dw
  else if d.type = DATA_LINK_FEATURE then
    .ok (dw ||| (d.feature_support &&& 0x7fffff) ||| (d.feature_ack.toNat <<< 23))
  else if d.type &&& 0xf8 ∈ fcTypes then
    .ok (dw ||| ((d.vc &&& 0x7) <<< 24) ||| (d.data_fc &&& 0xfff) ||| ((d.data_scale &&& 0x3) <<< 12)
      ||| ((d.hdr_fc &&& 0xff) <<< 14) ||| ((d.hdr_scale &&& 0x3) <<< 22))
  else .error "TODO"

/-- dllp.py:144-167 `pack`. -/
def pack (d : Dllp) : Py (List UInt8) := do Tlp.packL (← d.packDw)

/-- dllp.py:169-175 `pack_crc`: the inverted CRC is appended little endian (`struct.pack('<H', ...)`).
`~c & 0xffff` is written `0xffff ^ (c & 0xffff)`. -/
def packCrc (d : Dllp) : Py (List UInt8) := do
  let pkt ← d.pack
  let c := 0xffff ^^^ (crc16 pkt &&& 0xffff)
  .ok (pkt ++ [UInt8.ofNat c, UInt8.ofNat (c >>> 8)])

/-- dllp.py:177-208 `unpack`. -/
def unpack (pkt : List UInt8) : Py Dllp := do
  let dw ← Tlp.unpackL pkt 0
  let d : Dllp := { type := (dw >>> 24) &&& 0xff }
  let d ← if d.type = ACK ∨ d.type = NAK then Except.ok { d with seq := dw &&& 0xfff }
    else if d.type ∈ plainTypes then .ok d
    else if d.type = DATA_LINK_FEATURE then
      .ok { d with feature_support := dw &&& 0x7fffff, feature_ack := dw &&& (1 <<< 23) ≠ 0 }
    else if d.type &&& 0xf8 ∈ fcTypes then
      .ok { d with
        type := d.type &&& 0xf8
        vc := (dw >>> 24) &&& 0x7
        data_fc := dw &&& 0xfff
        data_scale := (dw >>> 12) &&& 0x3
        hdr_fc := (dw >>> 14) &&& 0xff
        hdr_scale := (dw >>> 22) &&& 0x3 }
    else .error "TODO"
  if d.type ∈ types then .ok d else .error "ValueError"

/-- dllp.py:210-220 `unpack_crc`. -/
def unpackCrc (pkt : List UInt8) : Py Dllp :=
  if pkt.length ≠ 6 then .error "Invalid length"
  else if crc16 pkt ≠ 0x556f then .error "Invalid CRC"
  else unpack (pkt.take 4)

end Dllp
end Pcie
