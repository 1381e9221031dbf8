import Verif.Model.UsTlp
import Verif.Spec.Tlp
import Verif.Spec.Stream
/-
The descriptors of the UltraScale interfaces (Xilinx PG156/PG213), written with `* + / %` only, and which TLPs the interfaces can carry.
-/
namespace Pcie.Spec

/-- A 16-bit ID. -/
def idNum (p : PcieId) : Nat := p.bus * 256 + p.device * 8 + p.function

/-- The request type codes. -/
def reqCode : TlpType → Nat
  | .MEM_READ | .MEM_READ_64 => 0
  | .MEM_WRITE | .MEM_WRITE_64 => 1
  | .IO_READ => 2
  | .IO_WRITE => 3
  | .FETCH_ADD | .FETCH_ADD_64 => 4
  | .SWAP | .SWAP_64 => 5
  | .CAS | .CAS_64 => 6
  | .MEM_READ_LOCKED | .MEM_READ_LOCKED_64 => 7
  | .CFG_READ_0 => 8
  | .CFG_READ_1 => 9
  | .CFG_WRITE_0 => 10
  | .CFG_WRITE_1 => 11
  | _ => 15

/-- A little-endian dword. -/
def leDword : List UInt8 → Nat
  | [] => 0
  | b :: r => b.toNat + 256 * leDword r

/-- Bytes as little-endian dwords. -/
def dwords : List UInt8 → List Nat
  | a :: b :: c :: d :: r => leDword [a, b, c, d] :: dwords r
  | _ => []

/-- The values that every descriptor has room for. -/
structure UsFits (ty : TlpType) (t : Tlp) : Prop where
  type : (t.fmt, t.type) = ty.value
  length : t.length < 2048
  tag : t.tag < 256
  tc : t.tc < 8
  attr : t.attr < 8
  at_ : t.at_ ≤ 2
  requester : t.requester_id.Valid
  completer : t.completer_id.Valid
  data : t.data.length % 4 = 0

/-- A request: the address is one of a dword; only requests with an address have an address type; memory and atomic requests have the 64-bit form exactly for addresses above 4 GiB, as the PCI Express specification demands. -/
structure UsReq (ty : TlpType) (t : Tlp) : Prop extends UsFits ty t where
  address : t.address % 4 = 0
  form : match kind ty with
    | some .req3 => t.address < 2 ^ 32
    | some .req4 => 2 ^ 32 ≤ t.address ∧ t.address < 2 ^ 64
    | some .cfg => t.address < 4096 ∧ t.at_ = 0
    | _ => False

/-- A completion: it has data if and only if its length is not 0. -/
structure UsCpl (ty : TlpType) (t : Tlp) : Prop extends UsFits ty t where
  cpl : kind ty = some .cpl
  status : t.status = 0 ∨ t.status = 1 ∨ t.status = 2 ∨ t.status = 4
  byteCount : t.byte_count < 8192
  payload : t.data.length = 4 * t.length
  form : ty = .CPL_DATA ∨ ty = .CPL_LOCKED_DATA ↔ 0 < t.length

/-- Completer request descriptor. -/
def cqWords (ty : TlpType) (u : UsTlp) : List Nat :=
  [ u.tlp.at_ + u.tlp.address % 2 ^ 32, u.tlp.address / 2 ^ 32, u.tlp.length + 2 ^ 11 * reqCode ty + 2 ^ 16 * idNum u.tlp.requester_id,
    u.tlp.tag + 2 ^ 8 * u.tlp.completer_id.function + 2 ^ 16 * u.barId + 2 ^ 19 * u.barAperture + 2 ^ 25 * u.tlp.tc + 2 ^ 28 * u.tlp.attr ]

/-- Requester request descriptor. -/
def rqWords (ty : TlpType) (u : UsTlp) : List Nat :=
  (if kind ty = some .cfg then [u.tlp.address, 0] else [u.tlp.at_ + u.tlp.address % 2 ^ 32, u.tlp.address / 2 ^ 32]) ++
  [ u.tlp.length + 2 ^ 11 * reqCode ty + 2 ^ 15 * u.tlp.ep.toNat + 2 ^ 16 * idNum u.tlp.requester_id,
    u.tlp.tag + 2 ^ 8 * idNum u.tlp.completer_id + 2 ^ 24 * u.requesterIdEnable.toNat + 2 ^ 25 * u.tlp.tc + 2 ^ 28 * u.tlp.attr ]

/-- A completion of a locked request. -/
def isLocked (ty : TlpType) : Bool := ty = .CPL_LOCKED ∨ ty = .CPL_LOCKED_DATA

/-- Completer completion descriptor. -/
def ccWords (ty : TlpType) (u : UsTlp) : List Nat :=
  [ u.tlp.lower_address + 2 ^ 8 * u.tlp.at_ + 2 ^ 16 * u.tlp.byte_count + 2 ^ 29 * (isLocked ty).toNat,
    u.tlp.length + 2 ^ 11 * u.tlp.status + 2 ^ 14 * u.tlp.ep.toNat + 2 ^ 16 * idNum u.tlp.requester_id,
    u.tlp.tag + 2 ^ 8 * idNum u.tlp.completer_id + 2 ^ 24 * u.completerIdEnable.toNat + 2 ^ 25 * u.tlp.tc + 2 ^ 28 * u.tlp.attr ]

/-- Requester completion descriptor. -/
def rcWords (ty : TlpType) (u : UsTlp) : List Nat :=
  [ u.tlp.lower_address + 2 ^ 12 * u.errorCode + 2 ^ 16 * u.tlp.byte_count + 2 ^ 29 * (isLocked ty).toNat + 2 ^ 30 * u.requestCompleted.toNat,
    u.tlp.length + 2 ^ 11 * u.tlp.status + 2 ^ 14 * u.tlp.ep.toNat + 2 ^ 16 * idNum u.tlp.requester_id,
    u.tlp.tag + 2 ^ 8 * idNum u.tlp.completer_id + 2 ^ 25 * u.tlp.tc + 2 ^ 28 * u.tlp.attr ]

/-- Byte enables for each dword of a payload: the first, the last and all ones in between. -/
def payloadEns (t : Tlp) : List Nat :=
  match t.data.length / 4 with
  | 0 => []
  | 1 => [t.first_be]
  | n + 2 => t.first_be :: (List.replicate n 15 ++ [t.last_be])

/-- What the completer request interface carries. -/
def cqSeen (u : UsTlp) : UsTlp :=
  { tlp := { fmt := u.tlp.fmt, type := u.tlp.type, tc := u.tlp.tc, attr := u.tlp.attr, at_ := u.tlp.at_, length := u.tlp.length, tag := u.tlp.tag
             requester_id := u.tlp.requester_id, completer_id := ⟨0, 0, u.tlp.completer_id.function⟩, first_be := u.tlp.first_be, last_be := u.tlp.last_be
             address := u.tlp.address, data := u.tlp.data }
    barId := u.barId, barAperture := u.barAperture, discontinue := u.discontinue }

/-- What the requester request interface carries. -/
def rqSeen (u : UsTlp) : UsTlp :=
  { tlp := { fmt := u.tlp.fmt, type := u.tlp.type, tc := u.tlp.tc, attr := u.tlp.attr, at_ := u.tlp.at_, length := u.tlp.length
             tag := u.tlp.tag, ep := u.tlp.ep, requester_id := u.tlp.requester_id, completer_id := u.tlp.completer_id, first_be := u.tlp.first_be
             last_be := u.tlp.last_be, address := u.tlp.address, data := u.tlp.data }
    requesterIdEnable := u.requesterIdEnable, discontinue := u.discontinue, seqNum := u.seqNum }

/-- What the completer completion interface carries. -/
def ccSeen (u : UsTlp) : UsTlp :=
  { tlp := { fmt := u.tlp.fmt, type := u.tlp.type, tc := u.tlp.tc, attr := u.tlp.attr, at_ := u.tlp.at_, length := u.tlp.length, tag := u.tlp.tag, ep := u.tlp.ep
             status := u.tlp.status, byte_count := u.tlp.byte_count, lower_address := u.tlp.lower_address, requester_id := u.tlp.requester_id
             completer_id := u.tlp.completer_id, data := u.tlp.data }
    completerIdEnable := u.completerIdEnable, discontinue := u.discontinue }

/-- What the requester completion interface carries. -/
def rcSeen (u : UsTlp) : UsTlp :=
  { tlp := { fmt := u.tlp.fmt, type := u.tlp.type, tc := u.tlp.tc, attr := u.tlp.attr, length := u.tlp.length, tag := u.tlp.tag, ep := u.tlp.ep
             status := u.tlp.status, byte_count := u.tlp.byte_count, lower_address := u.tlp.lower_address, requester_id := u.tlp.requester_id
             completer_id := u.tlp.completer_id, data := u.tlp.data }
    errorCode := u.errorCode, requestCompleted := u.requestCompleted, discontinue := u.discontinue }

/-- Packing, on one of the four interfaces. -/
def usPack : Us.Kind → UsTlp → Py UsFrame
  | .cq => UsTlp.packCq
  | .rq => UsTlp.packRq
  | .cc => UsTlp.packCc
  | .rc => UsTlp.packRc

/-- Unpacking, on one of the four interfaces. -/
def usUnpack : Us.Kind → UsFrame → Bool → Py UsTlp
  | .cq => UsTlp.unpackCq
  | .rq => UsTlp.unpackRq
  | .cc => UsTlp.unpackCc
  | .rc => UsTlp.unpackRc

/-- The TLPs of a type that the interface supports, with sideband values in range. -/
def UsCarries (k : Us.Kind) (ty : TlpType) (u : UsTlp) : Prop :=
  match k with
  | .cq => UsReq ty u.tlp ∧ kind ty ≠ some .cfg ∧ u.barId < 8 ∧ u.barAperture < 64
  | .rq => UsReq ty u.tlp
  | .cc => UsCpl ty u.tlp ∧ u.tlp.lower_address < 128
  | .rc => UsCpl ty u.tlp ∧ u.tlp.lower_address < 4096 ∧ u.errorCode < 16

/-- What the interface carries. -/
def usCarried : Us.Kind → UsTlp → UsTlp
  | .cq => cqSeen
  | .rq => rqSeen
  | .cc => ccSeen
  | .rc => rcSeen

/-- The words of the descriptor. -/
def usWords : Us.Kind → TlpType → UsTlp → List Nat
  | .cq => cqWords
  | .rq => rqWords
  | .cc => ccWords
  | .rc => rcWords

/-- Sideband values that fit the bus. -/
def UsSideband (b : Us.Bus) (u : UsTlp) : Prop :=
  (b.kind = .rq ∨ b.kind = .cq → u.tlp.first_be < 16 ∧ u.tlp.last_be < 16) ∧ (b.kind = .rq → u.seqNum < if b.tuser = 60 then 16 else 64)

end Pcie.Spec
