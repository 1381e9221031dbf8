/-
Specification of the TLP wire format (PCI Express base specification, section 2.2), written with `* + / %` only
and independently of the shift/mask code of the model.
-/
import Verif.Model.Tlp
namespace Pcie.Spec
open Pcie

/-- A PCIe ID as it appears on the wire: bus byte, then device (5 bits) and function (3 bits). -/
def idBytes (p : PcieId) : List UInt8 := [UInt8.ofNat p.bus, UInt8.ofNat (p.device * 8 + p.function)]

/-- Bit `i` of `n`. -/
def bit (n i : Nat) : Nat := n / 2 ^ i % 2

/-- Bytes 0-3 of every TLP header. -/
def header0 (t : Tlp) : List UInt8 :=
  [ UInt8.ofNat (t.fmt * 32 + t.type),
    UInt8.ofNat (bit t.tag 9 * 128 + t.tc * 16 + bit t.tag 8 * 8 + bit t.attr 2 * 4 + t.ln.toNat * 2 + t.th.toNat),
    UInt8.ofNat (t.td.toNat * 128 + t.ep.toNat * 64 + t.attr % 4 * 16 + t.at_ * 4 + t.length / 256 % 4),
    UInt8.ofNat (t.length % 256) ]

/-- Bytes 4-7 of a request header. -/
def requestDw1 (t : Tlp) : List UInt8 :=
  idBytes t.requester_id ++ [UInt8.ofNat (t.tag % 256), UInt8.ofNat (t.last_be * 16 + t.first_be)]

/-- The header of a configuration request (12 bytes). -/
def cfgHeader (t : Tlp) : List UInt8 :=
  header0 t ++ requestDw1 t ++ idBytes t.completer_id
    ++ [UInt8.ofNat (t.address / 256), UInt8.ofNat (t.address % 256)]

/-- The header of a memory, I/O or atomic request with a 32-bit address (12 bytes). -/
def header3dw (t : Tlp) : List UInt8 :=
  header0 t ++ requestDw1 t ++ [UInt8.ofNat (t.address / 2 ^ 24), UInt8.ofNat (t.address / 2 ^ 16),
    UInt8.ofNat (t.address / 2 ^ 8), UInt8.ofNat (t.address % 256 + t.ph)]

/-- The header of a memory or atomic request with a 64-bit address (16 bytes). -/
def header4dw (t : Tlp) : List UInt8 :=
  header0 t ++ requestDw1 t ++ [UInt8.ofNat (t.address / 2 ^ 56), UInt8.ofNat (t.address / 2 ^ 48),
    UInt8.ofNat (t.address / 2 ^ 40), UInt8.ofNat (t.address / 2 ^ 32), UInt8.ofNat (t.address / 2 ^ 24),
    UInt8.ofNat (t.address / 2 ^ 16), UInt8.ofNat (t.address / 2 ^ 8), UInt8.ofNat (t.address % 256 + t.ph)]

/-- The header of a completion (12 bytes). -/
def cplHeader (t : Tlp) : List UInt8 :=
  header0 t ++ idBytes t.completer_id
    ++ [UInt8.ofNat (t.status * 32 + t.bcm.toNat * 16 + t.byte_count / 256 % 16), UInt8.ofNat (t.byte_count % 256)]
    ++ idBytes t.requester_id ++ [UInt8.ofNat (t.tag % 256), UInt8.ofNat t.lower_address]

/-- Kinds of TLP that have a wire encoding here. -/
inductive Kind where
  | cfg | req3 | req4 | cpl
deriving DecidableEq

/-- Which of the TLP types is encoded how.  Messages and prefixes have no encoding (`none`). -/
def kind : TlpType → Option Kind
  | .CFG_READ_0 | .CFG_WRITE_0 | .CFG_READ_1 | .CFG_WRITE_1 => some .cfg
  | .MEM_READ | .MEM_READ_LOCKED | .MEM_WRITE | .IO_READ | .IO_WRITE | .FETCH_ADD | .SWAP | .CAS => some .req3
  | .MEM_READ_64 | .MEM_READ_LOCKED_64 | .MEM_WRITE_64 | .FETCH_ADD_64 | .SWAP_64 | .CAS_64 => some .req4
  | .CPL | .CPL_DATA | .CPL_LOCKED | .CPL_LOCKED_DATA => some .cpl
  | _ => none

/-- The wire header of a TLP of type `ty`. -/
def header (ty : TlpType) (t : Tlp) : Option (List UInt8) :=
  match kind ty with
  | some .cfg => some (cfgHeader t)
  | some .req3 => some (header3dw t)
  | some .req4 => some (header4dw t)
  | some .cpl => some (cplHeader t)
  | none => none

/-- A TLP whose fields fit the wire format of its type: every field is within its width and fields
that the type does not carry (and the link-local sequence number) have their default value. -/
structure Encodable (ty : TlpType) (t : Tlp) : Prop where
  fmt_type : (t.fmt, t.type) = ty.value
  tc : t.tc < 8
  attr : t.attr < 8
  at_ : t.at_ ≤ 2
  tag : t.tag < 1024
  req_id : t.requester_id.Valid
  cpl_id : t.completer_id.Valid
  seq : t.seq = 0
  length : if ty = .CPL ∨ ty = .CPL_LOCKED then t.length < 1024 else 1 ≤ t.length ∧ t.length ≤ 1024
  data : (t.fmt = 0 ∨ t.fmt = 1) → t.data = []
  body : match kind ty with
    | some .cpl =>
        (t.status = 0 ∨ t.status = 1 ∨ t.status = 2 ∨ t.status = 4) ∧ 1 ≤ t.byte_count ∧ t.byte_count ≤ 4096 ∧
        t.lower_address < 128 ∧ t.first_be = 0 ∧ t.last_be = 0 ∧ t.address = 0 ∧ t.ph = 0
    | some k =>
        t.first_be < 16 ∧ t.last_be < 16 ∧ t.status = 0 ∧ t.bcm = false ∧ t.byte_count = 0 ∧
        t.lower_address = 0 ∧ t.address % 4 = 0 ∧
        (if k = .cfg then t.address < 4096 ∧ t.ph = 0
         else t.ph < 4 ∧ t.completer_id = ⟨0, 0, 0⟩ ∧ t.address < (if k = .req3 then 2 ^ 32 else 2 ^ 64))
    | none => False

end Pcie.Spec
