import Verif.Model.Frames
import Verif.Model.CfgAccess
import Verif.Model.Words
/-
Model of the conversion between TLPs and Intel frames: intel/s10/interface.py, intel/ptile/interface.py.
-/
namespace Pcie
open Tlp

/-- intel/s10/interface.py:103-104: `for k in range(0, len(hdr), 4): unpack_from('>L', hdr, k)`. -/
def beDwords : List UInt8 → Py (List Nat)
  | [] => .ok []
  | a :: b :: c :: d :: r =>
    match unpackL [a, b, c, d] 0 with
    | .error e => .error e
    | .ok w => match beDwords r with
      | .error e => .error e
      | .ok l => .ok (w :: l)
  | _ => .error "struct.error"

/-- intel/s10/interface.py:107-108, intel/ptile/interface.py:111-112: likewise with '<L'. -/
def leDwords : List UInt8 → Py (List Nat)
  | [] => .ok []
  | a :: b :: c :: d :: r =>
    match Cfg.unpackLE [a, b, c, d] with
    | .error e => .error e
    | .ok w => match leDwords r with
      | .error e => .error e
      | .ok l => .ok (w :: l)
  | _ => .error "struct.error"

/-- intel/s10/interface.py:127-128: `for dw in ...: hdr.extend(struct.pack('>L', dw))`; with '<L' 131-132. -/
def packDwords (pk : Nat → Py (List UInt8)) : List Nat → Py (List UInt8)
  | [] => .ok []
  | w :: r =>
    match pk w with
    | .error e => .error e
    | .ok b => match packDwords pk r with
      | .error e => .error e
      | .ok l => .ok (b ++ l)

/-- intel/s10/interface.py:101-110, 121-123: `S10PcieFrame(tlp)`, `from_tlp`. -/
def S10Frame.fromTlp (t : Tlp) : Py S10Frame := do
  let hdr ← t.packHeader
  let h ← beDwords hdr
  let d ← leDwords t.data
  return S10Frame.updateParity { data := h ++ d }

/-- intel/s10/interface.py:125-134: `to_tlp`. -/
def S10Frame.toTlp (f : S10Frame) : Py Tlp := do
  let hdr ← packDwords packL (f.data.take 5)
  let t ← unpackHeader hdr
  let d ← packDwords Cfg.packLE (f.data.drop t.headerSizeDw)
  return { t with data := t.data ++ d }

/-- `hdr.ljust(16, b'\0')`. -/
def ljust16 (b : List UInt8) : List UInt8 := b ++ List.replicate (16 - b.length) 0

/-- intel/ptile/interface.py:106-114, 129-131: `PTilePcieFrame(tlp)`, `from_tlp`. -/
def PTileFrame.fromTlp (t : Tlp) : Py PTileFrame := do
  let hdr ← t.packHeader
  let d ← leDwords t.data
  return PTileFrame.updateParity { hdr := fromBytes (ljust16 hdr) .big, data := d }

/-- intel/ptile/interface.py:133-140: `to_tlp`. -/
def PTileFrame.toTlp (f : PTileFrame) : Py Tlp := do
  let hdr ← toBytes f.hdr 16 .big
  let t ← unpackHeader hdr
  let d ← packDwords Cfg.packLE f.data
  return { t with data := t.data ++ d }

end Pcie
