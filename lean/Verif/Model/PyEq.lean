import Verif.Model.UsTlp
import Verif.Model.Dllp
import Verif.Model.Frames
/-
Comparing and copying packets: the `__eq__` methods and copy constructors of DLLPs, descriptors and frames. (Those of `Tlp` are in Model/Tlp.lean.)
-/
namespace Pcie

/-- dllp.py:96-117 `Dllp(dllp)`, field by field. -/
def Dllp.pyCopy (d : Dllp) : Dllp :=
  { type := d.type, seq := d.seq, vc := d.vc, hdr_scale := d.hdr_scale, hdr_fc := d.hdr_fc, data_scale := d.data_scale, data_fc := d.data_fc, feature_support := d.feature_support,
    feature_ack := d.feature_ack }

/-- dllp.py:222-235 `__eq__`. -/
def Dllp.pyEq (a b : Dllp) : Bool :=
  a.type = b.type ∧ a.seq = b.seq ∧ a.vc = b.vc ∧ a.hdr_scale = b.hdr_scale ∧ a.hdr_fc = b.hdr_fc ∧ a.data_scale = b.data_scale ∧ a.data_fc = b.data_fc ∧
  a.feature_support = b.feature_support ∧ a.feature_ack = b.feature_ack

/-- xilinx/us/interface.py:47-63 `UsPcieFrame(frame)`. -/
def UsFrame.pyCopy (f : UsFrame) : UsFrame :=
  { data := f.data, byteEn := f.byteEn, parity := f.parity, firstBe := f.firstBe, lastBe := f.lastBe, discontinue := f.discontinue, seqNum := f.seqNum }

/-- xilinx/us/interface.py:71-82 `__eq__`. -/
def UsFrame.pyEq (a b : UsFrame) : Bool :=
  a.data = b.data ∧ a.byteEn = b.byteEn ∧ a.parity = b.parity ∧ a.firstBe = b.firstBe ∧ a.lastBe = b.lastBe ∧ a.discontinue = b.discontinue ∧ a.seqNum = b.seqNum

/-- intel/s10/interface.py:111-117 `S10PcieFrame(frame)`. -/
def S10Frame.pyCopy (f : S10Frame) : S10Frame :=
  { data := f.data, parity := f.parity, funcNum := f.funcNum, vfNum := f.vfNum, barRange := f.barRange, err := f.err }

/-- intel/s10/interface.py:142-152 `__eq__`. -/
def S10Frame.pyEq (a b : S10Frame) : Bool :=
  a.data = b.data ∧ a.parity = b.parity ∧ a.funcNum = b.funcNum ∧ a.vfNum = b.vfNum ∧ a.barRange = b.barRange ∧ a.err = b.err

/-- intel/ptile/interface.py:115-126 `PTilePcieFrame(frame)`. -/
def PTileFrame.pyCopy (f : PTileFrame) : PTileFrame :=
  { prfx := f.prfx, hdr := f.hdr, data := f.data, prfxPar := f.prfxPar, hdrPar := f.hdrPar, parity := f.parity, funcNum := f.funcNum, vfNum := f.vfNum, barRange := f.barRange, abort := f.abort,
    err := f.err }

/-- intel/ptile/interface.py:152-167 `__eq__`. -/
def PTileFrame.pyEq (a b : PTileFrame) : Bool :=
  a.prfx = b.prfx ∧ a.hdr = b.hdr ∧ a.data = b.data ∧ a.prfxPar = b.prfxPar ∧ a.hdrPar = b.hdrPar ∧ a.parity = b.parity ∧ a.funcNum = b.funcNum ∧ a.vfNum = b.vfNum ∧ a.barRange = b.barRange ∧
  a.abort = b.abort ∧ a.err = b.err

/-- xilinx/us/tlp.py:517-542 `Tlp_us.__eq__`: fields of the TLP except `th` and `seq`, and none of the fields that only `Tlp_us` has. -/
def UsTlp.pyEq (u v : UsTlp) : Bool :=
  let a := u.tlp
  let b := v.tlp
  a.data = b.data ∧ a.fmt = b.fmt ∧ a.type = b.type ∧ a.tc = b.tc ∧ a.ln = b.ln ∧ a.td = b.td ∧
  a.ep = b.ep ∧ a.attr = b.attr ∧ a.at_ = b.at_ ∧ a.length = b.length ∧
  a.completer_id = b.completer_id ∧ a.status = b.status ∧ a.bcm = b.bcm ∧
  a.byte_count = b.byte_count ∧ a.requester_id = b.requester_id ∧ a.tag = b.tag ∧
  a.first_be = b.first_be ∧ a.last_be = b.last_be ∧ a.lower_address = b.lower_address ∧
  a.address = b.address ∧ a.ph = b.ph

end Pcie
