import Verif.Spec.IntelHost
import Verif.Spec.UsCc
import Verif.Props.UsCq
import Verif.Props.IntelDev
import Verif.Props.Memory
import Verif.Props.Io
/- Host reads whose first request is answered unsuccessfully. -/
namespace Pcie
open Spec

theorem consume_bad (L : Nat) (h : 0 < L) (cpl : Tlp) (rest : List Tlp) (data : List UInt8) (hs : cpl.status ≠ CplStatus.SC) :
    Region.consume L 0 (cpl :: rest) data = .error "Unsuccessful completion" := by
  unfold Region.consume
  rw [if_pos h]
  exact if_pos hs

theorem region_read_bad (c : ReqCfg) (op : Tlp → List Tlp) (addr length attr tc : Nat) (h0 : 0 < length) (hbm : c.busMasterEnable = true)
    (hop : ∀ L, 0 < L → ∃ x, op (Region.readTlp c attr tc false addr L) = [x] ∧ x.status ≠ CplStatus.SC) :
    Region.read c op addr length attr tc = .error "Unsuccessful completion" := by
  have hne : length ≠ 0 := by omega
  have hr : Region.readReqs c addr length attr tc = .ok (Region.readLoop c attr tc false length 0 addr) := by
    simp [Region.readReqs, hne, hbm]
  unfold Region.read
  rw [hr, Region.readLoop, dif_pos h0]
  simp only [bind, Except.bind, Region.consumeAll]
  have hp := Region.readLen_pos c addr (length - 0) (by omega)
  obtain ⟨x, e, hs⟩ := hop _ hp
  rw [e, consume_bad _ hp _ _ _ hs]

theorem io_read_bad (c : ReqCfg) (op : Tlp → List Tlp) (addr length : Nat) (h0 : 0 < length) (hbm : c.busMasterEnable = true)
    (hop : ∀ L, 0 < L → addr % 4 + L ≤ 4 → ∃ x, op (IoRegion.readTlp c false addr L) = [x] ∧ x.status ≠ CplStatus.SC) :
    IoRegion.read c op addr length = .error "Unsuccessful completion" := by
  have hne : length ≠ 0 := by omega
  have hr : IoRegion.readReqs c addr length = .ok (IoRegion.readLoop c false length 0 addr) := by
    simp [IoRegion.readReqs, hne, hbm]
  unfold IoRegion.read
  rw [hr, IoRegion.readLoop, dif_pos h0]
  have hp := IoRegion.len_pos addr (length - 0) (by omega)
  obtain ⟨x, e, hs⟩ := hop _ hp (by unfold IoRegion.len; omega)
  simp only [bind, Except.bind, IoRegion.consumeAll, e, if_pos hs]

theorem collect_bad (m : Bool) (x : Tlp) (h : x.status ≠ CplStatus.SC) : (Region.collect m [x]).1 = [x] := by
  unfold Region.collect
  rw [if_pos h]

theorem isUr_bad {x t : Tlp} {id : PcieId} (h : IsUr x t id) : x.status ≠ CplStatus.SC := by
  rw [h.status]; decide

/-- The Xilinx hard IP models. -/
theorem us_nobody (d : UsDev) (chk : Bool) (user : UsTlp → List UsTlp) (tag : Tlp → Nat) (t : Tlp) (ty : TlpType) (io : Bool) (wss : List (List Window)) (ht : t.fmtType = some ty)
    (hty : AddressedBy io ty) (hnp : NonPosted ty = true) (hw : Unclaimed d.fns io wss t.address) :
    ∃ x, d.answer chk user tag t = [x] ∧ x.status ≠ CplStatus.SC := by
  have h := C58_unclaimed d { t with tag := tag t } ty io wss ht hty hw.windows hw.low hw.wide hw.nobody
  rw [if_pos hnp] at h
  obtain ⟨x, h1, h2⟩ := h
  refine ⟨x, ?_, isUr_bad h2⟩
  unfold UsDev.answer UsDev.answerAll
  rw [h1]
  exact collect_bad _ x (isUr_bad h2)

/-- The Intel hard IP models. -/
theorem intel_nobody {F : Type} (mk : Tlp → Nat → Nat → Py F) (conv : F → Py Tlp) (p : RxLimits) (s : IntelDev F) (user : F → List F) (tag : Tlp → Nat) (t : Tlp) (ty : TlpType) (io : Bool)
    (wss : List (List Window)) (ht : t.fmtType = some ty) (hty : AddressedBy io ty) (hnp : NonPosted ty = true) (hw : Unclaimed s.dev.fns io wss t.address) :
    ∃ x, s.answer mk conv p user tag t = [x] ∧ x.status ≠ CplStatus.SC := by
  have h := C64_unclaimed mk p s { t with tag := tag t } ty io wss ht hty hw.windows hw.low hw.wide hw.nobody
  rw [if_pos hnp] at h
  obtain ⟨x, h1, h2⟩ := h
  refine ⟨x, ?_, isUr_bad h2⟩
  unfold IntelDev.answer IntelDev.answerAll
  rw [h1]
  exact collect_bad _ x (isUr_bad h2)

theorem memRead_addressed (addr : Nat) : AddressedBy false (if addr > 0xffffffff then TlpType.MEM_READ_64 else .MEM_READ) ∧
    NonPosted (if addr > 0xffffffff then TlpType.MEM_READ_64 else .MEM_READ) = true := by
  split
  · exact ⟨.inr (.inl rfl), rfl⟩
  · exact ⟨.inl rfl, rfl⟩


end Pcie
