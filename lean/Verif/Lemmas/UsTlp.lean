import Verif.Spec.UsTlp
import Verif.Lemmas.FrameTlp
import Verif.Lemmas.Parity
namespace Pcie
open Tlp Spec

theorem idNum_eq {p : PcieId} (h : p.Valid) : p.toInt = idNum p := by
  simp only [PcieId.Valid] at h
  rw [toInt_eq, idNum]; omega

theorem idNum_lt {p : PcieId} (h : p.Valid) : idNum p < 65536 := by
  simp only [PcieId.Valid] at h
  rw [idNum]; omega

theorem leDwords_eq : ∀ (bs : List UInt8), bs.length % 4 = 0 → leDwords bs = .ok (dwords bs)
  | [], _ => rfl
  | [_], h => by simp at h
  | [_, _], h => by simp at h
  | [_, _, _], h => by simp at h
  | a :: b :: c :: d :: r, h => by
    obtain ⟨w, w1, w2, w3, w4⟩ := unpackLE_four a b c d
    simp only [leDwords, w1, leDwords_eq r (by simp only [List.length_cons] at h; omega), dwords]
    rw [w4]
    simp only [leDword]
    congr 2
    omega

theorem dwords_pack (bs : List UInt8) (h : bs.length % 4 = 0) : packDwords Cfg.packLE (dwords bs) = .ok bs := by
  obtain ⟨l, h1, h2, _⟩ := leDwords_ok bs h
  rw [leDwords_eq bs h] at h1
  cases h1
  exact h2

theorem dwords_length (bs : List UInt8) (h : bs.length % 4 = 0) : 4 * (dwords bs).length = bs.length := by
  obtain ⟨l, h1, _, h3, _⟩ := leDwords_ok bs h
  rw [leDwords_eq bs h] at h1
  cases h1
  exact h3

theorem dwords_lt (bs : List UInt8) (h : bs.length % 4 = 0) : ∀ w ∈ dwords bs, w < 2 ^ 32 := by
  obtain ⟨l, h1, _, _, h4⟩ := leDwords_ok bs h
  rw [leDwords_eq bs h] at h1
  cases h1
  exact h4

namespace UsTlp

theorem addrDw_eq {t : Tlp} (h : t.at_ ≤ 2) (ha : t.address % 4 = 0) : addrDw t = t.at_ + t.address % 2 ^ 32 := by
  rw [addrDw, and_m2, and_fffffffc, or_mul_add _ _ 2 (by omega)]
  omega

theorem addrHi_eq {t : Tlp} (h : t.address < 2 ^ 64) : addrHi t = t.address / 2 ^ 32 := by
  have : t.address &&& 0xffffffff00000000 = (t.address / 2 ^ 32 % 2 ^ 32) * 2 ^ 32 := and_himask t.address 32 32
  rw [addrHi, this, Nat.shiftRight_eq_div_pow]
  omega

theorem cqDw2_eq {ty : TlpType} {t : Tlp} (h : UsFits ty t) {rt : Nat} (hr : rt < 16) : cqDw2 t rt = t.length + 2 ^ 11 * rt + 2 ^ 16 * idNum t.requester_id := by
  have := h.length
  rw [cqDw2, and_m11, idNum_eq h.requester, or_shl_add _ _ 11 (by omega), or_shl_add _ _ 16 (by omega)]
  omega

theorem rqDw2_eq {ty : TlpType} {t : Tlp} (h : UsFits ty t) {rt : Nat} (hr : rt < 16) :
    rqDw2 t rt = t.length + 2 ^ 11 * rt + 2 ^ 15 * t.ep.toNat + 2 ^ 16 * idNum t.requester_id := by
  have := h.length
  have := toNat_le_one t.ep
  rw [rqDw2, and_m11, and_m4, idNum_eq h.requester, or_shl_add _ _ 11 (by omega), or_shl_add _ _ 15 (by omega), or_shl_add _ _ 16 (by omega)]
  omega

theorem cqDw3_eq {ty : TlpType} {u : UsTlp} (h : UsFits ty u.tlp) (hb : u.barId < 8) (ha : u.barAperture < 64) :
    cqDw3 u = u.tlp.tag + 2 ^ 8 * u.tlp.completer_id.function + 2 ^ 16 * u.barId + 2 ^ 19 * u.barAperture + 2 ^ 25 * u.tlp.tc + 2 ^ 28 * u.tlp.attr := by
  have h1 := h.tag; have h2 := h.tc; have h3 := h.attr; have h4 := h.completer
  simp only [PcieId.Valid] at h4
  rw [cqDw3, and_m8, and_m8, and_m3, and_m6, and_m3, and_m3, or_shl_add _ _ 8 (by omega), or_shl_add _ _ 16 (by omega), or_shl_add _ _ 19 (by omega),
    or_shl_add _ _ 25 (by omega), or_shl_add _ _ 28 (by omega)]
  omega

theorem rqDw3_eq {ty : TlpType} {u : UsTlp} (h : UsFits ty u.tlp) :
    rqDw3 u = u.tlp.tag + 2 ^ 8 * idNum u.tlp.completer_id + 2 ^ 24 * u.requesterIdEnable.toNat + 2 ^ 25 * u.tlp.tc + 2 ^ 28 * u.tlp.attr := by
  have h1 := h.tag; have h2 := h.tc; have h3 := h.attr; have h4 := idNum_lt h.completer; have := toNat_le_one u.requesterIdEnable
  rw [rqDw3, and_m8, and_m3, and_m3, idNum_eq h.completer, or_shl_add _ _ 8 (by omega), or_shl_add _ _ 24 (by omega), or_shl_add _ _ 25 (by omega),
    or_shl_add _ _ 28 (by omega)]
  omega

theorem ccDw2_eq {ty : TlpType} {u : UsTlp} (h : UsFits ty u.tlp) :
    ccDw2 u = u.tlp.tag + 2 ^ 8 * idNum u.tlp.completer_id + 2 ^ 24 * u.completerIdEnable.toNat + 2 ^ 25 * u.tlp.tc + 2 ^ 28 * u.tlp.attr := by
  have h1 := h.tag; have h2 := h.tc; have h3 := h.attr; have h4 := idNum_lt h.completer; have := toNat_le_one u.completerIdEnable
  rw [ccDw2, and_m8, and_m3, and_m3, idNum_eq h.completer, or_shl_add _ _ 8 (by omega), or_shl_add _ _ 24 (by omega), or_shl_add _ _ 25 (by omega),
    or_shl_add _ _ 28 (by omega)]
  omega

theorem rcDw2_eq {ty : TlpType} {t : Tlp} (h : UsFits ty t) :
    rcDw2 t = t.tag + 2 ^ 8 * idNum t.completer_id + 2 ^ 25 * t.tc + 2 ^ 28 * t.attr := by
  have h1 := h.tag; have h2 := h.tc; have h3 := h.attr; have h4 := idNum_lt h.completer
  rw [rcDw2, and_m8, and_m3, and_m3, idNum_eq h.completer, or_shl_add _ _ 8 (by omega), or_shl_add _ _ 25 (by omega),
    or_shl_add _ _ 28 (by omega)]
  omega

theorem cplDw1_eq {ty : TlpType} {t : Tlp} (h : UsFits ty t) (hs : t.status < 8) :
    cplDw1 t = t.length + 2 ^ 11 * t.status + 2 ^ 14 * t.ep.toNat + 2 ^ 16 * idNum t.requester_id := by
  have h1 := h.length; have := toNat_le_one t.ep
  rw [cplDw1, and_m11, and_m3, idNum_eq h.requester, or_shl_add _ _ 11 (by omega), or_shl_add _ _ 14 (by omega), or_shl_add _ _ 16 (by omega)]
  omega

theorem ccDw0_eq {t : Tlp} (h1 : t.lower_address < 128) (h2 : t.at_ ≤ 2) (h3 : t.byte_count < 8192) (l : Bool) :
    ccDw0 t l = t.lower_address + 2 ^ 8 * t.at_ + 2 ^ 16 * t.byte_count + 2 ^ 29 * l.toNat := by
  unfold ccDw0
  rw [and_m7, and_m2, and_m13, or_shl_add _ _ 8 (by omega), or_shl_add _ _ 16 (by omega)]
  cases l
  · simp only [Bool.false_eq_true, if_false, Bool.toNat_false]; omega
  · simp only [if_true, Bool.toNat_true]
    rw [or_shl_add _ _ 29 (by omega)]; omega

theorem rcDw0_eq {u : UsTlp} (h1 : u.tlp.lower_address < 4096) (h2 : u.errorCode < 16) (h3 : u.tlp.byte_count < 8192) (l : Bool) :
    rcDw0 u l = u.tlp.lower_address + 2 ^ 12 * u.errorCode + 2 ^ 16 * u.tlp.byte_count + 2 ^ 29 * l.toNat + 2 ^ 30 * u.requestCompleted.toNat := by
  have := toNat_le_one u.requestCompleted
  unfold rcDw0
  rw [and_m12, and_m4, and_m13, or_shl_add _ _ 12 (by omega), or_shl_add _ _ 16 (by omega)]
  cases l
  · simp only [Bool.false_eq_true, if_false, Bool.toNat_false]; rw [or_shl_add _ _ 30 (by omega)]; omega
  · simp only [if_true, Bool.toNat_true]
    rw [or_shl_add _ _ 29 (by omega), or_shl_add _ _ 30 (by omega)]; omega

theorem byteEns_eq (t : Tlp) : byteEns t.payloadSizeDw t.first_be t.last_be = payloadEns t := by
  unfold byteEns payloadEns payloadSizeDw
  generalize t.data.length / 4 = n
  match n with
  | 0 => rfl
  | 1 => rfl
  | n + 2 =>
    have h1 : n + 2 ≥ 1 := by omega
    have h2 : n + 2 > 1 := by omega
    rw [if_pos h1, if_pos h2]
    by_cases h : n + 2 > 2
    · rw [if_pos h]; simp
    · have : n = 0 := by omega
      subst this; rfl

theorem fromInt_idNum {p : PcieId} (h : p.Valid) {x : Nat} (hx : x % 65536 = idNum p) : PcieId.fromInt x = p := by
  obtain ⟨b, d, f⟩ := p
  simp only [PcieId.Valid, idNum] at h hx
  simp only [PcieId.fromInt, and_m3, and_m5, and_m8, Nat.shiftRight_eq_div_pow, PcieId.mk.injEq]
  omega

theorem bit_dec (x k : Nat) (b : Bool) (h : x / 2 ^ k % 2 = b.toNat) : decide (x &&& 1 <<< k ≠ 0) = b := by
  have := and_bit_ne x k
  cases b with
  | true => rw [decide_eq_true_eq, this, h]; rfl
  | false => rw [decide_eq_false_iff_not, this, h]; decide

theorem parity_ok (f : UsFrame) : f.updateParity.checkParity = true := by simp [UsFrame.checkParity, UsFrame.updateParity]

theorem assert_true {b : Bool} (h : b = true) : assert b = .ok () := by rw [assert, if_pos h]

/-- The requests that have the type of the code. -/
theorem ofReqType_fmt {ty : TlpType} {t : Tlp} (h : UsReq ty t) :
    reqCode ty < 12 ∧ ty.reqType = some (reqCode ty) ∧ (ty.isReq = true) ∧ (ty.isCfg = true ↔ kind ty = some .cfg) ∧ (reqCode ty < 8 ↔ kind ty ≠ some .cfg) ∧
    ∃ ty', TlpType.ofReqType (reqCode ty) = some ty' ∧ ty'.value.2 = t.type ∧
      (if reqCode ty < 8 then highFmt ty'.value.1 t.address else ty'.value.1) = t.fmt := by
  have hf := h.form
  have hty := h.type
  have e1 : t.fmt = ty.value.1 := by rw [← hty]
  have e2 : t.type = ty.value.2 := by rw [← hty]
  rw [e1, e2]
  have lo : t.address < 2 ^ 32 → ∀ x, highFmt x t.address = x := fun hlt x => by
    rw [highFmt, if_neg (by omega)]
  have hi : 2 ^ 32 ≤ t.address → ∀ x, highFmt x t.address = if x = 0 then 1 else if x = 2 then 3 else x := fun hlt x => by
    rw [highFmt, if_pos (by omega)]; rfl
  cases ty <;> simp only [kind] at hf <;> (try exact False.elim hf) <;>
    refine ⟨by decide, rfl, rfl, by decide, by decide, _, rfl, rfl, ?_⟩ <;>
    first
      | (simp only [reqCode]; rw [lo hf]; rfl)
      | (simp only [reqCode]; rw [hi hf.1]; rfl)
      | rfl

theorem packCq_eq {ty : TlpType} {u : UsTlp} (h : UsReq ty u.tlp) (hc : kind ty ≠ some .cfg) (hb : u.barId < 8) (ha : u.barAperture < 64) :
    packCq u = .ok (UsFrame.updateParity
      { data := cqWords ty u ++ dwords u.tlp.data, firstBe := u.tlp.first_be, lastBe := u.tlp.last_be, discontinue := u.discontinue
        byteEn := [0, 0, 0, 0] ++ payloadEns u.tlp }) := by
  obtain ⟨h1, h2, h3, h4, _, _⟩ := ofReqType_fmt h
  have hadr : u.tlp.address < 2 ^ 64 := by
    have := h.form
    split at this <;> first | omega | exact this.elim
  rw [packCq, fmtType_of_value h.type]
  simp only
  rw [if_pos ⟨h3, fun hh => hc (h4.mp hh)⟩, h2]
  simp only
  rw [leDwords_eq _ h.data]
  simp only
  rw [addrDw_eq h.at_ h.address, addrHi_eq hadr, cqDw2_eq h.toUsFits (by omega), cqDw3_eq h.toUsFits hb ha, byteEns_eq]
  rfl

theorem addr_join {t : Tlp} (h : t.at_ ≤ 2) (ha : t.address % 4 = 0) :
    (t.address / 2 ^ 32) <<< 32 ||| ((t.at_ + t.address % 2 ^ 32) &&& 0xfffffffc) = t.address := by
  have e : (t.at_ + t.address % 2 ^ 32) &&& 0xfffffffc = t.address % 2 ^ 32 := by rw [and_fffffffc]; omega
  rw [e, shl_or_add _ _ 32 (Nat.mod_lt _ (by decide))]; omega

theorem unpackCq_eq {ty : TlpType} {u : UsTlp} (h : UsReq ty u.tlp) (hc : kind ty ≠ some .cfg) (hb : u.barId < 8) (ha : u.barAperture < 64) (f : UsFrame)
    (hd : f.data = cqWords ty u ++ dwords u.tlp.data) (h1 : f.firstBe = u.tlp.first_be) (h2 : f.lastBe = u.tlp.last_be) (h3 : f.discontinue = u.discontinue)
    (h4 : f.byteEn = [0, 0, 0, 0] ++ payloadEns u.tlp) (check : Bool) (h5 : check = true → f.checkParity = true) :
    unpackCq f check = .ok (cqSeen u) := by
  obtain ⟨c1, c2, c3, c4, c5, ty', c6, c7, c8⟩ := ofReqType_fmt h
  have c9 := c5.mpr hc
  rw [if_pos c9] at c8
  have hidl := idNum_lt h.requester
  have a1 := h.length; have a2 := h.tag; have a3 := h.tc; have a4 := h.attr; have a5 := h.at_; have a6 := h.completer
  simp only [PcieId.Valid] at a6
  unfold unpackCq
  rw [hd]
  simp only [cqWords, List.cons_append, List.nil_append]
  have e1 : ((u.tlp.length + 2 ^ 11 * reqCode ty + 2 ^ 16 * idNum u.tlp.requester_id) >>> 11) &&& 0xf = reqCode ty := by
    rw [and_m4, Nat.shiftRight_eq_div_pow]; omega
  rw [e1, c6]
  simp only
  have e2 : reqCode ty &&& 8 = 0 := by
    have : ∀ x, x < 8 → x &&& 8 = 0 := by decide
    exact this _ c9
  rw [if_pos e2]
  have e3 : (u.tlp.at_ + u.tlp.address % 2 ^ 32) &&& 3 = u.tlp.at_ := by rw [and_m2]; have := h.address; omega
  rw [e3, addr_join h.at_ h.address]
  have e4 : atOf u.tlp.at_ = .ok u.tlp.at_ := by rw [atOf, if_pos a5]
  generalize hd3 : u.tlp.tag + 2 ^ 8 * u.tlp.completer_id.function + 2 ^ 16 * u.barId + 2 ^ 19 * u.barAperture + 2 ^ 25 * u.tlp.tc + 2 ^ 28 * u.tlp.attr = d3
  have e5 : (d3 >>> 8) &&& 0xff = u.tlp.completer_id.function := by rw [and_m8, Nat.shiftRight_eq_div_pow]; omega
  have e6 : PcieId.mk? 0 0 u.tlp.completer_id.function = some ⟨0, 0, u.tlp.completer_id.function⟩ := by
    rw [PcieId.mk?, if_neg (by omega), if_neg (by omega), if_neg (by omega)]
  have e7 : d3 &&& 0xff = u.tlp.tag := by rw [and_m8]; omega
  have e8 : (d3 >>> 25) &&& 0x7 = u.tlp.tc := by rw [and_m3, Nat.shiftRight_eq_div_pow]; omega
  have e9 : (d3 >>> 28) &&& 0x7 = u.tlp.attr := by rw [and_m3, Nat.shiftRight_eq_div_pow]; omega
  have e10 : (d3 >>> 16) &&& 7 = u.barId := by rw [and_m3, Nat.shiftRight_eq_div_pow]; omega
  have e11 : (d3 >>> 19) &&& 0x3f = u.barAperture := by rw [and_m6, Nat.shiftRight_eq_div_pow]; omega
  have e12 : (u.tlp.length + 2 ^ 11 * reqCode ty + 2 ^ 16 * idNum u.tlp.requester_id) &&& 0x7ff = u.tlp.length := by rw [and_m11]; omega
  have e13 : PcieId.fromInt ((u.tlp.length + 2 ^ 11 * reqCode ty + 2 ^ 16 * idNum u.tlp.requester_id) >>> 16) = u.tlp.requester_id := by
    apply fromInt_idNum h.requester
    rw [Nat.shiftRight_eq_div_pow]; omega
  rw [e4, e5, e6, e7, e8, e9, e10, e11, e12, e13, dwords_pack _ h.data, h1, h2, h3, h4]
  simp only [bind, Except.bind, Tlp.setFmtType]
  rw [c7, c8]
  have e14 : ∀ t : Tlp, t.data = u.tlp.data → byteEns t.payloadSizeDw u.tlp.first_be u.tlp.last_be = payloadEns u.tlp := by
    intro t t1
    rw [← byteEns_eq, payloadSizeDw, t1]; rfl
  rw [e14 _ (by rfl), assert_true (by simp)]
  cases check with
  | false => rfl
  | true => simp only [if_true]; rw [assert_true (h5 rfl)]; rfl

theorem packRq_eq {ty : TlpType} {u : UsTlp} (h : UsReq ty u.tlp) :
    packRq u = .ok (UsFrame.updateParity
      { data := rqWords ty u ++ dwords u.tlp.data, firstBe := u.tlp.first_be, lastBe := u.tlp.last_be, discontinue := u.discontinue, seqNum := u.seqNum }) := by
  obtain ⟨h1, h2, h3, h4, _, _⟩ := ofReqType_fmt h
  have hf := h.form
  have had := h.address
  rw [packRq, fmtType_of_value h.type]
  simp only
  rw [if_pos h3, h2]
  simp only
  rw [leDwords_eq _ h.data]
  simp only
  rw [rqDw2_eq h.toUsFits (by omega), rqDw3_eq h.toUsFits, rqWords]
  by_cases hc : kind ty = some .cfg
  · rw [if_pos (h4.mpr hc), if_pos hc]
    have e : u.tlp.address &&& 0xffc = u.tlp.address := by
      rw [hc] at hf
      simp only at hf
      have : u.tlp.address &&& 0xffc = (u.tlp.address / 2 ^ 2 % 2 ^ 10) * 2 ^ 2 := and_himask u.tlp.address 10 2
      rw [this]; omega
    rw [e]
  · have hadr : u.tlp.address < 2 ^ 64 := by
      split at hf <;> first | omega | exact hf.elim
    rw [if_neg (fun hh => hc (h4.mp hh)), if_neg hc, addrDw_eq h.at_ had, addrHi_eq hadr]

theorem unpackRq_eq {ty : TlpType} {u : UsTlp} (h : UsReq ty u.tlp) (f : UsFrame)
    (hd : f.data = rqWords ty u ++ dwords u.tlp.data) (h1 : f.firstBe = u.tlp.first_be) (h2 : f.lastBe = u.tlp.last_be) (h3 : f.discontinue = u.discontinue)
    (h4 : f.seqNum = u.seqNum) (check : Bool) (h5 : check = true → f.checkParity = true) :
    unpackRq f check = .ok (rqSeen u) := by
  obtain ⟨c1, c2, c3, c4, c5, ty', c6, c7, c8⟩ := ofReqType_fmt h
  have hidl := idNum_lt h.requester
  have hidc := idNum_lt h.completer
  have a1 := h.length; have a2 := h.tag; have a3 := h.tc; have a4 := h.attr; have a5 := h.at_; have a6 := h.completer
  have b1 := toNat_le_one u.tlp.ep; have b2 := toNat_le_one u.requesterIdEnable
  have hw : ∃ d0 d1, f.data = d0 :: d1 :: (u.tlp.length + 2 ^ 11 * reqCode ty + 2 ^ 15 * u.tlp.ep.toNat + 2 ^ 16 * idNum u.tlp.requester_id) ::
      (u.tlp.tag + 2 ^ 8 * idNum u.tlp.completer_id + 2 ^ 24 * u.requesterIdEnable.toNat + 2 ^ 25 * u.tlp.tc + 2 ^ 28 * u.tlp.attr) :: dwords u.tlp.data ∧
      rqAt (reqCode ty) d0 = .ok u.tlp.at_ ∧
      (if reqCode ty < 8 then d1 <<< 32 ||| (d0 &&& 0xfffffffc) else d0 &&& 0xffc) = u.tlp.address := by
    by_cases hc : kind ty = some .cfg
    · have hn : ¬ reqCode ty < 8 := fun hh => c5.mp hh hc
      refine ⟨u.tlp.address, 0, ?_, ?_, ?_⟩
      · rw [hd, rqWords, if_pos hc]; rfl
      · have hf := h.form
        rw [hc] at hf
        rw [rqAt, if_neg hn, hf.2]
      · have hf := h.form; have had := h.address
        rw [hc] at hf
        simp only at hf
        have : u.tlp.address &&& 0xffc = (u.tlp.address / 2 ^ 2 % 2 ^ 10) * 2 ^ 2 := and_himask u.tlp.address 10 2
        rw [if_neg hn, this]; omega
    · have hn : reqCode ty < 8 := c5.mpr hc
      refine ⟨u.tlp.at_ + u.tlp.address % 2 ^ 32, u.tlp.address / 2 ^ 32, ?_, ?_, ?_⟩
      · rw [hd, rqWords, if_neg hc]; rfl
      · have e3 : (u.tlp.at_ + u.tlp.address % 2 ^ 32) &&& 3 = u.tlp.at_ := by rw [and_m2]; have := h.address; omega
        rw [rqAt, if_pos hn, e3, atOf, if_pos a5]
      · rw [if_pos hn, addr_join h.at_ h.address]
  obtain ⟨d0, d1, hd', g1, g2⟩ := hw
  unfold unpackRq
  rw [hd']
  simp only
  generalize hd2 : u.tlp.length + 2 ^ 11 * reqCode ty + 2 ^ 15 * u.tlp.ep.toNat + 2 ^ 16 * idNum u.tlp.requester_id = d2
  generalize hd3 : u.tlp.tag + 2 ^ 8 * idNum u.tlp.completer_id + 2 ^ 24 * u.requesterIdEnable.toNat + 2 ^ 25 * u.tlp.tc + 2 ^ 28 * u.tlp.attr = d3
  have e1 : (d2 >>> 11) &&& 0xf = reqCode ty := by rw [and_m4, Nat.shiftRight_eq_div_pow]; omega
  rw [e1, c6]
  simp only
  rw [g1, g2]
  have e5 : PcieId.fromInt (d3 >>> 8) = u.tlp.completer_id := by
    apply fromInt_idNum h.completer; rw [Nat.shiftRight_eq_div_pow]; omega
  have e7 : d3 &&& 0xff = u.tlp.tag := by rw [and_m8]; omega
  have e8 : (d3 >>> 25) &&& 0x7 = u.tlp.tc := by rw [and_m3, Nat.shiftRight_eq_div_pow]; omega
  have e9 : (d3 >>> 28) &&& 0x7 = u.tlp.attr := by rw [and_m3, Nat.shiftRight_eq_div_pow]; omega
  have e10 : decide (d3 &&& 1 <<< 24 ≠ 0) = u.requesterIdEnable := bit_dec _ _ _ (by omega)
  have e11 : decide (d2 &&& 1 <<< 15 ≠ 0) = u.tlp.ep := bit_dec _ _ _ (by omega)
  have e12 : d2 &&& 0x7ff = u.tlp.length := by rw [and_m11]; omega
  have e13 : PcieId.fromInt (d2 >>> 16) = u.tlp.requester_id := by
    apply fromInt_idNum h.requester
    rw [Nat.shiftRight_eq_div_pow]; omega
  rw [e5, e7, e8, e9, e10, e11, e12, e13, dwords_pack _ h.data, h1, h2, h3, h4]
  simp only [bind, Except.bind, Tlp.setFmtType]
  rw [c7, c8]
  cases check with
  | false => rfl
  | true => simp only [if_true]; rw [assert_true (h5 rfl)]; rfl

/-- The completions that have the type of the locked bit and of the length. -/
theorem cplType_fmt {ty : TlpType} {t : Tlp} (h : UsCpl ty t) :
    ty.isCpl = true ∧ locked ty = isLocked ty ∧ ∀ x : Tlp, x.length = t.length → cplType x (isLocked ty) = { x with fmt := t.fmt, type := t.type } := by
  have hk := h.cpl
  have hty := h.type
  have hf := h.form
  have e1 : t.fmt = ty.value.1 := by rw [← hty]
  have e2 : t.type = ty.value.2 := by rw [← hty]
  rw [e1, e2]
  cases ty <;> simp [kind] at hk <;>
    (refine ⟨rfl, rfl, fun x hx => ?_⟩
     simp only [reduceCtorEq, false_or, or_false, or_self, true_or, or_true, iff_true, true_iff, false_iff, iff_false, true_and, and_true] at hf
     simp only [cplType, isLocked, Tlp.setFmtType, hx]
     simp [hf]
     try exact ⟨rfl, rfl⟩)

theorem status_lt {ty : TlpType} {t : Tlp} (h : UsCpl ty t) : t.status < 8 := by have := h.status; omega

theorem packCc_eq {ty : TlpType} {u : UsTlp} (h : UsCpl ty u.tlp) (hl : u.tlp.lower_address < 128) :
    packCc u = .ok (UsFrame.updateParity { data := ccWords ty u ++ dwords u.tlp.data, discontinue := u.discontinue }) := by
  obtain ⟨h1, h2, _⟩ := cplType_fmt h
  rw [packCc, fmtType_of_value h.type]
  simp only
  rw [if_pos h1, leDwords_eq _ h.data]
  simp only
  rw [ccDw0_eq hl h.at_ h.byteCount, cplDw1_eq h.toUsFits (status_lt h), ccDw2_eq h.toUsFits, h2]
  rfl

theorem packRc_eq {ty : TlpType} {u : UsTlp} (h : UsCpl ty u.tlp) (hl : u.tlp.lower_address < 4096) (he : u.errorCode < 16) :
    packRc u = .ok (UsFrame.updateParity { data := rcWords ty u ++ dwords u.tlp.data, discontinue := u.discontinue, byteEn := rcByteEn u.tlp }) := by
  obtain ⟨h1, h2, _⟩ := cplType_fmt h
  rw [packRc, fmtType_of_value h.type]
  simp only
  rw [if_pos h1, leDwords_eq _ h.data]
  simp only
  rw [rcDw0_eq hl he h.byteCount, cplDw1_eq h.toUsFits (status_lt h), rcDw2_eq h.toUsFits, h2]
  rfl

theorem statusOf_ok {ty : TlpType} {t : Tlp} (h : UsCpl ty t) : statusOf t.status = .ok t.status := by
  rcases h.status with h | h | h | h <;> rw [h] <;> rfl

theorem data_back {ty : TlpType} {t : Tlp} (h : UsCpl ty t) :
    cplData t.length (dwords t.data) = .ok t.data := by
  have hp := h.payload
  unfold cplData
  by_cases hz : t.length > 0
  · rw [if_pos hz]
    have := dwords_length t.data h.data
    rw [List.take_of_length_le (by omega), dwords_pack _ h.data]
  · rw [if_neg hz]
    have : t.data = [] := List.eq_nil_of_length_eq_zero (by omega)
    rw [this]

theorem unpackCc_eq {ty : TlpType} {u : UsTlp} (h : UsCpl ty u.tlp) (hl : u.tlp.lower_address < 128) (f : UsFrame)
    (hd : f.data = ccWords ty u ++ dwords u.tlp.data) (h3 : f.discontinue = u.discontinue) (check : Bool) (h5 : check = true → f.checkParity = true) :
    unpackCc f check = .ok (ccSeen u) := by
  obtain ⟨c1, c2, c3⟩ := cplType_fmt h
  have hidl := idNum_lt h.requester
  have hidc := idNum_lt h.completer
  have a1 := h.length; have a2 := h.tag; have a3 := h.tc; have a4 := h.attr; have a5 := h.at_; have a6 := status_lt h; have a7 := h.byteCount
  have b1 := toNat_le_one u.tlp.ep; have b2 := toNat_le_one u.completerIdEnable; have b3 := toNat_le_one (isLocked ty)
  unfold unpackCc
  rw [hd]
  simp only [ccWords, List.cons_append, List.nil_append]
  generalize hd0 : u.tlp.lower_address + 2 ^ 8 * u.tlp.at_ + 2 ^ 16 * u.tlp.byte_count + 2 ^ 29 * (isLocked ty).toNat = d0
  generalize hd1 : u.tlp.length + 2 ^ 11 * u.tlp.status + 2 ^ 14 * u.tlp.ep.toNat + 2 ^ 16 * idNum u.tlp.requester_id = d1
  generalize hd2 : u.tlp.tag + 2 ^ 8 * idNum u.tlp.completer_id + 2 ^ 24 * u.completerIdEnable.toNat + 2 ^ 25 * u.tlp.tc + 2 ^ 28 * u.tlp.attr = d2
  have e1 : (d0 >>> 8) &&& 3 = u.tlp.at_ := by rw [and_m2, Nat.shiftRight_eq_div_pow]; omega
  have e2 : atOf u.tlp.at_ = .ok u.tlp.at_ := by rw [atOf, if_pos a5]
  have e3 : (d1 >>> 11) &&& 7 = u.tlp.status := by rw [and_m3, Nat.shiftRight_eq_div_pow]; omega
  have e4 : d0 &&& 0x7f = u.tlp.lower_address := by rw [and_m7]; omega
  have e5 : (d0 >>> 16) &&& 0x1fff = u.tlp.byte_count := by rw [and_m13, Nat.shiftRight_eq_div_pow]; omega
  have e6 : d1 &&& 0x7ff = u.tlp.length := by rw [and_m11]; omega
  have e7 : decide (d1 &&& 1 <<< 14 ≠ 0) = u.tlp.ep := bit_dec _ _ _ (by omega)
  have e8 : PcieId.fromInt (d1 >>> 16) = u.tlp.requester_id := by
    apply fromInt_idNum h.requester; rw [Nat.shiftRight_eq_div_pow]; omega
  have e9 : PcieId.fromInt (d2 >>> 8) = u.tlp.completer_id := by
    apply fromInt_idNum h.completer; rw [Nat.shiftRight_eq_div_pow]; omega
  have e10 : d2 &&& 0xff = u.tlp.tag := by rw [and_m8]; omega
  have e11 : (d2 >>> 25) &&& 0x7 = u.tlp.tc := by rw [and_m3, Nat.shiftRight_eq_div_pow]; omega
  have e12 : (d2 >>> 28) &&& 0x7 = u.tlp.attr := by rw [and_m3, Nat.shiftRight_eq_div_pow]; omega
  have e13 : decide (d2 &&& 1 <<< 24 ≠ 0) = u.completerIdEnable := bit_dec _ _ _ (by omega)
  have e14 : decide (d0 &&& 1 <<< 29 ≠ 0) = isLocked ty := bit_dec _ _ _ (by omega)
  rw [e1, e2, e3, statusOf_ok h, e4, e5, e6, e7, e8, e9, e10, e11, e12, e13, e14, h3]
  simp only [bind, Except.bind]
  rw [c3 _ (by rfl)]
  simp only
  rw [data_back h]
  cases check with
  | false => rfl
  | true => simp only [if_true]; rw [assert_true (h5 rfl)]; rfl

theorem unpackRc_eq {ty : TlpType} {u : UsTlp} (h : UsCpl ty u.tlp) (hl : u.tlp.lower_address < 4096) (he : u.errorCode < 16) (f : UsFrame)
    (hd : f.data = rcWords ty u ++ dwords u.tlp.data) (h3 : f.discontinue = u.discontinue) (h4 : f.byteEn = rcByteEn u.tlp) (check : Bool)
    (h5 : check = true → f.checkParity = true) :
    unpackRc f check = .ok (rcSeen u) := by
  obtain ⟨c1, c2, c3⟩ := cplType_fmt h
  have hidl := idNum_lt h.requester
  have hidc := idNum_lt h.completer
  have a1 := h.length; have a2 := h.tag; have a3 := h.tc; have a4 := h.attr; have a6 := status_lt h; have a7 := h.byteCount
  have b1 := toNat_le_one u.tlp.ep; have b2 := toNat_le_one u.requestCompleted; have b3 := toNat_le_one (isLocked ty)
  unfold unpackRc
  rw [hd]
  simp only [rcWords, List.cons_append, List.nil_append]
  generalize hd0 : u.tlp.lower_address + 2 ^ 12 * u.errorCode + 2 ^ 16 * u.tlp.byte_count + 2 ^ 29 * (isLocked ty).toNat + 2 ^ 30 * u.requestCompleted.toNat = d0
  generalize hd1 : u.tlp.length + 2 ^ 11 * u.tlp.status + 2 ^ 14 * u.tlp.ep.toNat + 2 ^ 16 * idNum u.tlp.requester_id = d1
  generalize hd2 : u.tlp.tag + 2 ^ 8 * idNum u.tlp.completer_id + 2 ^ 25 * u.tlp.tc + 2 ^ 28 * u.tlp.attr = d2
  have e3 : (d1 >>> 11) &&& 7 = u.tlp.status := by rw [and_m3, Nat.shiftRight_eq_div_pow]; omega
  have e4 : d0 &&& 0xfff = u.tlp.lower_address := by rw [and_m12]; omega
  have e5 : (d0 >>> 16) &&& 0x1fff = u.tlp.byte_count := by rw [and_m13, Nat.shiftRight_eq_div_pow]; omega
  have e6 : d1 &&& 0x7ff = u.tlp.length := by rw [and_m11]; omega
  have e7 : decide (d1 &&& 1 <<< 14 ≠ 0) = u.tlp.ep := bit_dec _ _ _ (by omega)
  have e8 : PcieId.fromInt (d1 >>> 16) = u.tlp.requester_id := by
    apply fromInt_idNum h.requester; rw [Nat.shiftRight_eq_div_pow]; omega
  have e9 : PcieId.fromInt (d2 >>> 8) = u.tlp.completer_id := by
    apply fromInt_idNum h.completer; rw [Nat.shiftRight_eq_div_pow]; omega
  have e10 : d2 &&& 0xff = u.tlp.tag := by rw [and_m8]; omega
  have e11 : (d2 >>> 25) &&& 0x7 = u.tlp.tc := by rw [and_m3, Nat.shiftRight_eq_div_pow]; omega
  have e12 : (d2 >>> 28) &&& 0x7 = u.tlp.attr := by rw [and_m3, Nat.shiftRight_eq_div_pow]; omega
  have e13 : decide (d0 &&& 1 <<< 30 ≠ 0) = u.requestCompleted := bit_dec _ _ _ (by omega)
  have e14 : decide (d0 &&& 1 <<< 29 ≠ 0) = isLocked ty := bit_dec _ _ _ (by omega)
  have e15 : (d0 >>> 12) &&& 0xf = u.errorCode := by rw [and_m4, Nat.shiftRight_eq_div_pow]; omega
  rw [e3, statusOf_ok h, e4, e5, e6, e7, e8, e9, e10, e11, e12, e13, e14, e15, h3, h4]
  simp only [bind, Except.bind]
  rw [c3 _ (by rfl)]
  simp only
  rw [data_back h]
  simp only
  rw [assert_true (by rw [beq_iff_eq]; rfl)]
  cases check with
  | false => rfl
  | true => simp only [if_true]; rw [assert_true (h5 rfl)]; rfl

theorem firstEn_bit : ∀ s < 4, ∀ k < 4, ((0xf <<< s) &&& 0xf).testBit k = decide (s ≤ k) := by decide
theorem lastEn_bit : ∀ r < 4, ∀ k < 4, (0xf >>> ((4 - r) % 4)).testBit k = (decide (k < r) || decide (r = 0)) := by decide
theorem allEn_bit : ∀ k < 4, (15).testBit k = true := by decide

/-- A byte of a completion is enabled if it is one of those that are left. -/
theorem rcByteEn_bit {t : Tlp} {n : Nat} (hp : t.data.length = 4 * (n + 1)) (hl : t.length = n + 1) (hb : 4 * n < t.byte_count + t.lower_address % 4)
    {i k : Nat} (hi : i < n + 1) (hk : k < 4) :
    ((rcByteEn t).getD (3 + i) 0).testBit k = decide (t.lower_address % 4 ≤ 4 * i + k ∧ 4 * i + k < t.lower_address % 4 + t.byte_count) := by
  have hs : t.lower_address % 4 < 4 := Nat.mod_lt _ (by decide)
  have hr : (t.byte_count + t.lower_address) % 4 < 4 := Nat.mod_lt _ (by decide)
  have f1 := firstEn_bit _ hs k hk
  have l1 : (if t.byte_count + t.lower_address % 4 > t.length * 4 then 0xf else 0xf >>> ((4 - (t.byte_count + t.lower_address) % 4) % 4)).testBit k =
      decide (4 * n + k < t.lower_address % 4 + t.byte_count) := by
    split
    · rw [allEn_bit k hk, eq_comm, decide_eq_true_eq]; omega
    · rw [lastEn_bit _ hr k hk, ← Bool.decide_or]
      congr 1
      rw [eq_iff_iff]
      omega
  unfold rcByteEn payloadSizeDw
  rw [hp, Nat.mul_div_cancel_left _ (by decide : 0 < 4), and_m2]
  simp only
  generalize (if t.byte_count + t.lower_address % 4 > t.length * 4 then 0xf else 0xf >>> ((4 - (t.byte_count + t.lower_address) % 4) % 4)) = L at *
  generalize (0xf <<< (t.lower_address % 4)) &&& 0xf = F at *
  match n, i with
  | 0, 0 =>
    show (F &&& L).testBit k = _
    rw [Nat.testBit_and, f1, l1, ← Bool.decide_and]
    congr 1; rw [eq_iff_iff]; omega
  | 0, i + 1 => omega
  | n + 1, i =>
    rw [if_neg (by omega)]
    simp only [byteEns]
    rw [if_pos (by omega : n + 1 + 1 ≥ 1), if_pos (by omega : n + 1 + 1 > 1)]
    have e : (if n + 1 + 1 > 2 then List.replicate (n + 1 + 1 - 2) 0xf else []) = List.replicate n 0xf := by
      split
      · rfl
      · have : n = 0 := by omega
        subst this; rfl
    rw [e, List.getD_eq_getElem?_getD]
    match i with
    | 0 =>
      rw [show ([0, 0, 0] ++ ([F] ++ List.replicate n 15 ++ [L]))[3 + 0]? = some F from rfl]
      show F.testBit k = _
      rw [f1]; congr 1; rw [eq_iff_iff]; omega
    | i + 1 =>
      have e2 : ([0, 0, 0] ++ ([F] ++ List.replicate n 15 ++ [L]))[3 + (i + 1)]? = (List.replicate n 15 ++ [L])[i]? := by
        rw [show 3 + (i + 1) = i + 1 + 1 + 1 + 1 by omega]; rfl
      rw [e2]
      by_cases hin : i < n
      · rw [List.getElem?_append_left (by simpa using hin), List.getElem?_replicate, if_pos hin]
        show (15).testBit k = _
        rw [allEn_bit k hk, eq_comm, decide_eq_true_eq]; omega
      · have : i = n := by omega
        subst this
        rw [List.getElem?_append_right (by simp), List.length_replicate, Nat.sub_self]
        show L.testBit k = _
        rw [l1]; congr 1; rw [eq_iff_iff]; omega

theorem byteEns_length (n a b : Nat) : (byteEns n a b).length = n := by
  match n with
  | 0 => rfl
  | 1 => rfl
  | n + 2 =>
    rw [byteEns, if_pos (by omega : n + 2 ≥ 1), if_pos (by omega : n + 2 > 1)]
    split
    · simp
    · have : n = 0 := by omega
      subst this; rfl

theorem byteEns_lt {n a b : Nat} (ha : a < 16) (hb : b < 16) : ∀ e ∈ byteEns n a b, e < 16 := by
  intro e he
  simp only [byteEns, List.mem_append] at he
  rcases he with (he | he) | he
  · split at he <;> simp at he; omega
  · split at he
    · have := List.eq_of_mem_replicate he; omega
    · simp at he
  · split at he <;> simp at he; omega

theorem rcByteEn_length {ty : TlpType} {t : Tlp} (h : UsCpl ty t) : (rcByteEn t).length = 3 + t.length := by
  have := h.payload
  simp only [rcByteEn, List.length_append, byteEns_length, payloadSizeDw]
  rw [this]; simp

theorem rcByteEn_lt (t : Tlp) : ∀ e ∈ rcByteEn t, e < 16 := by
  have h1 : ∀ x, x &&& 0xf < 16 := fun x => by rw [and_m4]; omega
  have h2 : ∀ s, 0xf >>> s < 16 := fun s => by rw [Nat.shiftRight_eq_div_pow]; exact Nat.lt_of_le_of_lt (Nat.div_le_self _ _) (by decide)
  intro e he
  simp only [rcByteEn, List.mem_append] at he
  rcases he with he | he
  · simp at he; omega
  · have hl : (if t.byte_count + (t.lower_address &&& 3) > t.length * 4 then 0xf else 0xf >>> ((4 - (t.byte_count + t.lower_address) % 4) % 4)) < 16 := by
      split
      · decide
      · exact h2 _
    split at he
    · exact byteEns_lt (Nat.lt_of_le_of_lt Nat.and_le_right hl) (show 0 < 16 by decide) e he
    · exact byteEns_lt (h1 _) hl e he

theorem dwordParity_lt (d : Nat) : dwordParity d ^^^ 0xf < 16 := by
  have h : dwordParity d < 2 ^ 4 := by
    apply Nat.lt_pow_two_of_testBit
    intro i hi
    rw [dwordParity_bit]
    simp; omega
  exact Nat.xor_lt_two_pow h (by decide)

theorem words_lt {k : Us.Kind} {ty : TlpType} {u : UsTlp} (h : UsCarries k ty u) : ∀ d ∈ usWords k ty u, d < 2 ^ 32 := by
  have hreq : UsReq ty u.tlp → reqCode ty < 12 ∧ u.tlp.address < 2 ^ 64 := fun hr => ⟨(ofReqType_fmt hr).1, by
    have := hr.form
    split at this <;> first | omega | exact this.elim⟩
  intro d hd
  cases k with
  | cq =>
    obtain ⟨h, _, hb, ha⟩ := h
    have a1 := h.length; have a2 := h.tag; have a3 := h.tc; have a4 := h.attr; have a5 := h.at_; have a6 := idNum_lt h.requester; have a7 := h.completer
    have a8 := h.address; have a9 := hreq h
    simp only [PcieId.Valid] at a7
    simp only [usWords, cqWords, List.mem_cons, List.not_mem_nil, or_false] at hd
    omega
  | rq =>
    have h : UsReq ty u.tlp := h
    have a1 := h.length; have a2 := h.tag; have a3 := h.tc; have a4 := h.attr; have a5 := h.at_; have a6 := idNum_lt h.requester; have a7 := idNum_lt h.completer
    have a8 := h.address; have a9 := hreq h; have b1 := toNat_le_one u.tlp.ep; have b2 := toNat_le_one u.requesterIdEnable
    have hf := h.form
    simp only [usWords, rqWords, List.mem_append, List.mem_cons, List.not_mem_nil, or_false] at hd
    rcases hd with hd | hd
    · split at hd
      · rename_i hc
        rw [hc] at hf
        simp only [List.mem_cons, List.not_mem_nil, or_false] at hd hf
        omega
      · simp only [List.mem_cons, List.not_mem_nil, or_false] at hd
        omega
    · omega
  | cc =>
    obtain ⟨h, hl⟩ := h
    have a1 := h.length; have a2 := h.tag; have a3 := h.tc; have a4 := h.attr; have a5 := h.at_; have a6 := idNum_lt h.requester; have a7 := idNum_lt h.completer
    have a8 := status_lt h; have a9 := h.byteCount; have b1 := toNat_le_one u.tlp.ep; have b2 := toNat_le_one u.completerIdEnable; have b3 := toNat_le_one (isLocked ty)
    simp only [usWords, ccWords, List.mem_cons, List.not_mem_nil, or_false] at hd
    omega
  | rc =>
    obtain ⟨h, hl, he⟩ := h
    have a1 := h.length; have a2 := h.tag; have a3 := h.tc; have a4 := h.attr; have a5 := h.at_; have a6 := idNum_lt h.requester; have a7 := idNum_lt h.completer
    have a8 := status_lt h; have a9 := h.byteCount; have b1 := toNat_le_one u.tlp.ep; have b2 := toNat_le_one u.requestCompleted; have b3 := toNat_le_one (isLocked ty)
    simp only [usWords, rcWords, List.mem_cons, List.not_mem_nil, or_false] at hd
    omega

theorem words_length (k : Us.Kind) (ty : TlpType) (u : UsTlp) : (usWords k ty u).length = if k = .cq ∨ k = .rq then 4 else 3 := by
  cases k with
  | rq => simp only [usWords, rqWords]; split <;> rfl
  | _ => rfl

theorem carries_data {k : Us.Kind} {ty : TlpType} {u : UsTlp} (h : UsCarries k ty u) : u.tlp.data.length % 4 = 0 := by
  cases k with
  | cq => exact h.1.data
  | rq => exact UsFits.data (UsReq.toUsFits h)
  | cc => exact h.1.data
  | rc => exact h.1.data

theorem frame_ok {b : Us.Bus} {ty : TlpType} {u : UsTlp} (h : UsCarries b.kind ty u) (hs : UsSideband b u) {f : UsFrame} (hf : usPack b.kind u = .ok f) :
    UsOk b.kind f := by
  have core : ∀ g : UsFrame, g.data = usWords b.kind ty u ++ dwords u.tlp.data →
      (usByteEn b.kind = true → g.byteEn.length = g.data.length ∧ ∀ e ∈ g.byteEn, e < 16) → UsOk b.kind g.updateParity := by
    intro g hg hb
    refine ⟨?_, ?_, ?_, ?_, hb⟩
    · show g.data ≠ []
      rw [hg]
      intro hz
      have := congrArg List.length hz
      rw [List.length_append, words_length, List.length_nil] at this
      split at this <;> omega
    · show ∀ d ∈ g.data, _
      rw [hg]
      intro d hd
      rcases List.mem_append.mp hd with hd | hd
      · exact words_lt h d hd
      · exact dwords_lt _ (carries_data h) d hd
    · show ∀ p ∈ g.data.map _, _
      intro p hp
      obtain ⟨d, _, rfl⟩ := List.mem_map.mp hp
      exact dwordParity_lt d
    · show (g.data.map _).length = g.data.length
      simp
  have hdl := dwords_length u.tlp.data (carries_data h)
  have hwl := words_length b.kind ty u
  cases hk : b.kind with
  | cq =>
    rw [hk] at h hf core hwl
    rw [usPack, packCq_eq h.1 h.2.1 h.2.2.1 h.2.2.2] at hf
    cases hf
    refine core _ rfl fun _ => ⟨?_, ?_⟩
    · show ([0, 0, 0, 0] ++ payloadEns u.tlp).length = (usWords .cq ty u ++ dwords u.tlp.data).length
      rw [← byteEns_eq, List.length_append, List.length_append, byteEns_length, hwl, payloadSizeDw]
      simp; omega
    · intro e he
      rcases List.mem_append.mp he with he | he
      · simp at he; omega
      · rw [← byteEns_eq] at he
        have := hs.1 (.inr hk)
        exact byteEns_lt this.1 this.2 e he
  | rq =>
    rw [hk] at h hf core
    rw [usPack, packRq_eq h] at hf
    cases hf
    exact core _ rfl nofun
  | cc =>
    rw [hk] at h hf core
    rw [usPack, packCc_eq h.1 h.2] at hf
    cases hf
    exact core _ rfl nofun
  | rc =>
    rw [hk] at h hf core hwl
    rw [usPack, packRc_eq h.1 h.2.1 h.2.2] at hf
    cases hf
    refine core _ rfl fun _ => ⟨?_, fun e he => rcByteEn_lt _ e he⟩
    show (rcByteEn u.tlp).length = (usWords .rc ty u ++ dwords u.tlp.data).length
    have := h.1.payload
    rw [rcByteEn_length h.1, List.length_append, hwl]
    simp; omega

end UsTlp
end Pcie
