/-
Helper lemmas about TLP serialisation.
-/
import Verif.Lemmas.Arith
import Verif.Spec.Tlp
namespace Pcie
open Tlp

theorem headerDw0_eq (t : Tlp) : t.headerDw0 = t.length % 1024 + t.at_ % 4 * 1024 + t.attr % 4 * 4096
   + t.ep.toNat * 16384 + t.td.toNat * 32768 + t.th.toNat * 65536 + t.ln.toNat * 131072
   + t.attr / 4 % 2 * 262144 + t.tag / 256 % 2 * 524288 + t.tc % 8 * 1048576 + t.tag / 512 % 2 * 8388608
   + t.type % 32 * 16777216 + t.fmt % 8 * 536870912 := by
  have := toNat_le_one t.ep; have := toNat_le_one t.td; have := toNat_le_one t.th; have := toNat_le_one t.ln
  simp only [headerDw0, and_m10, and_m2, and_m3, and_m5, and_b2, and_b8, and_b9]
  have e1 : (t.attr / 4 % 2 * 4) <<< 16 = (t.attr / 4 % 2) <<< 18 := by simp only [Nat.shiftLeft_eq]; omega
  have e2 : (t.tag / 256 % 2 * 256) <<< 11 = (t.tag / 256 % 2) <<< 19 := by simp only [Nat.shiftLeft_eq]; omega
  have e3 : (t.tag / 512 % 2 * 512) <<< 14 = (t.tag / 512 % 2) <<< 23 := by simp only [Nat.shiftLeft_eq]; omega
  rw [e1, e2, e3, or_shl_add _ _ 10 (by omega), or_shl_add _ _ 12 (by omega), or_shl_add _ _ 14 (by omega),
    or_shl_add _ _ 15 (by omega), or_shl_add _ _ 16 (by omega), or_shl_add _ _ 17 (by omega),
    or_shl_add _ _ 18 (by omega), or_shl_add _ _ 19 (by omega), or_shl_add _ _ 20 (by omega),
    or_shl_add _ _ 23 (by omega), or_shl_add _ _ 24 (by omega), or_shl_add _ _ 29 (by omega)]

theorem toInt_eq (p : PcieId) : p.toInt = p.bus % 256 * 256 + p.device % 32 * 8 + p.function % 8 := by
  simp only [PcieId.toInt, and_m3, and_m5, and_m8]
  rw [Nat.or_assoc, shl_or_add _ _ 3 (by omega), shl_or_add _ _ 8 (by omega)]; omega

theorem toInt_lt (p : PcieId) : p.toInt < 65536 := by rw [toInt_eq]; omega

theorem fromInt_eq (p : PcieId) (h : p.Valid) (x : Nat) (hx : x = p.bus * 256 + p.device * 8 + p.function) :
    PcieId.fromInt x = p := by
  obtain ⟨b, d, f⟩ := p
  simp only [PcieId.Valid] at h
  simp only [PcieId.fromInt, and_m3, and_m5, and_m8, Nat.shiftRight_eq_div_pow, PcieId.mk.injEq] at *
  omega

theorem u8_congr {a b : Nat} (h : a % 256 = b % 256) : UInt8.ofNat a = UInt8.ofNat b := by
  apply UInt8.toNat.inj; simp only [ofNat_toNat]; exact h

theorem ofPair_value (ty : TlpType) : TlpType.ofPair ty.value.1 ty.value.2 = some ty := by
  cases ty <;> rfl

theorem fmtType_of_value {t : Tlp} {ty : TlpType} (h : (t.fmt, t.type) = ty.value) : t.fmtType = some ty := by
  have h1 : t.fmt = ty.value.1 := by rw [← h]
  have h2 : t.type = ty.value.2 := by rw [← h]
  simp only [Tlp.fmtType, h1, h2, ofPair_value]

theorem value_lt (ty : TlpType) : ty.value.1 < 8 ∧ ty.value.2 < 32 := by cases ty <;> decide

theorem header0_arith (len a alo ep td th ln ahi t8 tc t9 ty f : Nat) (h1 : len < 1024) (h2 : a < 4) (h3 : alo < 4)
    (h4 : ep < 2) (h5 : td < 2) (h6 : th < 2) (h7 : ln < 2) (h8 : ahi < 2) (h9 : t8 < 2) (h10 : tc < 8)
    (h11 : t9 < 2) (h12 : ty < 32) (h13 : f < 8) :
    packL (len + a * 1024 + alo * 4096 + ep * 16384 + td * 32768 + th * 65536 + ln * 131072 + ahi * 262144
      + t8 * 524288 + tc * 1048576 + t9 * 8388608 + ty * 16777216 + f * 536870912) = .ok
    [UInt8.ofNat (f * 32 + ty), UInt8.ofNat (t9 * 128 + tc * 16 + t8 * 8 + ahi * 4 + ln * 2 + th),
     UInt8.ofNat (td * 128 + ep * 64 + alo * 16 + a * 4 + len / 256), UInt8.ofNat (len % 256)] := by
  have : len + a * 1024 + alo * 4096 + ep * 16384 + td * 32768 + th * 65536 + ln * 131072 + ahi * 262144
      + t8 * 524288 + tc * 1048576 + t9 * 8388608 + ty * 16777216 + f * 536870912
      = (((f * 32 + ty) * 256 + (t9 * 128 + tc * 16 + t8 * 8 + ahi * 4 + ln * 2 + th)) * 256
        + (td * 128 + ep * 64 + alo * 16 + a * 4 + len / 256)) * 256 + len % 256 := by omega
  rw [this]
  have hb0 : f * 32 + ty < 256 := by omega
  have hb1 : t9 * 128 + tc * 16 + t8 * 8 + ahi * 4 + ln * 2 + th < 256 := by omega
  have hb2 : td * 128 + ep * 64 + alo * 16 + a * 4 + len / 256 < 256 := by omega
  have hb3 : len % 256 < 256 := by omega
  generalize f * 32 + ty = b0 at *
  generalize t9 * 128 + tc * 16 + t8 * 8 + ahi * 4 + ln * 2 + th = b1 at *
  generalize td * 128 + ep * 64 + alo * 16 + a * 4 + len / 256 = b2 at *
  generalize len % 256 = b3 at *
  rw [packL_ok _ (by omega)]
  congr 1
  simp only [List.cons.injEq, and_true]
  refine ⟨?_, ?_, ?_, ?_⟩ <;> apply u8_congr <;> omega

/-- The first header dword, as bytes. -/
theorem packL_header0 (t : Tlp) (ty : TlpType) (h : Spec.Encodable ty t) :
    packL t.headerDw0 = .ok (Spec.header0 t) := by
  have hv := value_lt ty
  rw [← h.fmt_type] at hv
  obtain ⟨hf, hty⟩ := hv
  simp only at hf hty
  have := h.tc; have := h.attr; have := h.at_; have := h.tag
  have := toNat_le_one t.ep; have := toNat_le_one t.td; have := toNat_le_one t.th; have := toNat_le_one t.ln
  rw [headerDw0_eq]
  have key := header0_arith (t.length % 1024) t.at_ (t.attr % 4) t.ep.toNat t.td.toNat t.th.toNat t.ln.toNat
    (t.attr / 4 % 2) (t.tag / 256 % 2) t.tc (t.tag / 512 % 2) t.type t.fmt (by omega) (by omega) (by omega)
    (by omega) (by omega) (by omega) (by omega) (by omega) (by omega) (by omega) (by omega) (by omega) (by omega)
  rw [Nat.mod_eq_of_lt (show t.at_ < 4 by omega), Nat.mod_eq_of_lt (show t.tc < 8 by omega),
    Nat.mod_eq_of_lt hty, Nat.mod_eq_of_lt hf, key]
  simp only [Spec.header0, Spec.bit]
  congr 1
  have e1 : t.length % 1024 / 256 = t.length / 256 % 4 := by omega
  have e2 : t.length % 1024 % 256 = t.length % 256 := by omega
  rw [e1, e2]

theorem packL_request (t : Tlp) (ty : TlpType) (h : Spec.Encodable ty t) (hf : t.first_be < 16) (hl : t.last_be < 16) :
    packL ((t.first_be &&& 0xf) ||| ((t.last_be &&& 0xf) <<< 4) ||| ((t.tag &&& 0x0ff) <<< 8)
        ||| (t.requester_id.toInt <<< 16)) = .ok (Spec.requestDw1 t) := by
  have := h.req_id; simp only [PcieId.Valid] at this
  rw [and_m4, and_m4, and_m8, toInt_eq, or_shl_add _ _ 4 (by omega), or_shl_add _ _ 8 (by omega),
    or_shl_add _ _ 16 (by omega), packL_ok _ (by omega)]
  simp only [Spec.requestDw1, Spec.idBytes, List.cons_append, List.nil_append]
  congr 1
  simp only [List.cons.injEq, and_true]
  refine ⟨?_, ?_, ?_, ?_⟩ <;> apply u8_congr <;> omega

theorem packQ_ok (v : Nat) (h : v < 2 ^ 64) : Tlp.packQ v = .ok
    [UInt8.ofNat (v / 2 ^ 56), UInt8.ofNat (v / 2 ^ 48), UInt8.ofNat (v / 2 ^ 40), UInt8.ofNat (v / 2 ^ 32),
     UInt8.ofNat (v / 2 ^ 24), UInt8.ofNat (v / 2 ^ 16), UInt8.ofNat (v / 2 ^ 8), UInt8.ofNat v] := by
  simp only [Tlp.packQ, h, if_true, Nat.shiftRight_eq_div_pow]

theorem kind_cfg {ty : TlpType} (h : Spec.kind ty = some .cfg) : ty.isReq = true ∧ ty.isCfg = true := by
  cases ty <;> simp [Spec.kind] at h <;> decide

theorem kind_req3 {ty : TlpType} (h : Spec.kind ty = some .req3) :
    ty.isReq = true ∧ ty.isCfg = false ∧ (ty.value.1 = 0 ∨ ty.value.1 = 2) := by
  cases ty <;> simp [Spec.kind] at h <;> decide

theorem kind_req4 {ty : TlpType} (h : Spec.kind ty = some .req4) :
    ty.isReq = true ∧ ty.isCfg = false ∧ (ty.value.1 = 1 ∨ ty.value.1 = 3) := by
  cases ty <;> simp [Spec.kind] at h <;> decide

theorem kind_cpl {ty : TlpType} (h : Spec.kind ty = some .cpl) :
    ty.isReq = false ∧ ty.isCpl = true := by
  cases ty <;> simp [Spec.kind] at h <;> decide

theorem packHeader_eq (t : Tlp) (ty : TlpType) (h : Spec.Encodable ty t) (hdr : List UInt8)
    (hh : Spec.header ty t = some hdr) : t.packHeader = .ok hdr := by
  have hbody := h.body
  have hft := fmtType_of_value h.fmt_type
  have hfmt : t.fmt = ty.value.1 := by rw [← h.fmt_type]
  have hc := h.cpl_id; have hr := h.req_id; simp only [PcieId.Valid] at hc hr
  simp only [packHeader, packL_header0 t ty h, hft, bind, Except.bind]
  cases hk : Spec.kind ty with
  | none => simp [hk] at hbody
  | some k =>
    simp only [Spec.header, hk] at hh hbody
    cases k with
    | cfg =>
      obtain ⟨k1, k2⟩ := kind_cfg hk
      simp only [Option.some.injEq, if_true] at hh hbody
      subst hh
      obtain ⟨b1, b2, -, -, -, -, b3, b4, b5⟩ := hbody
      simp only [k1, k2, if_true, packL_request t ty h b1 b2]
      rw [and_ffc, toInt_eq, or_shl_add _ _ 16 (by omega), packL_ok _ (by omega)]
      simp only [Spec.cfgHeader, List.append_assoc]
      congr 3
      simp only [Spec.idBytes, List.cons_append, List.nil_append, List.cons.injEq, and_true]
      refine ⟨?_, ?_, ?_, ?_⟩ <;> apply u8_congr <;> omega
    | req3 =>
      obtain ⟨k1, k2, k3⟩ := kind_req3 hk
      simp only [Option.some.injEq, if_true, reduceCtorEq, if_false] at hh hbody
      subst hh
      obtain ⟨b1, b2, -, -, -, -, b3, b4, b5, b6⟩ := hbody
      have hn : ¬ (t.fmt = TlpType.FOUR_DW ∨ t.fmt = TlpType.FOUR_DW_DATA) := by
        simp only [TlpType.FOUR_DW, TlpType.FOUR_DW_DATA]; omega
      simp only [k1, k2, if_true, packL_request t ty h b1 b2, Bool.false_eq_true, if_false, hn]
      rw [and_fffffffc, and_m2]
      have : t.address / 4 % 1073741824 * 4 ||| t.ph % 2 ^ 2 = t.address / 4 % 1073741824 * 4 + t.ph % 2 ^ 2 := by
        rw [Nat.or_comm, or_mul_add _ _ 2 (by omega)]; omega
      rw [this, packL_ok _ (by omega)]
      simp only [Spec.header3dw, List.append_assoc]
      congr 3
      simp only [List.cons.injEq, and_true]
      refine ⟨?_, ?_, ?_, ?_⟩ <;> apply u8_congr <;> omega
    | req4 =>
      obtain ⟨k1, k2, k3⟩ := kind_req4 hk
      simp only [Option.some.injEq, reduceCtorEq, if_false] at hh hbody
      subst hh
      obtain ⟨b1, b2, -, -, -, -, b3, b4, b5, b6⟩ := hbody
      have hn : (t.fmt = TlpType.FOUR_DW ∨ t.fmt = TlpType.FOUR_DW_DATA) := by
        simp only [TlpType.FOUR_DW, TlpType.FOUR_DW_DATA]; omega
      simp only [k1, k2, if_true, packL_request t ty h b1 b2, Bool.false_eq_true, if_false, hn]
      rw [and_64c, and_m2]
      have : t.address / 4 % 4611686018427387904 * 4 ||| t.ph % 2 ^ 2
          = t.address / 4 % 4611686018427387904 * 4 + t.ph % 2 ^ 2 := by
        rw [Nat.or_comm, or_mul_add _ _ 2 (by omega)]; omega
      rw [this, packQ_ok _ (by omega)]
      simp only [Spec.header4dw, List.append_assoc]
      congr 3
      simp only [List.cons.injEq, and_true]
      refine ⟨?_, ?_, ?_, ?_, ?_, ?_, ?_, ?_⟩ <;> apply u8_congr <;> omega
    | cpl =>
      obtain ⟨k1, k2⟩ := kind_cpl hk
      simp only [Option.some.injEq] at hh hbody
      subst hh
      obtain ⟨b1, b2, b3, b4, -⟩ := hbody
      have := toNat_le_one t.bcm
      simp only [k1, k2, if_true, Bool.false_eq_true, if_false]
      rw [and_m12, and_m3, and_m7, and_m8, toInt_eq, toInt_eq, or_shl_add _ _ 12 (by omega), or_shl_add _ _ 13 (by omega),
        or_shl_add _ _ 16 (by omega), or_shl_add _ _ 8 (by omega), or_shl_add _ _ 16 (by omega),
        packL_ok _ (by omega), packL_ok _ (by omega)]
      simp only [Spec.cplHeader, List.append_assoc]
      congr 2
      simp only [Spec.idBytes, List.cons_append, List.nil_append, List.cons.injEq, and_true]
      refine ⟨?_, ?_, ?_, ?_, ?_, ?_, ?_, ?_⟩ <;> apply u8_congr <;> omega
end Pcie
