/-
Helper lemmas: unpacking a TLP that was packed.
-/
import Verif.Lemmas.Tlp
import Verif.Lemmas.Field
namespace Pcie
open Tlp

theorem packL_length {dw : Nat} {bs : List UInt8} (h : packL dw = .ok bs) : bs.length = 4 := by
  simp only [packL] at h
  split at h
  · cases h; rfl
  · cases h

theorem packQ_length {dw : Nat} {bs : List UInt8} (h : packQ dw = .ok bs) : bs.length = 8 := by
  simp only [packQ] at h
  split at h
  · cases h; rfl
  · cases h

theorem unpackL_packL {dw : Nat} {bs : List UInt8} (h : packL dw = .ok bs) (pre rest : List UInt8) (off : Nat)
    (ho : pre.length = off) : unpackL (pre ++ bs ++ rest) off = .ok dw := by
  by_cases hd : dw < 2 ^ 32
  · rw [packL_ok _ hd] at h
    cases h
    rw [List.append_assoc]
    simp only [List.cons_append, List.nil_append]
    rw [unpackL_bytes _ _ _ _ pre rest off ho]
    congr 1; omega
  · simp [packL, hd] at h

theorem unpackQ_packQ {v : Nat} {bs : List UInt8} (h : packQ v = .ok bs) (pre rest : List UInt8) (off : Nat)
    (ho : pre.length = off) : unpackQ (pre ++ bs ++ rest) off = .ok v := by
  by_cases hd : v < 2 ^ 64
  · rw [packQ_ok _ hd] at h
    cases h
    subst ho
    simp only [List.append_assoc, unpackQ, List.drop_left, List.cons_append, List.nil_append]
    rw [bytes8]; simp only [ofNat_toNat]
    congr 1; omega
  · simp [packQ, hd] at h

theorem unpack_dw3 {d0 d1 d2 : Nat} {p0 p1 p2 : List UInt8} (h0 : packL d0 = .ok p0) (h1 : packL d1 = .ok p1)
    (h2 : packL d2 = .ok p2) (rest : List UInt8) :
    unpackL (p0 ++ p1 ++ p2 ++ rest) 0 = .ok d0 ∧ unpackL (p0 ++ p1 ++ p2 ++ rest) 4 = .ok d1 ∧
    unpackL (p0 ++ p1 ++ p2 ++ rest) 8 = .ok d2 := by
  have l0 := packL_length h0
  have l1 := packL_length h1
  refine ⟨?_, ?_, ?_⟩
  · have := unpackL_packL h0 [] (p1 ++ p2 ++ rest) 0 rfl
    simpa [List.append_assoc] using this
  · have := unpackL_packL h1 p0 (p2 ++ rest) 4 l0
    simpa [List.append_assoc] using this
  · have := unpackL_packL h2 (p0 ++ p1) rest 8 (by simp [l0, l1])
    simpa [List.append_assoc] using this

theorem unpack_dw4 {d0 d1 d2 : Nat} {p0 p1 p2 : List UInt8} (h0 : packL d0 = .ok p0) (h1 : packL d1 = .ok p1)
    (h2 : packQ d2 = .ok p2) (rest : List UInt8) :
    unpackL (p0 ++ p1 ++ p2 ++ rest) 0 = .ok d0 ∧ unpackL (p0 ++ p1 ++ p2 ++ rest) 4 = .ok d1 ∧
    unpackQ (p0 ++ p1 ++ p2 ++ rest) 8 = .ok d2 := by
  have l0 := packL_length h0
  have l1 := packL_length h1
  refine ⟨?_, ?_, ?_⟩
  · have := unpackL_packL h0 [] (p1 ++ p2 ++ rest) 0 rfl
    simpa [List.append_assoc] using this
  · have := unpackL_packL h1 p0 (p2 ++ rest) 4 l0
    simpa [List.append_assoc] using this
  · have := unpackQ_packQ h2 (p0 ++ p1) rest 8 (by simp [l0, l1])
    simpa [List.append_assoc] using this

theorem shr_mod_shl_or (x a b : Nat) : (x >>> a % 2 ^ b) <<< a ||| x % 2 ^ a = x % 2 ^ (a + b) := by
  apply Nat.eq_of_testBit_eq; intro i
  simp only [Nat.testBit_or, Nat.testBit_shiftLeft, Nat.testBit_mod_two_pow, Nat.testBit_shiftRight]
  by_cases h : i < a
  · simp only [h, show ¬ (a ≤ i) by omega, show i < a + b by omega, decide_true, decide_false, Bool.true_and,
      Bool.false_and, Bool.false_or]
  · simp only [h, show (a ≤ i) by omega, decide_true, decide_false, Bool.true_and,
      Bool.false_and, Bool.or_false, Nat.add_sub_cancel' (show a ≤ i by omega)]
    congr 1; simp only [decide_eq_decide]; omega

theorem mod_or_shr_mod_shl (x a b : Nat) : x % 2 ^ a ||| (x >>> a % 2 ^ b) <<< a = x % 2 ^ (a + b) := by
  rw [Nat.or_comm, shr_mod_shl_or]

theorem tag_join (x : Nat) :
    (x >>> 8 % 2 ^ 1) <<< 8 ||| ((x >>> 9 % 2 ^ 1) <<< 9 ||| x % 2 ^ 8) = x % 2 ^ 10 := by
  rw [Nat.or_comm ((x >>> 9 % 2 ^ 1) <<< 9), ← Nat.or_assoc, shr_mod_shl_or x 8 1, mod_or_shr_mod_shl x 9 1]

theorem addr_shift {a w : Nat} (h4 : a % 4 = 0) (h : a < 2 ^ (w + 2)) : (a >>> 2 % 2 ^ w) <<< 2 = a := by
  rw [Nat.shiftLeft_eq, Nat.shiftRight_eq_div_pow, Nat.mod_eq_of_lt]
  · omega
  · rw [Nat.pow_add] at h; omega

theorem shr2_mod2 {a : Nat} (h4 : a % 4 = 0) : a % 2 ^ 2 = 0 := h4

theorem id_mod (p : PcieId) (h : p.Valid) : PcieId.mk (p.bus % 2 ^ 8) (p.device % 2 ^ 5) (p.function % 2 ^ 3) = p := by
  obtain ⟨a, b, c⟩ := p
  simp only [PcieId.Valid] at h
  simp only [PcieId.mk.injEq]; omega

/-- Fields of the first dword. -/
structure Dw0Fields (t : Tlp) (dw : Nat) : Prop where
  length : dw &&& 0x3ff = t.length % 2 ^ 10
  at_ : (dw >>> 10) &&& 0x3 = t.at_ % 2 ^ 2
  attr : ((dw >>> 12) &&& 0x3) ||| ((dw >>> 16) &&& 0x4) = t.attr % 2 ^ 3
  ep : decide (dw &&& (1 <<< 14) ≠ 0) = t.ep
  td : decide (dw &&& (1 <<< 15) ≠ 0) = t.td
  th : decide (dw &&& (1 <<< 16) ≠ 0) = t.th
  ln : decide (dw &&& (1 <<< 17) ≠ 0) = t.ln
  tag : ((dw >>> 11) &&& 0x100) ||| ((dw >>> 14) &&& 0x200) = (t.tag >>> 8 % 2 ^ 2) <<< 8
  tc : (dw >>> 20) &&& 0x7 = t.tc % 2 ^ 3
  type : (dw >>> 24) &&& 0x1f = t.type % 2 ^ 5
  fmt : (dw >>> 29) &&& 0x7 = t.fmt % 2 ^ 3

theorem tag_hi (x : Nat) : (x >>> 8 % 2 ^ 1) <<< 8 ||| (x >>> 9 % 2 ^ 1) <<< 9 = (x >>> 8 % 2 ^ 2) <<< 8 := by
  have := mod_or_shr_mod_shl (x >>> 8) 1 1
  rw [← this, Nat.shiftLeft_or_distrib, ← Nat.shiftLeft_add, ← Nat.shiftRight_add]

theorem dw0_fields (t : Tlp) : Dw0Fields t t.headerDw0 := by
  constructor <;> unfold headerDw0 <;> fields
  · exact mod_or_shr_mod_shl t.attr 2 1
  · exact tag_hi t.tag

theorem fromInt_shr (x : Nat) (p : PcieId) (h : p.Valid) (hx : x = p.toInt) : PcieId.fromInt x = p := by
  subst hx
  unfold PcieId.fromInt PcieId.toInt
  fields
  exact id_mod p h

/-- The part of `unpack_header` after the first dword and the length fix-up. -/
def unpackTail (pkt : List UInt8) (t : Tlp) (ty : TlpType) : Py Tlp := do
  if ty.isReq then
    let dw ← unpackL pkt 4
    let t := { t with
      first_be := dw &&& 0xf
      last_be := (dw >>> 4) &&& 0xf
      tag := t.tag ||| ((dw >>> 8) &&& 0x0ff)
      requester_id := PcieId.fromInt (dw >>> 16) }
    if ty.isCfg then
      let dw ← unpackL pkt 8
      .ok { t with address := dw &&& 0xffc, completer_id := PcieId.fromInt (dw >>> 16) }
    else if t.fmt = TlpType.FOUR_DW ∨ t.fmt = TlpType.FOUR_DW_DATA then
      let val ← unpackQ pkt 8
      .ok { t with address := val &&& 0xfffffffffffffffc, ph := val &&& 0x3 }
    else
      let dw ← unpackL pkt 8
      .ok { t with address := dw &&& 0xfffffffc, ph := dw &&& 0x3 }
  else if ty.isCpl then
    let dw ← unpackL pkt 4
    let status ← statusOf ((dw >>> 13) &&& 0x7)
    let t := { t with
      byte_count := dw &&& 0xfff
      bcm := dw &&& (1 <<< 12) ≠ 0
      status := status
      completer_id := PcieId.fromInt (dw >>> 16) }
    let dw ← unpackL pkt 8
    let t := { t with
      lower_address := dw &&& 0x7f
      tag := t.tag ||| ((dw >>> 8) &&& 0x0ff)
      requester_id := PcieId.fromInt (dw >>> 16) }
    .ok (if t.byte_count = 0 then { t with byte_count := 4096 } else t)
  else .error "Unknown TLP type"

theorem reserved_iff (ty : TlpType) (k : Spec.Kind) (h : Spec.kind ty = some k) :
    ty.lengthReserved = true ↔ (ty = .CPL ∨ ty = .CPL_LOCKED) := by
  cases ty <;> simp [Spec.kind] at h <;> decide

theorem unpackHeader_split (pkt : List UInt8) (t : Tlp) (ty : TlpType) (k : Spec.Kind) (hk : Spec.kind ty = some k)
    (hE : Spec.Encodable ty t)
    (dw : Nat) (hd : unpackL pkt 0 = .ok dw) (h : Dw0Fields t dw) :
    unpackHeader pkt = unpackTail pkt
      { fmt := t.fmt, type := t.type, tc := t.tc, ln := t.ln, th := t.th, td := t.td, ep := t.ep, attr := t.attr,
        at_ := t.at_, length := t.length, tag := (t.tag >>> 8 % 2 ^ 2) <<< 8 } ty := by
  have hft := fmtType_of_value hE.fmt_type
  have hv := value_lt ty
  have hfmt : t.fmt = ty.value.1 := by rw [← hE.fmt_type]
  have hty : t.type = ty.value.2 := by rw [← hE.fmt_type]
  have h1 := hE.tc; have h2 := hE.attr; have h3 := hE.at_
  have f1 : t.tc % 2 ^ 3 = t.tc := by omega
  have f2 : t.at_ % 2 ^ 2 = t.at_ := by omega
  have f3 : t.fmt % 2 ^ 3 = t.fmt := by omega
  have f4 : t.type % 2 ^ 5 = t.type := by omega
  have f5 : t.attr % 2 ^ 3 = t.attr := by omega
  have ha : atOf t.at_ = .ok t.at_ := by simp [atOf, h3]
  have hl := hE.length
  simp only [← reserved_iff ty k hk] at hl
  simp only [fmtType] at hft
  simp only [unpackHeader, hd, bind, Except.bind, h.length, h.at_, h.attr, h.ep, h.td, h.th, h.ln, h.tag, h.tc,
    h.type, h.fmt, f1, f2, f3, f4, f5, ha, fmtType, hft]
  by_cases hr : ty.lengthReserved = true
  · rw [if_pos hr] at hl
    simp only [hr, not_true, false_and, if_false]
    rw [Nat.mod_eq_of_lt (show t.length < 2 ^ 10 by omega)]
    rfl
  · rw [if_neg hr] at hl
    simp only [hr, true_and, not_false_iff]
    by_cases h0 : t.length % 2 ^ 10 = 0
    · have : t.length = 1024 := by omega
      simp only [h0, if_true, this]; rfl
    · have : t.length % 2 ^ 10 = t.length := by omega
      rw [this] at h0
      simp only [this, h0, if_false]; rfl

theorem fromInt_hi (lo : Nat) (p : PcieId) (h : p.Valid) (hlo : lo >>> 16 = 0) :
    PcieId.fromInt ((lo ||| p.toInt <<< 16) >>> 16) = p := by
  apply fromInt_shr _ p h
  rw [Nat.shiftRight_or_distrib, hlo, Nat.zero_or, Nat.shiftLeft_shiftRight]

/-- What `unpack_header` reads back from a packed header, for any encodable TLP. -/
theorem unpackHeader_packHeader (t : Tlp) (ty : TlpType) (h : Spec.Encodable ty t) (pkt rest : List UInt8)
    (hp : t.packHeader = .ok pkt) : unpackHeader (pkt ++ rest) = .ok { t with data := [] } := by
  have hbody := h.body
  have hft := fmtType_of_value h.fmt_type
  have hv := value_lt ty
  have hfmt : t.fmt = ty.value.1 := by rw [← h.fmt_type]
  have hty : t.type = ty.value.2 := by rw [← h.fmt_type]
  have hc := h.cpl_id; have hr := h.req_id
  have h1 := h.tc; have h2 := h.attr; have h3 := h.at_; have h4 := h.tag; have h5 := h.seq
  have f6 : t.tag % 2 ^ 10 = t.tag := by omega
  have ftag : (t.tag >>> 8 % 2 ^ 2) <<< 8 ||| t.tag % 2 ^ 8 = t.tag := by
    rw [shr_mod_shl_or t.tag 8 2]; exact f6
  simp only [packHeader, packL_header0 t ty h, hft, bind, Except.bind] at hp
  have hL0 := packL_header0 t ty h
  generalize Spec.header0 t = p0 at hp hL0
  cases hk : Spec.kind ty with
  | none => simp [hk] at hbody
  | some k =>
    simp only [hk] at hbody
    cases k with
    | cfg =>
      obtain ⟨k1, k2⟩ := kind_cfg hk
      simp only [if_true] at hbody
      obtain ⟨b1, b2, b3, b4, b5, b6, b7, b8, b9⟩ := hbody
      simp only [k1, k2, if_true] at hp
      split at hp
      · cases hp
      rename_i p1 hp1
      split at hp
      · cases hp
      rename_i p2 hp2
      simp only [Except.ok.injEq] at hp
      subst hp
      obtain ⟨u0, u1, u2⟩ := unpack_dw3 hL0 hp1 hp2 rest
      rw [unpackHeader_split _ t ty _ hk h _ u0 (dw0_fields t)]
      have a0 := addr_shift (w := 10) b7 (by omega)
      simp only [unpackTail]
      simp only [k1, k2, if_true, bind, Except.bind, u1, u2]
      rw [fromInt_hi _ t.requester_id hr (by fields),
        fromInt_hi _ t.completer_id hc (by fields)]
      unfold PcieId.toInt
      fields
      obtain ⟨⟩ := t
      simp only at *
      simp only [Except.ok.injEq, Tlp.mk.injEq, *, true_and, and_true]
      omega
    | req3 =>
      obtain ⟨k1, k2, k3⟩ := kind_req3 hk
      simp only [if_true, reduceCtorEq, if_false] at hbody
      obtain ⟨b1, b2, b3, b4, b5, b6, b7, b8, b9, b10⟩ := hbody
      have hn : ¬ (t.fmt = TlpType.FOUR_DW ∨ t.fmt = TlpType.FOUR_DW_DATA) := by
        simp only [TlpType.FOUR_DW, TlpType.FOUR_DW_DATA]; omega
      simp only [k1, k2, if_true, hn, if_false, Bool.false_eq_true] at hp
      split at hp
      · cases hp
      rename_i p1 hp1
      split at hp
      · cases hp
      rename_i p2 hp2
      simp only [Except.ok.injEq] at hp
      subst hp
      obtain ⟨u0, u1, u2⟩ := unpack_dw3 hL0 hp1 hp2 rest
      rw [unpackHeader_split _ t ty _ hk h _ u0 (dw0_fields t)]
      have a0 := addr_shift (w := 30) b7 (by omega)
      simp only [unpackTail]
      simp only [k1, k2, if_true, bind, Except.bind, u1, u2, hn, if_false, Bool.false_eq_true]
      rw [fromInt_hi _ t.requester_id hr (by fields)]
      unfold PcieId.toInt
      fields
      obtain ⟨⟩ := t
      simp only at *
      simp only [Except.ok.injEq, Tlp.mk.injEq, *, true_and, and_true]
      omega
    | req4 =>
      obtain ⟨k1, k2, k3⟩ := kind_req4 hk
      simp only [reduceCtorEq, if_false] at hbody
      obtain ⟨b1, b2, b3, b4, b5, b6, b7, b8, b9, b10⟩ := hbody
      have hn : (t.fmt = TlpType.FOUR_DW ∨ t.fmt = TlpType.FOUR_DW_DATA) := by
        simp only [TlpType.FOUR_DW, TlpType.FOUR_DW_DATA]; omega
      simp only [k1, k2, if_true, hn, if_false, Bool.false_eq_true] at hp
      split at hp
      · cases hp
      rename_i p1 hp1
      split at hp
      · cases hp
      rename_i p2 hp2
      simp only [Except.ok.injEq] at hp
      subst hp
      obtain ⟨u0, u1, u2⟩ := unpack_dw4 hL0 hp1 hp2 rest
      rw [unpackHeader_split _ t ty _ hk h _ u0 (dw0_fields t)]
      have a0 := addr_shift (w := 62) b7 (by omega)
      simp only [unpackTail]
      simp only [k1, k2, if_true, bind, Except.bind, u1, u2, hn, if_false, Bool.false_eq_true]
      rw [fromInt_hi _ t.requester_id hr (by fields)]
      unfold PcieId.toInt
      fields
      obtain ⟨⟩ := t
      simp only at *
      simp only [Except.ok.injEq, Tlp.mk.injEq, *, true_and, and_true]
      omega
    | cpl =>
      obtain ⟨k1, k2⟩ := kind_cpl hk
      obtain ⟨b1, b2, b3, b4, b5, b6, b7, b8⟩ := hbody
      simp only [k1, k2, if_true, if_false, Bool.false_eq_true] at hp
      split at hp
      · cases hp
      rename_i p1 hp1
      split at hp
      · cases hp
      rename_i p2 hp2
      simp only [Except.ok.injEq] at hp
      subst hp
      obtain ⟨u0, u1, u2⟩ := unpack_dw3 hL0 hp1 hp2 rest
      rw [unpackHeader_split _ t ty _ hk h _ u0 (dw0_fields t)]
      simp only [unpackTail]
      simp only [k1, k2, if_true, bind, Except.bind, u1, u2, if_false, Bool.false_eq_true]
      rw [fromInt_hi _ t.requester_id hr (by fields),
        fromInt_hi _ t.completer_id hc (by fields)]
      unfold PcieId.toInt
      fields
      have hs : t.status % 2 ^ 3 = t.status := by omega
      have hst : statusOf t.status = .ok t.status := by simp [statusOf, b1]
      have hla : t.lower_address % 2 ^ 7 = t.lower_address := by omega
      simp only [hs, hst, hla]
      split
      · have : t.byte_count = 4096 := by omega
        obtain ⟨⟩ := t
        simp only at *
        simp only [Except.ok.injEq, Tlp.mk.injEq, *, true_and, and_true]
      · have : t.byte_count % 2 ^ 12 = t.byte_count := by omega
        obtain ⟨⟩ := t
        simp only at *
        simp only [Except.ok.injEq, Tlp.mk.injEq, *, true_and, and_true]
end Pcie
