/-
C09, C10: DLLP serialisation and CRC.
-/
import Verif.Lemmas.Crc
import Verif.Lemmas.TlpUnpack
namespace Pcie
open Dllp

/-! ### C09 -/

theorem packDw_fc (type vc hs hf ds df : Nat) (hc : type ∈ fcTypes) :
    packDw ⟨type, 0, vc, hs, hf, ds, df, 0, false⟩ = .ok (((type &&& 0xff) <<< 24) |||
          ((vc &&& 0x7) <<< 24) ||| (df &&& 0xfff) ||| ((ds &&& 0x3) <<< 12)
          ||| ((hf &&& 0xff) <<< 14) ||| ((hs &&& 0x3) <<< 22)) := by
  have h : ¬ (type = ACK ∨ type = NAK) ∧ ¬ type ∈ plainTypes ∧ ¬ type = DATA_LINK_FEATURE ∧ type &&& 0xf8 ∈ fcTypes := by
    simp only [fcTypes, List.mem_cons, List.not_mem_nil, or_false] at hc
    rcases hc with rfl | rfl | rfl | rfl | rfl | rfl | rfl | rfl | rfl <;> decide
  simp only [packDw, h, if_true, if_false]

/-- The four dword layouts agree with the specified bytes. -/
theorem dllp_packDw (d : Dllp) (h : Spec.DllpEncodable d) :
    ∃ dw bs, d.packDw = .ok dw ∧ Spec.dllpBytes d = some bs ∧ Tlp.packL dw = .ok bs := by
  obtain ⟨type, seq, vc, hs, hf, ds, df, fs, fa⟩ := d
  unfold Spec.DllpEncodable at h
  unfold Spec.dllpBytes
  cases hk : Spec.dllpKind type with
  | none => simp [hk] at h
  | some k =>
    simp only [hk] at h ⊢
    have ht : type < 256 := by
      unfold Spec.dllpKind at hk
      split at hk
      · omega
      · split at hk
        · omega
        · split at hk
          · omega
          · split at hk
            · omega
            · cases hk
    cases k with
    | ackNak =>
      simp only at h
      obtain ⟨h1, rfl, rfl, rfl, rfl, rfl, rfl, rfl⟩ := h
      have hc : type = 0 ∨ type = 0x10 := by
        unfold Spec.dllpKind at hk; split at hk
        · assumption
        · repeat (split at hk; · cases hk)
          cases hk
      refine ⟨_, _, by simp only [packDw, ACK, NAK, hc, if_true]; rfl, rfl, ?_⟩
      rw [and_m8, and_m12, shl_or_add _ _ 24 (by omega), packL_ok _ (by omega)]
      congr 1
      rw [show (0 : UInt8) = UInt8.ofNat 0 from rfl]
      simp only [List.cons.injEq, and_true]
      refine ⟨?_, ?_, ?_, ?_⟩ <;> apply u8_congr <;> omega
    | plain =>
      simp only at h
      obtain ⟨rfl, rfl, rfl, rfl, rfl, rfl, rfl, rfl⟩ := h
      have hc : type = 0x31 ∨ type = 0x20 ∨ type = 0x21 ∨ type = 0x23 ∨ type = 0x24 := by
        unfold Spec.dllpKind at hk; split at hk
        · cases hk
        · split at hk
          · assumption
          · repeat (split at hk; · cases hk)
            cases hk
      rcases hc with rfl | rfl | rfl | rfl | rfl <;>
        exact ⟨_, _, rfl, rfl, rfl⟩
    | feature =>
      simp only at h
      obtain ⟨rfl, rfl, rfl, rfl, rfl, rfl, h1⟩ := h
      have hc : type = 2 := by
        unfold Spec.dllpKind at hk
        repeat' split at hk
        all_goals first | (cases hk; done) | assumption
      subst hc
      refine ⟨_, _, rfl, rfl, ?_⟩
      have := toNat_le_one fa
      simp only
      rw [and_m8, and_m23, Nat.or_assoc, or_shl_add _ _ 23 (by omega), shl_or_add _ _ 24 (by omega),
        packL_ok _ (by omega)]
      congr 1
      simp only [List.cons.injEq, and_true]
      refine ⟨?_, ?_, ?_, ?_⟩ <;> apply u8_congr <;> omega
    | fc =>
      simp only at h
      obtain ⟨rfl, h1, h2, h3, h4, h5, rfl, rfl⟩ := h
      have hc : type = 0x40 ∨ type = 0x50 ∨ type = 0x60 ∨ type = 0xC0 ∨ type = 0xD0 ∨ type = 0xE0 ∨
          type = 0x80 ∨ type = 0x90 ∨ type = 0xA0 := by
        unfold Spec.dllpKind at hk
        repeat' split at hk
        all_goals first | (cases hk; done) | assumption
      have hdw := packDw_fc type vc hs hf ds df
        (by rcases hc with rfl | rfl | rfl | rfl | rfl | rfl | rfl | rfl | rfl <;> decide)
      refine ⟨_, _, hdw, rfl, ?_⟩
      have e1 : ((type &&& 0xff) <<< 24) ||| ((vc &&& 0x7) <<< 24) = (type + vc) <<< 24 := by
        rw [← Nat.shiftLeft_or_distrib, and_m8, and_m3]
        congr 1
        have : type % 2 ^ 8 = type / 8 * 2 ^ 3 := by omega
        rw [this, Nat.or_comm, or_mul_add _ _ 3 (by omega)]; omega
      rw [e1]
      have e2 : (type + vc) <<< 24 ||| (df &&& 0xfff) ||| ((ds &&& 0x3) <<< 12)
          ||| ((hf &&& 0xff) <<< 14) ||| ((hs &&& 0x3) <<< 22)
          = (type + vc) * 16777216 + (df + ds * 4096 + hf * 16384 + hs * 4194304) := by
        rw [and_m12, and_m2, and_m8, and_m2]
        simp only [Nat.or_assoc]
        rw [show df % 2 ^ 12 ||| ((ds % 2 ^ 2) <<< 12 ||| ((hf % 2 ^ 8) <<< 14 ||| (hs % 2 ^ 2) <<< 22)) =
          df % 2 ^ 12 ||| (ds % 2 ^ 2) <<< 12 ||| (hf % 2 ^ 8) <<< 14 ||| (hs % 2 ^ 2) <<< 22 by simp only [Nat.or_assoc]]
        rw [or_shl_add _ _ 12 (by omega), or_shl_add _ _ 14 (by omega), or_shl_add _ _ 22 (by omega),
          shl_or_add _ _ 24 (by omega)]
        omega
      rw [e2, packL_ok _ (by omega)]
      congr 1
      simp only [List.cons.injEq, and_true]
      refine ⟨?_, ?_, ?_, ?_⟩ <;> apply u8_congr <;> omega

/-- C09: `pack` produces the specified wire bytes. -/
theorem C09_pack_wire_format (d : Dllp) (h : Spec.DllpEncodable d) :
    ∃ bs, Spec.dllpBytes d = some bs ∧ d.pack = .ok bs ∧ bs.length = 4 := by
  obtain ⟨dw, bs, h1, h2, h3⟩ := dllp_packDw d h
  refine ⟨bs, h2, ?_, packL_length h3⟩
  simp only [pack, h1, bind, Except.bind, h3]

/-- C09: unpacking a packed DLLP gives the same DLLP back. -/
theorem C09_unpack_pack (d : Dllp) (h : Spec.DllpEncodable d) :
    ∃ pkt, d.pack = .ok pkt ∧ unpack pkt = .ok d := by
  obtain ⟨dw, bs, h1, h2, h3⟩ := dllp_packDw d h
  refine ⟨bs, by simp only [pack, h1, bind, Except.bind, h3], ?_⟩
  have hu : Tlp.unpackL bs 0 = .ok dw := by
    have := unpackL_packL h3 [] [] 0 rfl
    simpa using this
  unfold Spec.DllpEncodable at h
  obtain ⟨type, seq, vc, hs, hf, ds, df, fs, fa⟩ := d
  simp only [unpack, hu, bind, Except.bind]
  cases hk : Spec.dllpKind type with
  | none => simp [hk] at h
  | some k =>
    simp only [hk] at h
    cases k with
    | ackNak =>
      simp only at h
      obtain ⟨g1, rfl, rfl, rfl, rfl, rfl, rfl, rfl⟩ := h
      have hc : type = 0 ∨ type = 0x10 := by
        unfold Spec.dllpKind at hk
        repeat' split at hk
        all_goals first | (cases hk; done) | assumption
      have hdw : dw = (type &&& 0xff) <<< 24 ||| (seq &&& 0xfff) := by
        rcases hc with rfl | rfl <;> exact (Except.ok.inj h1).symm
      have f1 : (dw >>> 24) &&& 0xff = type := by
        rw [hdw]; fields; omega
      have f2 : dw &&& 0xfff = seq := by rw [hdw]; fields; omega
      simp only [f1, f2]
      rcases hc with rfl | rfl <;> rfl
    | plain =>
      simp only at h
      obtain ⟨rfl, rfl, rfl, rfl, rfl, rfl, rfl, rfl⟩ := h
      have hc : type = 0x31 ∨ type = 0x20 ∨ type = 0x21 ∨ type = 0x23 ∨ type = 0x24 := by
        unfold Spec.dllpKind at hk
        repeat' split at hk
        all_goals first | (cases hk; done) | assumption
      rcases hc with rfl | rfl | rfl | rfl | rfl <;> cases h1 <;> rfl
    | feature =>
      simp only at h
      obtain ⟨rfl, rfl, rfl, rfl, rfl, rfl, g1⟩ := h
      have hc : type = 2 := by
        unfold Spec.dllpKind at hk
        repeat' split at hk
        all_goals first | (cases hk; done) | assumption
      subst hc
      have hdw : dw = (2 &&& 0xff) <<< 24 ||| (fs &&& 0x7fffff) ||| (fa.toNat <<< 23) := (Except.ok.inj h1).symm
      have f1 : (dw >>> 24) &&& 0xff = 2 := by rw [hdw]; fields
      have f2 : dw &&& 0x7fffff = fs := by rw [hdw]; fields; omega
      have f3 : decide (dw &&& (1 <<< 23) ≠ 0) = fa := by rw [hdw]; fields
      simp only [f1, f2, f3]
      rfl
    | fc =>
      simp only at h
      obtain ⟨rfl, g1, g2, g3, g4, g5, rfl, rfl⟩ := h
      have hc : type = 0x40 ∨ type = 0x50 ∨ type = 0x60 ∨ type = 0xC0 ∨ type = 0xD0 ∨ type = 0xE0 ∨
          type = 0x80 ∨ type = 0x90 ∨ type = 0xA0 := by
        unfold Spec.dllpKind at hk
        repeat' split at hk
        all_goals first | (cases hk; done) | assumption
      have hdw : dw = (((type &&& 0xff) <<< 24) |||
          ((vc &&& 0x7) <<< 24) ||| (df &&& 0xfff) ||| ((ds &&& 0x3) <<< 12)
          ||| ((hf &&& 0xff) <<< 14) ||| ((hs &&& 0x3) <<< 22)) := by
        rw [packDw_fc type vc hs hf ds df
          (by rcases hc with rfl | rfl | rfl | rfl | rfl | rfl | rfl | rfl | rfl <;> decide)] at h1
        exact (Except.ok.inj h1).symm
      have f0 : (dw >>> 24) &&& 0xff = type + vc := by
        rw [hdw]; fields
        have : type % 2 ^ 8 = type / 8 * 2 ^ 3 := by omega
        rw [this, Nat.or_comm, or_mul_add _ _ 3 (by omega)]; omega
      have f1 : (type + vc) &&& 0xf8 = type := by rw [and_f8]; omega
      have f2 : dw &&& 0xfff = df := by rw [hdw]; fields; omega
      have f3 : (dw >>> 12) &&& 0x3 = ds := by rw [hdw]; fields; omega
      have f4 : (dw >>> 14) &&& 0xff = hf := by rw [hdw]; fields; omega
      have f5 : (dw >>> 22) &&& 0x3 = hs := by rw [hdw]; fields; omega
      have f6 : (dw >>> 24) &&& 0x7 = vc := by
        have : (dw >>> 24) &&& 0x7 = ((dw >>> 24) &&& 0xff) % 2 ^ 3 := by fields
        rw [this, f0]; omega
      have n1 : ¬ (type + vc = ACK ∨ type + vc = NAK) := by simp only [ACK, NAK]; omega
      have n2 : type + vc ∉ plainTypes := by
        simp only [plainTypes, NOP, PM_ENTER_L1, PM_ENTER_L23, PM_ACT_ST_REQ_L1, PM_REQ_ACK, List.mem_cons,
          List.not_mem_nil, or_false]; omega
      have n3 : ¬ (type + vc = DATA_LINK_FEATURE) := by simp only [DATA_LINK_FEATURE]; omega
      have n4 : type ∈ fcTypes ∧ type ∈ types := by
        rcases hc with rfl | rfl | rfl | rfl | rfl | rfl | rfl | rfl | rfl <;> decide
      simp only [f0, f1, f2, f3, f4, f5, f6, n1, n2, n3, n4, if_true, if_false]

/-- C09: unpacking a packet produced by `pack_crc` gives the same DLLP back (and the CRC is accepted). -/
theorem C09_unpack_pack_crc (d : Dllp) (h : Spec.DllpEncodable d) :
    ∃ pkt, d.packCrc = .ok pkt ∧ pkt.length = 6 ∧ crc16 pkt = 0x556f ∧ unpackCrc pkt = .ok d := by
  obtain ⟨bs, h1, h2, h3⟩ := C09_pack_wire_format d h
  obtain ⟨pkt, h4, h5⟩ := C09_unpack_pack d h
  rw [h2] at h4; cases h4
  have hc := crc16_lt bs
  refine ⟨_, by simp only [packCrc, h2, bind, Except.bind]; rfl, by simp [h3], ?_⟩
  have hres : crc16 (bs ++ [UInt8.ofNat (0xffff ^^^ (crc16 bs &&& 0xffff)),
      UInt8.ofNat ((0xffff ^^^ (crc16 bs &&& 0xffff)) >>> 8)]) = 0x556f := by
    have e0 : crc16 bs &&& 0xffff = crc16 bs := by rw [and_m16, Nat.mod_eq_of_lt hc]
    rw [e0]
    have hx : 0xffff ^^^ crc16 bs < 2 ^ 16 := Nat.xor_lt_two_pow (by decide) hc
    have happ : ∀ l : List UInt8, crc16 (bs ++ l) = crc16 l (crc16 bs) := by
      intro l; simp only [crc16, List.foldl_append]
    have hle : le [UInt8.ofNat (0xffff ^^^ crc16 bs), UInt8.ofNat ((0xffff ^^^ crc16 bs) >>> 8)]
        = 0xffff ^^^ crc16 bs := by
      generalize 0xffff ^^^ crc16 bs = x at *
      apply Nat.eq_of_testBit_eq; intro i
      simp only [le, ofNat_toNat, Nat.zero_shiftLeft, Nat.xor_zero]
      rw [show (256 : Nat) = 2 ^ 8 from rfl, Nat.testBit_xor, Nat.testBit_shiftLeft, Nat.testBit_mod_two_pow,
        Nat.testBit_mod_two_pow, Nat.testBit_shiftRight]
      by_cases hi : i < 8
      · simp [hi, show ¬ 8 ≤ i by omega]
      · by_cases hi2 : i < 16
        · simp only [hi, show 8 ≤ i by omega, show i - 8 < 8 by omega, decide_true, decide_false, Bool.true_and,
            Bool.false_and, Bool.false_bne, Nat.add_sub_cancel' (show 8 ≤ i by omega)]
        · have : x.testBit i = false :=
            Nat.testBit_lt_two_pow (Nat.lt_of_lt_of_le hx (Nat.pow_le_pow_right (by omega) (by omega)))
          simp [hi, show ¬ i - 8 < 8 by omega, this]
    rw [happ, crc16_eq, hle, Nat.xor_comm 0xffff, ← Nat.xor_assoc, Nat.xor_self, Nat.zero_xor]
    show crcBits 0xD008 16 65535 = 21871
    decide +kernel
  refine ⟨hres, ?_⟩
  unfold unpackCrc
  have hlen : (bs ++ [UInt8.ofNat (0xffff ^^^ (crc16 bs &&& 0xffff)),
      UInt8.ofNat ((0xffff ^^^ (crc16 bs &&& 0xffff)) >>> 8)]).length = 6 := by simp [h3]
  rw [if_neg (by rw [hlen]; simp), if_neg (by rw [hres]; simp), ← h3, List.take_left, h5]

/-- C09: DLLPs of a type without an encoding are rejected by `pack`. -/
theorem C09_reject_pack (d : Dllp) (h : d.type ∈ types) (hk : Spec.dllpKind d.type = none) (pkt : List UInt8) :
    d.pack ≠ .ok pkt := by
  intro hp
  simp only [pack, bind, Except.bind] at hp
  have : d.packDw = .error "TODO" := by
    simp only [packDw]
    simp only [types, ACK, MR_INIT, DATA_LINK_FEATURE, NAK, PM_ENTER_L1, PM_ENTER_L23, PM_ACT_ST_REQ_L1, PM_REQ_ACK,
      VEND, NOP, INIT_FC1_P, INIT_FC1_NP, INIT_FC1_CPL, MR_INIT_FC1, INIT_FC2_P, INIT_FC2_NP, INIT_FC2_CPL,
      MR_INIT_FC2, UPDATE_FC_P, UPDATE_FC_NP, UPDATE_FC_CPL, MR_UPDATE_FC, List.mem_cons, List.not_mem_nil,
      or_false] at h
    generalize d.type = ty at *
    rcases h with rfl | rfl | rfl | rfl | rfl | rfl | rfl | rfl | rfl | rfl | rfl | rfl | rfl | rfl | rfl | rfl | rfl |
      rfl | rfl | rfl | rfl | rfl <;> first | (exfalso; revert hk; decide) | rfl
  rw [this] at hp; cases hp

/-- C09: a DLLP carries the credits of a flow control class exactly when its type code is that of an InitFC1 (1), UpdateFC (2)
or InitFC2 (3) in bits 7:6 with the class (0 posted, 1 non-posted, 2 completion) in bits 5:4 and zeros below. -/
theorem C09_fc_type (d : Dllp) (t : FcType) : d.fcType = some t ↔
    ∃ kind, 1 ≤ kind ∧ kind ≤ 3 ∧ d.type = 64 * kind + 16 * (match t with | .P => 0 | .NP => 1 | .CPL => 2) := by
  have e : (∃ kind, 1 ≤ kind ∧ kind ≤ 3 ∧ d.type = 64 * kind + 16 * (match t with | .P => 0 | .NP => 1 | .CPL => 2)) ↔
      d.type = 64 + 16 * (match t with | .P => 0 | .NP => 1 | .CPL => 2) ∨ d.type = 192 + 16 * (match t with | .P => 0 | .NP => 1 | .CPL => 2) ∨
      d.type = 128 + 16 * (match t with | .P => 0 | .NP => 1 | .CPL => 2) := by
    constructor
    · rintro ⟨k, h1, h2, h3⟩; omega
    · rintro (h | h | h)
      · exact ⟨1, by omega, by omega, h⟩
      · exact ⟨3, by omega, by omega, h⟩
      · exact ⟨2, by omega, by omega, h⟩
  rw [e]
  clear e
  unfold fcType
  have k : INIT_FC1_P = 64 ∧ INIT_FC2_P = 192 ∧ UPDATE_FC_P = 128 ∧ INIT_FC1_NP = 80 ∧ INIT_FC2_NP = 208 ∧ UPDATE_FC_NP = 144 ∧
    INIT_FC1_CPL = 96 ∧ INIT_FC2_CPL = 224 ∧ UPDATE_FC_CPL = 160 := by decide
  obtain ⟨k1, k2, k3, k4, k5, k6, k7, k8, k9⟩ := k
  split
  · cases t <;> simp <;> omega
  split
  · cases t <;> simp <;> omega
  split
  · cases t <;> simp <;> omega
  · cases t <;> simp <;> omega

example : fcType { type := UPDATE_FC_NP } = some .NP ∧ fcType { type := ACK } = none := by decide

/-- C09: whatever bytes are unpacked successfully, the result is an encodable DLLP (nothing is mis-decoded into
an out-of-range or mixed-up DLLP), and packing it again reproduces the meaningful bits: unpacking the re-packed
bytes yields the same DLLP. -/
theorem C09_unpack_encodable (pkt : List UInt8) (d : Dllp) (h : unpack pkt = .ok d) : Spec.DllpEncodable d := by
  simp only [unpack, bind, Except.bind] at h
  cases hu : Tlp.unpackL pkt 0 with
  | error e => simp [hu] at h
  | ok dw =>
    simp only [hu] at h
    have b1 : dw &&& 0xfff < 4096 := by rw [and_m12]; omega
    have b2 : dw &&& 0x7fffff < 2 ^ 23 := by rw [and_m23]; omega
    have b3 : (dw >>> 24) &&& 0x7 < 8 := by rw [and_m3]; omega
    have b4 : (dw >>> 12) &&& 0x3 < 4 := by rw [and_m2]; omega
    have b5 : (dw >>> 22) &&& 0x3 < 4 := by rw [and_m2]; omega
    have b6 : (dw >>> 14) &&& 0xff < 256 := by rw [and_m8]; omega
    generalize (dw >>> 24) &&& 0xff = ty at h
    by_cases c1 : ty = ACK ∨ ty = NAK
    · rw [if_pos c1] at h
      split at h
      · cases h
        have : Spec.dllpKind ty = some .ackNak := by rcases c1 with rfl | rfl <;> decide
        simp only [Spec.DllpEncodable, this]; simp [b1]
      · cases h
    · rw [if_neg c1] at h
      by_cases c2 : ty ∈ plainTypes
      · rw [if_pos c2] at h
        split at h
        · cases h
          have : Spec.dllpKind ty = some .plain := by
            simp only [plainTypes, List.mem_cons, List.not_mem_nil, or_false] at c2
            rcases c2 with rfl | rfl | rfl | rfl | rfl <;> decide
          simp only [Spec.DllpEncodable, this]; simp
        · cases h
      · rw [if_neg c2] at h
        by_cases c3 : ty = DATA_LINK_FEATURE
        · rw [if_pos c3] at h
          split at h
          · cases h
            have : Spec.dllpKind ty = some .feature := by subst c3; decide
            simp only [Spec.DllpEncodable, this]; simp [b2]
          · cases h
        · rw [if_neg c3] at h
          by_cases c4 : ty &&& 0xf8 ∈ fcTypes
          · rw [if_pos c4] at h
            split at h
            · cases h
              have : Spec.dllpKind (ty &&& 0xf8) = some .fc := by
                simp only [fcTypes, List.mem_cons, List.not_mem_nil, or_false] at c4
                generalize ty &&& 0xf8 = x at c4
                rcases c4 with rfl | rfl | rfl | rfl | rfl | rfl | rfl | rfl | rfl <;> decide
              simp only [Spec.DllpEncodable, this]; simp [b1, b3, b4, b5, b6]
            · cases h
          · rw [if_neg c4] at h
            simp at h

example : Spec.DllpEncodable { type := UPDATE_FC_NP, vc := 5, hdr_scale := 2, hdr_fc := 0xa7, data_scale := 1, data_fc := 0xabc } := by
  simp only [Spec.DllpEncodable, show Spec.dllpKind UPDATE_FC_NP = some .fc by decide]; decide

/-! ### C10 -/

/-- C10: a packet with a correct CRC that is hit by any error burst of at most 16 bits (in transmission order,
anywhere in the packet) is rejected. -/
theorem C10_crc_detects_bursts (pkt pkt' : List UInt8) (hok : crc16 pkt = 0x556f)
    (hb : Spec.BurstError 16 pkt pkt') : crc16 pkt' ≠ 0x556f := by
  obtain ⟨hlen, ⟨i, hi⟩, p, hp⟩ := hb
  intro hbad
  have hx : le pkt' = le pkt ^^^ (((le pkt ^^^ le pkt') >>> p) <<< p) := by
    apply Nat.eq_of_testBit_eq; intro j
    simp only [Nat.testBit_xor, Nat.testBit_shiftLeft, Nat.testBit_shiftRight]
    by_cases hj : p ≤ j
    · simp only [hj, decide_true, Bool.true_and, Nat.add_sub_cancel' hj]
      cases (le pkt).testBit j <;> cases (le pkt').testBit j <;> rfl
    · simp only [hj, decide_false, Bool.false_and, Bool.bne_false]
      rw [le_testBit, le_testBit]
      by_cases he : Spec.wireBit pkt j = Spec.wireBit pkt' j
      · exact he.symm
      · exact absurd (hp j he).1 hj
  have hi' := hp i hi
  have hBlt : (le pkt ^^^ le pkt') >>> p < 2 ^ 16 := by
    apply Nat.lt_pow_two_of_testBit
    intro j hj
    rw [Nat.testBit_shiftRight, Nat.testBit_xor, le_testBit, le_testBit]
    by_cases he : Spec.wireBit pkt (p + j) = Spec.wireBit pkt' (p + j)
    · rw [he]; simp
    · have := (hp _ he).2; omega
  have hB0 : (le pkt ^^^ le pkt') >>> p ≠ 0 := by
    intro h0
    have : ((le pkt ^^^ le pkt') >>> p).testBit (i - p) = false := by rw [h0, Nat.zero_testBit]
    rw [Nat.testBit_shiftRight, Nat.add_sub_cancel' hi'.1, Nat.testBit_xor, le_testBit, le_testBit] at this
    apply hi
    revert this; cases Spec.wireBit pkt i <;> cases Spec.wireBit pkt' i <;> simp
  have hpn : p ≤ 8 * pkt.length := by
    by_cases hlt : i < 8 * pkt.length
    · omega
    · exfalso; apply hi
      rw [← le_testBit, ← le_testBit]
      have h1 := le_lt pkt
      have h2 := le_lt pkt'
      rw [hlen] at h2
      have hle : 2 ^ (8 * pkt.length) ≤ 2 ^ i := Nat.pow_le_pow_right (by omega) (by omega)
      rw [Nat.testBit_lt_two_pow (Nat.lt_of_lt_of_le h1 hle), Nat.testBit_lt_two_pow (Nat.lt_of_lt_of_le h2 hle)]
  have hcrc : crc16 pkt' = crc16 pkt ^^^ crcBits 0xD008 (8 * pkt.length) (((le pkt ^^^ le pkt') >>> p) <<< p) := by
    rw [crc16_eq, crc16_eq, hlen, hx, ← Nat.xor_assoc, crcBits_xor, ← hx]
  rw [hok, hbad] at hcrc
  apply crcBits_burst (8 * pkt.length) p _ hBlt hB0 hpn
  have := congrArg (fun x => 0x556f ^^^ x) hcrc
  simp only [Nat.xor_self, ← Nat.xor_assoc, Nat.zero_xor] at this
  exact this.symm

/-- C10: every packet produced by `pack_crc` is accepted, and every packet obtained from it by flipping a single bit,
or by any burst of at most 16 consecutive bits, is rejected by `unpack_crc`. -/
theorem C10_unpack_crc (d : Dllp) (h : Spec.DllpEncodable d) :
    ∃ pkt, d.packCrc = .ok pkt ∧ unpackCrc pkt = .ok d ∧
      ∀ pkt', Spec.BurstError 16 pkt pkt' → unpackCrc pkt' = .error "Invalid CRC" := by
  obtain ⟨pkt, h1, h2, h3, h4⟩ := C09_unpack_pack_crc d h
  refine ⟨pkt, h1, h4, fun pkt' hb => ?_⟩
  have := C10_crc_detects_bursts pkt pkt' h3 hb
  unfold unpackCrc
  rw [if_neg (by rw [hb.1, h2]; simp), if_pos this]

/-- Single-bit errors are bursts. -/
theorem C10_single_bit_is_burst (pkt pkt' : List UInt8) (hl : pkt'.length = pkt.length) (i : Nat)
    (h : ∀ j, Spec.wireBit pkt j ≠ Spec.wireBit pkt' j ↔ j = i) : Spec.BurstError 16 pkt pkt' := by
  refine ⟨hl, ⟨i, (h i).2 rfl⟩, i, fun j hj => ?_⟩
  have := (h j).1 hj; omega

/-- A packet in the middle of which seven consecutive bits are inverted: the burst hypothesis is met. -/
example : Spec.BurstError 16 [0x40, 0, 1, 2, 252, 149] [0x40, 0, 0xf1, 5, 252, 149] ∧
    (Dllp.packCrc { type := 0x40, data_fc := 0x102 }).toOption = some [0x40, 0, 1, 2, 252, 149] := by
  refine ⟨⟨rfl, ⟨20, by decide⟩, 20, ?_⟩, by decide +kernel⟩
  intro i hi
  by_cases h : i < 48
  · have : ∀ j < 48, Spec.wireBit [0x40, 0, 1, 2, 252, 149] j ≠ Spec.wireBit [0x40, 0, 0xf1, 5, 252, 149] j → 20 ≤ j ∧ j < 36 := by
      decide
    exact this i h hi
  · exfalso; apply hi
    simp only [Spec.wireBit]
    rw [List.getElem?_eq_none_iff.2 (by simp; omega), List.getElem?_eq_none_iff.2 (by simp; omega)]

end Pcie
