import Verif.Lemmas.UsSink
/-
The marks of starts and ends of frames in an UltraScale transaction.
-/
namespace Pcie
namespace Us
open Spec

theorem marks_of {b : Bus} (hl : 1 ≤ b.lanes) {ps : List (Option (UsFrame × Nat))} (hok : SlotsOk b ps) {sop eop : Nat}
    (hs : ∀ x, sop.testBit x = true ↔ ∃ s f, (s, f) ∈ starts 0 ps ∧ x = s * b.lanes)
    (he : ∀ x, eop.testBit x = true ↔ x ∈ ends b.lanes 0 ps) : MarksOk b 0 sop eop ps := by
  have key : ∀ k r k' r', k < b.lanes → k' < b.lanes → k + r * b.lanes = k' + r' * b.lanes → k = k' ∧ r = r' := by
    intro k r k' r' h1 h2 h
    have e1 : (k + r * b.lanes) % b.lanes = k := by rw [Nat.add_mul_mod_self_right, Nat.mod_eq_of_lt h1]
    have e2 : (k' + r' * b.lanes) % b.lanes = k' := by rw [Nat.add_mul_mod_self_right, Nat.mod_eq_of_lt h2]
    have e : k = k' := by rw [← e1, h, e2]
    subst e
    exact ⟨rfl, Nat.eq_of_mul_eq_mul_right hl (by omega)⟩
  intro r k hr hk
  rw [Nat.zero_add, hs, he, ends_mem]
  constructor
  · constructor
    · rintro ⟨s, f, hm, hx⟩
      obtain ⟨rfl, rfl⟩ := key k r 0 s hk hl (by omega)
      have := (starts_mem ps 0 r f).mp hm
      exact ⟨rfl, f, this.2⟩
    · rintro ⟨rfl, f, hf⟩
      exact ⟨r, f, (starts_mem ps 0 r f).mpr ⟨Nat.zero_le _, hf⟩, by omega⟩
  · constructor
    · rintro ⟨r', f, off, h1, h2, h3⟩
      have ho := (hok f off (List.mem_of_getElem? h1)).2
      rw [Nat.zero_add] at h3
      obtain ⟨rfl, rfl⟩ := key k r _ r' hk (by omega) h3
      exact ⟨f, off, h1, by omega⟩
    · rintro ⟨f, off, h1, h2⟩
      exact ⟨r, f, off, h1, by omega, by rw [Nat.zero_add]; congr 1; omega⟩

theorem rd_user (b : Bus) (t : Txn) (c : Fld) (hc : c.word = 2) (i : Nat) : rd b t c i = (t.tuser >>> (b.base c + i * b.wid c)) &&& (2 ^ b.wid c - 1) := by
  rw [rd, hc]; rfl

theorem rd_bit0 (b : Bus) (t : Txn) (c : Fld) (hc : c.word = 2) (hw : 0 < b.wid c) (i : Nat) : t.tuser.testBit (b.base c + i * b.wid c) = (rd b t c i).testBit 0 := by
  rw [rd_testBit, hc]
  simp [hw, get]

theorem markWide_sop (b : Bus) (u : Nat) : ∀ (ks : List Nat) (s e x : Nat), (markWide b u ks s e).1.testBit x = true ↔
    s.testBit x = true ∨ ∃ k ∈ ks, u.testBit (b.sop + k) = true ∧ x = ((u >>> (b.sopPtr + k * 2)) &&& 0x3) * 4
  | [], s, e, x => by simp [markWide]
  | k :: ks, s, e, x => by
    rw [markWide, markWide_sop b u ks]
    simp only [bit_ne]
    by_cases h : u.testBit (b.sop + k) = true
    · simp only [h, if_true, Nat.testBit_or, shift_bit, Bool.or_eq_true, decide_eq_true_eq, List.mem_cons]
      constructor
      · rintro ((h1 | h1) | ⟨k', h1, h2⟩)
        · exact .inl h1
        · exact .inr ⟨k, .inl rfl, h, h1⟩
        · exact .inr ⟨k', .inr h1, h2⟩
      · rintro (h1 | ⟨k', rfl | h1, h2, h3⟩)
        · exact .inl (.inl h1)
        · exact .inl (.inr h3)
        · exact .inr ⟨k', h1, h2, h3⟩
    · simp only [h, Bool.false_eq_true, if_false, List.mem_cons]
      constructor
      · rintro (h1 | ⟨k', h1, h2⟩)
        · exact .inl h1
        · exact .inr ⟨k', .inr h1, h2⟩
      · rintro (h1 | ⟨k', rfl | h1, h2, h3⟩)
        · exact .inl h1
        · exact absurd h2 h
        · exact .inr ⟨k', h1, h2, h3⟩

theorem markWide_eop (b : Bus) (u : Nat) : ∀ (ks : List Nat) (s e x : Nat), (markWide b u ks s e).2.testBit x = true ↔
    e.testBit x = true ∨ ∃ k ∈ ks, u.testBit (b.eop + k) = true ∧ x = (u >>> (b.eopPtr + k * 4)) &&& 0xf
  | [], s, e, x => by simp [markWide]
  | k :: ks, s, e, x => by
    rw [markWide, markWide_eop b u ks]
    simp only [bit_ne]
    by_cases h : u.testBit (b.eop + k) = true
    · simp only [h, if_true, Nat.testBit_or, shift_bit, Bool.or_eq_true, decide_eq_true_eq, List.mem_cons]
      constructor
      · rintro ((h1 | h1) | ⟨k', h1, h2⟩)
        · exact .inl h1
        · exact .inr ⟨k, .inl rfl, h, h1⟩
        · exact .inr ⟨k', .inr h1, h2⟩
      · rintro (h1 | ⟨k', rfl | h1, h2, h3⟩)
        · exact .inl (.inl h1)
        · exact .inl (.inr h3)
        · exact .inr ⟨k', h1, h2, h3⟩
    · simp only [h, Bool.false_eq_true, if_false, List.mem_cons]
      constructor
      · rintro (h1 | ⟨k', h1, h2⟩)
        · exact .inl h1
        · exact .inr ⟨k', .inr h1, h2⟩
      · rintro (h1 | ⟨k', rfl | h1, h2, h3⟩)
        · exact .inl h1
        · exact absurd h2 h
        · exact .inr ⟨k', h1, h2, h3⟩

theorem markEop_bits (u : Nat) : ∀ (ks : List Nat) (e x : Nat), (markEop u ks e).testBit x = true ↔
    e.testBit x = true ∨ ∃ k ∈ ks, u.testBit (34 + k * 4) = true ∧ x = (u >>> (35 + k * 4)) &&& 0x7
  | [], e, x => by simp [markEop]
  | k :: ks, e, x => by
    rw [markEop, markEop_bits u ks]
    simp only [bit_ne]
    by_cases h : u.testBit (34 + k * 4) = true
    · simp only [h, if_true, Nat.testBit_or, shift_bit, Bool.or_eq_true, decide_eq_true_eq, List.mem_cons]
      constructor
      · rintro ((h1 | h1) | ⟨k', h1, h2⟩)
        · exact .inl h1
        · exact .inr ⟨k, .inl rfl, h, h1⟩
        · exact .inr ⟨k', .inr h1, h2⟩
      · rintro (h1 | ⟨k', rfl | h1, h2, h3⟩)
        · exact .inl (.inl h1)
        · exact .inl (.inr h3)
        · exact .inr ⟨k', h1, h2, h3⟩
    · simp only [h, Bool.false_eq_true, if_false, List.mem_cons]
      constructor
      · rintro (h1 | ⟨k', h1, h2⟩)
        · exact .inl h1
        · exact .inr ⟨k', .inr h1, h2⟩
      · rintro (h1 | ⟨k', rfl | h1, h2, h3⟩)
        · exact .inl h1
        · exact absurd h2 h
        · exact .inr ⟨k', h1, h2, h3⟩

/-- The value of a start field. -/
theorem read_start {b : Bus} {t : Txn} {ps : List (Option (UsFrame × Nat))} (hr : Reads b t ps) {c : Fld} (hc : c.byStart b = true) {i : Nat} (hi : i < b.num c) :
    rd b t c i = match (starts 0 ps)[i]? with | some (s, f) => val (sopP b f s i) c i | none => 0 := by
  rw [hr c i hi, val_start hc, if_neg (by omega), Nat.sub_zero]
  rfl

theorem read_end {b : Bus} {t : Txn} {ps : List (Option (UsFrame × Nat))} (hr : Reads b t ps) {c : Fld} (hc : c.eops = true) {i : Nat} (hi : i < b.num c) :
    rd b t c i = match (ends b.lanes 0 ps)[i]? with | some l => val (eopP b i l) c i | none => 0 := by
  rw [hr c i hi, val_end hc, if_neg (by omega), Nat.sub_zero]
  rfl

theorem num_wide {b : Bus} (h : UsBus b) (hw : b.width = 512) : b.segs ≤ b.num .sop ∧ b.segs ≤ b.num .sopPtr ∧ b.segs ≤ b.num .eop ∧ b.segs ≤ b.num .eopPtr := by
  obtain ⟨_, h2, _⟩ := bus_facts h
  have := (h2 hw).2.2
  simp only [Bus.num, loc, hw, if_true]
  omega

theorem marks_wide {b : Bus} (h : UsBus b) (hw : b.width = 512) {t : Txn} {ps : List (Option (UsFrame × Nat))} (hr : Reads b t ps) (hok : SlotsOk b ps) (hlen : ps.length = b.segs) (busy : Bool) :
    MarksOk b 0 (marks b t.tuser busy).1 (marks b t.tuser busy).2 ps := by
  obtain ⟨n1, n2, n3, n4⟩ := num_wide h hw
  obtain ⟨_, hl, _⟩ := table_lanes h
  have hl4 := ((bus_facts h).2.1 hw).2.1
  rw [marks, if_pos hw]
  have hsop : ∀ k, k < b.segs → (t.tuser.testBit (b.sop + k) = true ↔ k < (starts 0 ps).length) := by
    intro k hk
    have e := rd_bit0 b t .sop rfl (by simp [Bus.wid, loc, hw]) k
    rw [read_start hr (by simp [Fld.byStart, Fld.sops]) (by omega)] at e
    have e2 : b.base .sop + k * b.wid .sop = b.sop + k := by simp [Bus.base, Bus.wid, loc, hw]
    rw [e2] at e
    rw [e]
    cases hx : (starts 0 ps)[k]? with
    | none => have := List.getElem?_eq_none_iff.mp hx; simp; omega
    | some v =>
      have := (List.getElem?_eq_some_iff.mp hx).1
      simp only [this, iff_true]
      cases hk : b.kind <;> simp [sopP, hw, hk, val]
  have hptr : ∀ k s f, (starts 0 ps)[k]? = some (s, f) → k < b.segs → ((t.tuser >>> (b.sopPtr + k * 2)) &&& 0x3) * 4 = s * b.lanes := by
    intro k s f hx hk
    have e := rd_user b t .sopPtr rfl k
    rw [read_start hr (by simp [Fld.byStart, Fld.sops]) (by omega), hx] at e
    have e2 : b.base .sopPtr + k * b.wid .sopPtr = b.sopPtr + k * 2 := by simp [Bus.base, Bus.wid, loc, hw]
    have e3 : 2 ^ b.wid .sopPtr - 1 = 3 := by simp [Bus.wid, loc, hw]
    rw [e2, e3] at e
    rw [← e]
    have : val (sopP b f s k) .sopPtr k = s * b.lanes / 4 := by
      cases hk : b.kind <;> simp [sopP, hw, hk, val]
    simp only [this]
    apply Nat.div_mul_cancel
    exact Nat.dvd_trans (Nat.dvd_of_mod_eq_zero hl4) (Nat.dvd_mul_left _ _)
  have heop : ∀ k, k < b.segs → (t.tuser.testBit (b.eop + k) = true ↔ k < (ends b.lanes 0 ps).length) := by
    intro k hk
    have e := rd_bit0 b t .eop rfl (by simp [Bus.wid, loc, hw]) k
    rw [read_end hr (by simp [Fld.eops]) (by omega)] at e
    have e2 : b.base .eop + k * b.wid .eop = b.eop + k := by simp [Bus.base, Bus.wid, loc, hw]
    rw [e2] at e
    rw [e]
    cases hx : (ends b.lanes 0 ps)[k]? with
    | none => have := List.getElem?_eq_none_iff.mp hx; simp; omega
    | some v =>
      have := (List.getElem?_eq_some_iff.mp hx).1
      simp [this, eopP, hw, val]
  have heptr : ∀ k l, (ends b.lanes 0 ps)[k]? = some l → k < b.segs → (t.tuser >>> (b.eopPtr + k * 4)) &&& 0xf = l := by
    intro k l hx hk
    have e := rd_user b t .eopPtr rfl k
    rw [read_end hr (by simp [Fld.eops]) (by omega), hx] at e
    have e2 : b.base .eopPtr + k * b.wid .eopPtr = b.eopPtr + k * 4 := by simp [Bus.base, Bus.wid, loc, hw]
    have e3 : 2 ^ b.wid .eopPtr - 1 = 15 := by simp [Bus.wid, loc, hw]
    rw [e2, e3] at e
    rw [← e]
    simp [eopP, hw, val]
  have hsl := starts_length ps 0
  have hel := ends_length b.lanes ps 0
  apply marks_of hl hok
  · intro x
    rw [markWide_sop]
    simp only [Nat.zero_testBit, Bool.false_eq_true, false_or, List.mem_range]
    constructor
    · rintro ⟨k, hk, h1, h2⟩
      have h3 := (hsop k hk).mp h1
      rcases hsf : (starts 0 ps)[k] with ⟨s, f⟩
      have h4 : (starts 0 ps)[k]? = some (s, f) := by rw [List.getElem?_eq_getElem h3, hsf]
      refine ⟨s, f, List.mem_of_getElem? h4, ?_⟩
      rw [h2, hptr k s f h4 hk]
    · rintro ⟨s, f, h1, h2⟩
      obtain ⟨k, hk⟩ := List.mem_iff_getElem?.mp h1
      have hkl := (List.getElem?_eq_some_iff.mp hk).1
      exact ⟨k, by omega, (hsop k (by omega)).mpr hkl, by rw [h2, hptr k s f hk (by omega)]⟩
  · intro x
    rw [markWide_eop]
    simp only [Nat.zero_testBit, Bool.false_eq_true, false_or, List.mem_range]
    constructor
    · rintro ⟨k, hk, h1, h2⟩
      have h3 := (heop k hk).mp h1
      rw [h2, heptr k _ (List.getElem?_eq_getElem h3) hk]
      exact List.getElem_mem h3
    · intro h1
      obtain ⟨k, hk⟩ := List.mem_iff_getElem?.mp h1
      have hkl := (List.getElem?_eq_some_iff.mp hk).1
      exact ⟨k, by omega, (heop k (by omega)).mpr hkl, by rw [heptr k _ hk (by omega)]⟩

/-- The first slot continues a frame. -/
def busyOf (ps : List (Option (UsFrame × Nat))) : Bool := match ps with | some (_, off) :: _ => decide (off ≠ 0) | _ => false

theorem marks_rc {b : Bus} (h : UsBus b) (hk : b.kind = .rc) (hw : b.width = 256) (hs : b.segs = 2) (hl4 : b.lanes = 4) {t : Txn} {ps : List (Option (UsFrame × Nat))} (hr : Reads b t ps)
    (hok : SlotsOk b ps) (hwo : WalkOk b.lanes true ps) (hlen : ps.length = b.segs) : MarksOk b 0 (marks b t.tuser (busyOf ps)).1 (marks b t.tuser (busyOf ps)).2 ps := by
  have hnw : b.width ≠ 512 := by omega
  have n1 : b.num .sop = 2 := by simp [Bus.num, loc, hnw, hk]
  have n2 : b.num .eopN = 2 := by simp [Bus.num, loc, hnw, hk]
  have hsop : ∀ k, k < 2 → (t.tuser.testBit (32 + k) = true ↔ k < (starts 0 ps).length) := by
    intro k hk2
    have e := rd_bit0 b t .sop rfl (by simp [Bus.wid, loc, hnw, hk]) k
    rw [read_start hr (by simp [Fld.byStart, Fld.sops]) (by omega)] at e
    have e2 : b.base .sop + k * b.wid .sop = 32 + k := by simp [Bus.base, Bus.wid, loc, hnw, hk]
    rw [e2] at e
    rw [e]
    cases hx : (starts 0 ps)[k]? with
    | none => have := List.getElem?_eq_none_iff.mp hx; simp; omega
    | some v =>
      have := (List.getElem?_eq_some_iff.mp hx).1
      simp [this, sopP, hnw, hk, val]
  have hfld : ∀ k, k < 2 → rd b t .eopN k = match (ends b.lanes 0 ps)[k]? with | some l => 1 ||| l <<< 1 | none => 0 := by
    intro k hk2
    rw [read_end hr (by simp [Fld.eops]) (by omega)]
    cases hx : (ends b.lanes 0 ps)[k]? with
    | none => rfl
    | some l => simp [eopP, hnw, hk, val]
  have heop : ∀ k, k < 2 → (t.tuser.testBit (34 + k * 4) = true ↔ k < (ends b.lanes 0 ps).length) := by
    intro k hk2
    have e := rd_bit0 b t .eopN rfl (by simp [Bus.wid, loc, hnw, hk]) k
    rw [hfld k hk2] at e
    have e2 : b.base .eopN + k * b.wid .eopN = 34 + k * 4 := by simp [Bus.base, Bus.wid, loc, hnw, hk]
    rw [e2] at e
    rw [e]
    cases hx : (ends b.lanes 0 ps)[k]? with
    | none => have := List.getElem?_eq_none_iff.mp hx; simp; omega
    | some v =>
      have := (List.getElem?_eq_some_iff.mp hx).1
      simp [this]
  have heptr : ∀ k l, (ends b.lanes 0 ps)[k]? = some l → k < 2 → (t.tuser >>> (35 + k * 4)) &&& 0x7 = l := by
    intro k l hx hk2
    have e := hfld k hk2
    rw [hx] at e
    apply Nat.eq_of_testBit_eq
    intro j
    rw [show (7 : Nat) = 2 ^ 3 - 1 from rfl, Nat.and_two_pow_sub_one_eq_mod, Nat.testBit_mod_two_pow, Nat.testBit_shiftRight]
    have e2 := congrArg (fun y => y.testBit (j + 1)) e
    simp only at e2
    rw [rd_testBit] at e2
    have e3 : b.wid .eopN = 4 := by simp [Bus.wid, loc, hnw, hk]
    have e4 : b.base .eopN = 34 := by simp [Bus.base, loc, hnw, hk]
    rw [e3, e4] at e2
    have e5 : (1 ||| l <<< 1).testBit (j + 1) = l.testBit j := by
      rw [Nat.testBit_or, Nat.testBit_shiftLeft]
      have : (1 : Nat).testBit (j + 1) = false := by simp [Nat.testBit_succ]
      simp [this]
    rw [e5] at e2
    rw [← e2]
    have e6 : 34 + k * 4 + (j + 1) = 35 + k * 4 + j := by omega
    rw [e6]
    congr 1
    apply decide_eq_decide.mpr; omega
  have hel := ends_length b.lanes ps 0
  have hlen2 : ps.length = 2 := by omega
  apply marks_of (by omega) hok
  · intro x
    rw [marks, if_neg hnw]
    have b0 := hsop 0 (by omega)
    have b1 := hsop 1 (by omega)
    have c0 := bit_ne t.tuser 32
    have c1 : (t.tuser &&& 2 <<< 32 ≠ 0) ↔ t.tuser.testBit 33 = true := bit_ne t.tuser 33
    simp only [c0, c1, b0, b1, Nat.zero_or]
    match ps, hlen2, hwo with
    | [none, _], _, hwo => simp [WalkOk] at hwo
    | [some (f, off), none], _, _ =>
      by_cases h0 : off = 0
      · subst h0
        simp [starts, busyOf, hl4, shift_bit, -Nat.testBit_shiftLeft]
        rw [show (1 : Nat) = 1 <<< 0 from rfl, shift_bit]; simp
      · simp [starts, h0]
    | [some (f, off), some (g, o)], _, hwo =>
      by_cases h0 : off = 0 <;> by_cases h1 : o = 0
      · subst h0 h1
        simp [starts, busyOf, hl4, shift_bit, -Nat.testBit_shiftLeft]
        rw [show (17 : Nat) = 1 <<< 0 ||| 1 <<< 4 from rfl, Nat.testBit_or, shift_bit, shift_bit]
        simp only [Bool.or_eq_true, decide_eq_true_eq]
        constructor
        · rintro (h | h)
          · exact ⟨0, ⟨f, .inl ⟨rfl, rfl⟩⟩, h⟩
          · exact ⟨1, ⟨g, .inr ⟨rfl, rfl⟩⟩, h⟩
        · rintro ⟨s, ⟨f', ⟨rfl, _⟩ | ⟨rfl, _⟩⟩, hx⟩
          · exact .inl hx
          · exact .inr hx
      · subst h0
        simp [starts, busyOf, hl4, h1]
        rw [show (1 : Nat) = 1 <<< 0 from rfl, shift_bit]; simp
      · subst h1
        simp [starts, busyOf, hl4, h0, shift_bit, -Nat.testBit_shiftLeft]
        rw [show (16 : Nat) = 1 <<< 4 from rfl, shift_bit]; simp
      · simp [starts, h0, h1]
  · intro x
    rw [marks, if_neg hnw]
    rw [markEop_bits, hs]
    simp only [Nat.zero_testBit, Bool.false_eq_true, false_or, List.mem_range]
    constructor
    · rintro ⟨k, hk, h1, h2⟩
      have h3 := (heop k hk).mp h1
      rw [h2, heptr k _ (List.getElem?_eq_getElem h3) hk]
      exact List.getElem_mem h3
    · intro h1
      obtain ⟨k, hk⟩ := List.mem_iff_getElem?.mp h1
      have hkl := (List.getElem?_eq_some_iff.mp hk).1
      exact ⟨k, by omega, (heop k (by omega)).mpr hkl, by rw [heptr k _ hk (by omega)]⟩

end Us
end Pcie
