/-
Helper lemmas: first and last enabled byte of an arbitrary request.
-/
import Verif.Lemmas.MemRead
namespace Pcie
open Tlp

theorem first_lane (fb : Nat) (h : fb % 16 ≠ 0) :
    let o := if fb &&& 0x7 = 0 then 3 else if fb &&& 0x3 = 0 then 2 else if fb &&& 0x1 = 0 then 1 else 0
    fb.testBit o = true ∧ ∀ j, j < o → fb.testBit j = false := by
  have key : ∀ x : Nat, x < 16 → x ≠ 0 →
      let o := if x &&& 0x7 = 0 then 3 else if x &&& 0x3 = 0 then 2 else if x &&& 0x1 = 0 then 1 else 0
      x.testBit o = true ∧ ∀ j, j < o → x.testBit j = false := by decide
  have h := key (fb % 2 ^ 4) (by omega) h
  have e : ∀ m, m &&& 0xf = m → fb % 2 ^ 4 &&& m = fb &&& m := by
    intro m hm
    rw [← and_m4, Nat.and_assoc, Nat.and_comm 0xf m, hm]
  simp only at h ⊢
  rw [e 7 rfl, e 3 rfl, e 1 rfl] at h
  have ho : (if fb &&& 0x7 = 0 then 3 else if fb &&& 0x3 = 0 then 2 else if fb &&& 0x1 = 0 then 1 else 0) < 4 := by
    repeat' split
    all_goals omega
  generalize (if fb &&& 0x7 = 0 then 3 else if fb &&& 0x3 = 0 then 2 else if fb &&& 0x1 = 0 then 1 else 0) = o at *
  simp only [Nat.testBit_mod_two_pow] at h
  refine ⟨by simpa [ho] using h.1, fun j hj => ?_⟩
  have := h.2 j hj
  simpa [show j < 4 by omega] using this

theorem last_lane (fb : Nat) (h : fb % 16 ≠ 0) :
    let o := if fb &&& 0xf = 0x1 then 3 else if fb &&& 0xe = 0x2 then 2 else if fb &&& 0xc = 0x4 then 1 else 0
    fb.testBit (3 - o) = true ∧ ∀ j, j < 4 → 3 - o < j → fb.testBit j = false := by
  have key : ∀ x : Nat, x < 16 → x ≠ 0 →
      let o := if x &&& 0xf = 0x1 then 3 else if x &&& 0xe = 0x2 then 2 else if x &&& 0xc = 0x4 then 1 else 0
      x.testBit (3 - o) = true ∧ ∀ j, j < 4 → 3 - o < j → x.testBit j = false := by decide
  have h := key (fb % 2 ^ 4) (by omega) h
  have e : ∀ m, m &&& 0xf = m → fb % 2 ^ 4 &&& m = fb &&& m := by
    intro m hm
    rw [← and_m4, Nat.and_assoc, Nat.and_comm 0xf m, hm]
  simp only at h ⊢
  rw [e 0xf rfl, e 0xe rfl, e 0xc rfl] at h
  generalize (if fb &&& 0xf = 0x1 then 3 else if fb &&& 0xe = 0x2 then 2 else if fb &&& 0xc = 0x4 then 1 else 0) = o at *
  simp only [Nat.testBit_mod_two_pow] at h
  refine ⟨by simpa [show 3 - o < 4 by omega] using h.1, fun j hj h2 => ?_⟩
  have := h.2 j hj h2
  simpa [hj] using this

theorem firstEnabled_offset (t : Tlp) (h : Spec.BeLegal t) : Spec.FirstEnabled t (t.address + t.firstBeOffset) := by
  obtain ⟨h1, h2, h3⟩ := h
  have hl := first_lane t.first_be h2
  have hle := be_first_le t
  change t.first_be.testBit t.firstBeOffset = true ∧ ∀ j, j < t.firstBeOffset → t.first_be.testBit j = false at hl
  generalize t.firstBeOffset = o at *
  constructor
  · refine ⟨by omega, ?_⟩
    simp only [Nat.add_sub_cancel_left]
    refine ⟨by omega, ?_⟩
    rw [if_pos (by omega), Nat.mod_eq_of_lt (by omega)]; exact hl.1
  · intro b hb
    obtain ⟨b1, b2, b3⟩ := hb
    by_cases hc : b < t.address + o
    · rw [if_pos (by omega), Nat.mod_eq_of_lt (by omega), hl.2 _ (by omega)] at b3
      cases b3
    · omega

theorem lastEnabled_offset (t : Tlp) (h : Spec.BeLegal t) :
    Spec.LastEnabled t (t.address + 4 * t.length - 1 - t.lastBeOffset) := by
  obtain ⟨h1, h2, h3⟩ := h
  have hle := be_last_le t
  have hl : let x := if t.length = 1 then t.first_be else t.last_be
      x.testBit (3 - t.lastBeOffset) = true ∧ ∀ j, j < 4 → 3 - t.lastBeOffset < j → x.testBit j = false := by
    refine last_lane _ ?_
    by_cases hc : t.length = 1
    · rw [if_pos hc]; exact h2
    · rw [if_neg hc]; exact h3 hc
  simp only at hl
  generalize t.lastBeOffset = o at *
  have key : ∀ b, t.address + 4 * t.length - 4 ≤ b → b < t.address + 4 * t.length →
      (Spec.byteEnabled t b ↔ (if t.length = 1 then t.first_be else t.last_be).testBit (b - (t.address + 4 * t.length - 4)) = true) := by
    intro b hb1 hb2
    unfold Spec.byteEnabled
    simp only
    have e1 : (b - t.address) / 4 = t.length - 1 := by omega
    have e2 : (b - t.address) % 4 = b - (t.address + 4 * t.length - 4) := by omega
    rw [e1, e2]
    by_cases hc : t.length = 1
    · simp only [hc]
      simp; omega
    · simp only [hc, show ¬ (t.length - 1 = 0) by omega, if_false, if_true]
      constructor
      · intro h; exact h.2.2
      · intro h; exact ⟨by omega, by omega, h⟩
  constructor
  · rw [key _ (by omega) (by omega)]
    rw [show t.address + 4 * t.length - 1 - o - (t.address + 4 * t.length - 4) = 3 - o by omega]
    exact hl.1
  · intro b hb
    have hb2 : b < t.address + 4 * t.length := by
      obtain ⟨b1, b2, -⟩ := hb; omega
    by_cases hc : b ≤ t.address + 4 * t.length - 1 - o
    · exact hc
    · rw [key b (by omega) hb2, hl.2 _ (by omega) (by omega)] at hb
      cases hb

theorem first_unique {t : Tlp} {a b : Nat} (ha : Spec.FirstEnabled t a) (hb : Spec.FirstEnabled t b) : a = b := by
  have h1 := ha.2 b hb.1
  have h2 := hb.2 a ha.1
  omega

theorem last_unique {t : Tlp} {a b : Nat} (ha : Spec.LastEnabled t a) (hb : Spec.LastEnabled t b) : a = b := by
  have h1 := ha.2 b hb.1
  have h2 := hb.2 a ha.1
  omega

/-- First byte and byte count, as the completer decodes them, in terms of the enabled bytes. -/
theorem be_decode (t : Tlp) (h : Spec.BeLegal t) (first last : Nat) (hf : Spec.FirstEnabled t first)
    (hl : Spec.LastEnabled t last) : t.address + t.firstBeOffset = first ∧ t.beByteCount = last - first + 1 := by
  have e1 := first_unique hf (firstEnabled_offset t h)
  have e2 := last_unique hl (lastEnabled_offset t h)
  obtain ⟨b1, b2⟩ := be_count t h.1
  refine ⟨e1.symm, ?_⟩
  rw [b1, e1, e2]; omega

end Pcie
