/-
Helper lemmas about byte enables.
-/
import Verif.Lemmas.Arith
import Verif.Spec.Bytes
namespace Pcie
open Tlp

theorem firstBe_testBit (r b : Nat) : ((0xf <<< r) &&& 0xf).testBit b = decide (r ≤ b ∧ b < 4) := by
  rw [Nat.testBit_and, Nat.testBit_shiftLeft, show (0xf : Nat) = 2 ^ 4 - 1 from rfl, Nat.testBit_two_pow_sub_one,
    Nat.testBit_two_pow_sub_one, ← Bool.decide_and, ← Bool.decide_and, decide_eq_decide]
  omega

theorem lastBe_testBit (l b : Nat) : (0xf >>> l).testBit b = decide (b + l < 4) := by
  rw [Nat.testBit_shiftRight, show (0xf : Nat) = 2 ^ 4 - 1 from rfl, Nat.testBit_two_pow_sub_one, decide_eq_decide]
  omega

/-- The dword count computed by `set_addr_be`. -/
theorem setAddrBe_len (addr length : Nat) :
    (length + addr % 4 + (3 - (addr + length + 3) % 4) + 3) / 4 =
      if length = 0 then (if addr % 4 = 0 then 0 else 1) else (addr % 4 + length + 3) / 4 := by
  split
  · split <;> omega
  · omega

theorem setAddrBe_zero (t : Tlp) (addr : Nat) :
    (t.setAddrBe addr 0).1 = { t with address := addr / 4 * 4, length := 1, first_be := 0, last_be := 0 } := by
  unfold setAddrBe
  simp only [setAddrBe_len, andNot_3, if_true]
  by_cases h : addr % 4 = 0
  · simp only [h, if_true]
  · simp only [h, if_false, if_true, Nat.one_ne_zero]
    congr 1
    apply Nat.eq_of_testBit_eq; intro i
    simp only [Nat.testBit_and (0xf <<< (addr % 4) &&& 0xf), firstBe_testBit, lastBe_testBit, Nat.zero_testBit, ← Bool.decide_and]
    simp only [decide_eq_false_iff_not]; omega

theorem setAddrBe_one (t : Tlp) (addr length : Nat) (h0 : 0 < length) (h : addr % 4 + length ≤ 4) :
    (t.setAddrBe addr length).1 = { t with
      address := addr / 4 * 4, length := 1,
      first_be := (0xf <<< (addr % 4) &&& 0xf) &&& 0xf >>> (4 - addr % 4 - length), last_be := 0 } := by
  unfold setAddrBe
  have hl : ¬ length = 0 := by omega
  have e : (addr % 4 + length + 3) / 4 = 1 := by omega
  have e2 : 3 - (addr + length + 3) % 4 = 4 - addr % 4 - length := by omega
  simp only [setAddrBe_len, andNot_3, hl, if_false, e, if_true, Nat.one_ne_zero]
  rw [e2]

theorem setAddrBe_many (t : Tlp) (addr length : Nat) (h : 4 < addr % 4 + length) :
    (t.setAddrBe addr length).1 = { t with
      address := addr / 4 * 4, length := (addr % 4 + length + 3) / 4,
      first_be := (0xf <<< (addr % 4) &&& 0xf), last_be := 0xf >>> (3 - (addr + length + 3) % 4) } := by
  unfold setAddrBe
  have hl : ¬ length = 0 := by omega
  have e : ¬ (addr % 4 + length + 3) / 4 = 1 := by omega
  have e2 : ¬ (addr % 4 + length + 3) / 4 = 0 := by omega
  simp only [setAddrBe_len, andNot_3, hl, if_false, e, e2]

theorem byteEnabled_setAddrBe (t : Tlp) (addr length a : Nat) :
    Spec.byteEnabled (t.setAddrBe addr length).1 a ↔ addr ≤ a ∧ a < addr + length := by
  unfold Spec.byteEnabled
  rcases Nat.eq_zero_or_pos length with h0 | h0
  · subst h0
    rw [setAddrBe_zero]
    simp only [Nat.zero_testBit]
    constructor
    · rintro ⟨h1, h2, h3⟩
      rw [if_pos (by omega)] at h3; cases h3
    · omega
  · by_cases h1 : addr % 4 + length ≤ 4
    · rw [setAddrBe_one t addr length h0 h1]
      simp only [Nat.testBit_and (0xf <<< (addr % 4) &&& 0xf), firstBe_testBit, lastBe_testBit, ← Bool.decide_and,
        decide_eq_true_eq]
      constructor
      · rintro ⟨h2, h3, h4⟩
        rw [if_pos (by omega)] at h4; omega
      · rintro ⟨h2, h3⟩
        refine ⟨by omega, by omega, ?_⟩
        rw [if_pos (by omega)]; omega
    · rw [setAddrBe_many t addr length (by omega)]
      simp only [firstBe_testBit, lastBe_testBit, decide_eq_true_eq]
      constructor
      · rintro ⟨h2, h3, h4⟩
        split at h4
        · omega
        · split at h4
          · omega
          · omega
      · rintro ⟨h2, h3⟩
        refine ⟨by omega, by omega, ?_⟩
        split
        · omega
        · split
          · omega
          · trivial

theorem be_cases (r l : Nat) (h : r + l < 4) :
    (r = 0 ∧ l = 0) ∨ (r = 0 ∧ l = 1) ∨ (r = 0 ∧ l = 2) ∨ (r = 0 ∧ l = 3) ∨ (r = 1 ∧ l = 0) ∨ (r = 1 ∧ l = 1)
    ∨ (r = 1 ∧ l = 2) ∨ (r = 2 ∧ l = 0) ∨ (r = 2 ∧ l = 1) ∨ (r = 3 ∧ l = 0) := by omega

theorem offsets_setAddrBe (t : Tlp) (addr length : Nat) (h0 : 0 < length) :
    (t.setAddrBe addr length).1.firstBeOffset = addr % 4 ∧
    (t.setAddrBe addr length).1.lastBeOffset = 3 - (addr + length + 3) % 4 := by
  by_cases h1 : addr % 4 + length ≤ 4
  · rw [setAddrBe_one t addr length h0 h1]
    unfold firstBeOffset lastBeOffset
    simp only [if_true]
    have e2 : 3 - (addr + length + 3) % 4 = 4 - addr % 4 - length := by omega
    rw [e2]
    have hlt : addr % 4 + (4 - addr % 4 - length) < 4 := by omega
    clear e2
    generalize 4 - addr % 4 - length = l at *
    generalize addr % 4 = r at *
    rcases be_cases r l hlt with h | h | h | h | h | h | h | h | h | h <;> obtain ⟨rfl, rfl⟩ := h <;> simp
  · rw [setAddrBe_many t addr length (by omega)]
    unfold firstBeOffset lastBeOffset
    have e : ¬ (addr % 4 + length + 3) / 4 = 1 := by omega
    simp only [e, if_false]
    constructor
    · have : addr % 4 < 4 := by omega
      generalize addr % 4 = r at *
      rcases (show r = 0 ∨ r = 1 ∨ r = 2 ∨ r = 3 by omega) with h | h | h | h <;> subst h <;> simp
    · generalize hl : 3 - (addr + length + 3) % 4 = l at *
      rcases (show l = 0 ∨ l = 1 ∨ l = 2 ∨ l = 3 by omega) with h | h | h | h <;> subst h <;> simp

end Pcie
