/-
Helper lemmas for utils.py.
-/
import Verif.Lemmas.Arith
namespace Pcie

theorem byteMaskLoop_testBit (mask new : Nat) (k : Nat) (old i : Nat) :
    (byteMaskLoop mask new old (2 ^ k) (0xff <<< (8 * k))).testBit i =
      if k ≤ i / 8 ∧ mask.testBit (i / 8) then new.testBit i else old.testBit i := by
  induction hn : mask + 1 - 2 ^ k using Nat.strongRecOn generalizing k old with
  | _ n ih =>
    rw [byteMaskLoop]
    by_cases h : 0 < 2 ^ k ∧ 2 ^ k ≤ mask
    · rw [dif_pos h]
      simp only
      have e1 : 2 ^ k <<< 1 = 2 ^ (k + 1) := by rw [Nat.shiftLeft_eq]; rfl
      have e2 : 0xff <<< (8 * k) <<< 8 = 0xff <<< (8 * (k + 1)) := by rw [← Nat.shiftLeft_add]; rfl
      rw [e1, e2, ih (mask + 1 - 2 ^ (k + 1)) (by rw [Nat.pow_succ]; omega) (k + 1) _ rfl]
      have hbit : (mask &&& 2 ^ k ≠ 0) ↔ mask.testBit k = true := by
        have := and_bit_ne mask k
        rw [Nat.shiftLeft_eq, Nat.one_mul] at this
        rw [this, Nat.testBit_eq_decide_div_mod_eq]; simp
      have hm2 : (0xff <<< (8 * k)).testBit i = decide (i / 8 = k) := by
        rw [Nat.testBit_shiftLeft, show (0xff : Nat) = 2 ^ 8 - 1 from rfl, Nat.testBit_two_pow_sub_one, ← Bool.decide_and]
        rw [decide_eq_decide]; omega
      by_cases hk : k + 1 ≤ i / 8
      · have : k ≤ i / 8 := by omega
        simp only [hk, this, true_and]
        split
        · rfl
        · split
          · simp only [Nat.testBit_or, andNot_testBit, Nat.testBit_and, hm2, show ¬ (i / 8 = k) by omega,
              decide_false, Bool.not_false, Bool.and_true, Bool.and_false, Bool.or_false]
          · rfl
      · simp only [hk, false_and, if_false]
        by_cases hki : i / 8 = k
        · subst hki
          simp only [hbit, Nat.le_refl, true_and]
          split
          · simp only [Nat.testBit_or, andNot_testBit, Nat.testBit_and, hm2, decide_true, Bool.not_true,
              Bool.and_false, Bool.and_true, Bool.false_or]
          · rfl
        · have : ¬ (k ≤ i / 8) := by omega
          simp only [this, false_and, if_false]
          split
          · simp only [Nat.testBit_or, andNot_testBit, Nat.testBit_and, hm2, hki,
              decide_false, Bool.not_false, Bool.and_true, Bool.and_false, Bool.or_false]
          · rfl
    · rw [dif_neg h]
      have hlt : mask < 2 ^ k := by have := Nat.two_pow_pos k; omega
      by_cases hk : k ≤ i / 8
      · have : mask.testBit (i / 8) = false :=
          Nat.testBit_lt_two_pow (Nat.lt_of_lt_of_le hlt (Nat.pow_le_pow_right (by omega) hk))
        simp [this]
      · simp [hk]
end Pcie
