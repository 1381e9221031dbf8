/-
Extracting fields from words built by OR-ing shifted fields: a `simp only` set, used through the macro `fields`.
-/
import Verif.Lemmas.Arith
namespace Pcie

section
variable (f w s k v : Nat)

theorem fld_eq_div_mod : f >>> s % 2 ^ w = f / 2 ^ s % 2 ^ w := by rw [Nat.shiftRight_eq_div_pow]

theorem shl_shr_ge (h : k ≤ s) : (f <<< s) >>> k = f <<< (s - k) := by
  have : s = (s - k) + k := by omega
  conv => lhs; rw [this, Nat.shiftLeft_add, Nat.shiftLeft_shiftRight]

theorem shl_shr_le (h : s ≤ k) : (f <<< s) >>> k = f >>> (k - s) := by
  have : k = s + (k - s) := by omega
  conv => lhs; rw [this, Nat.shiftRight_add, Nat.shiftLeft_shiftRight]

theorem mod_shr_zero (h : w ≤ k) : (f % 2 ^ w) >>> k = 0 := by
  rw [Nat.shiftRight_eq_div_pow]
  apply Nat.div_eq_of_lt
  exact Nat.lt_of_lt_of_le (Nat.mod_lt _ (Nat.two_pow_pos w)) (Nat.pow_le_pow_right (by omega) h)

theorem shl_mod_zero (h : v ≤ s) : (f <<< s) % 2 ^ v = 0 := by
  rw [Nat.shiftLeft_eq]
  have : 2 ^ s = 2 ^ v * 2 ^ (s - v) := by rw [← Nat.pow_add]; congr 1; omega
  rw [this, ← Nat.mul_assoc, Nat.mul_right_comm, Nat.mul_mod_left]

theorem mod_mod_le (h : w ≤ v) : f % 2 ^ w % 2 ^ v = f % 2 ^ w :=
  Nat.mod_eq_of_lt (Nat.lt_of_lt_of_le (Nat.mod_lt _ (Nat.two_pow_pos w)) (Nat.pow_le_pow_right (by omega) h))

theorem mod_mod_ge (h : v ≤ w) : f % 2 ^ w % 2 ^ v = f % 2 ^ v :=
  Nat.mod_mod_of_dvd _ (Nat.pow_dvd_pow 2 h)

theorem mod_shr : (f % 2 ^ w) >>> k = (f >>> k) % 2 ^ (w - k) := by
  apply Nat.eq_of_testBit_eq; intro i
  simp only [Nat.testBit_shiftRight, Nat.testBit_mod_two_pow]
  congr 1; simp only [decide_eq_decide]; omega

theorem shl_mod (h : s ≤ v) : (f <<< s) % 2 ^ v = (f % 2 ^ (v - s)) <<< s := by
  apply Nat.eq_of_testBit_eq; intro i
  simp only [Nat.testBit_shiftLeft, Nat.testBit_mod_two_pow]
  by_cases hi : s ≤ i
  · simp only [hi, decide_true, Bool.true_and]
    congr 1; simp only [decide_eq_decide]; omega
  · simp [hi]

theorem and_bit_shl (x : Nat) : x &&& 2 ^ k = ((x >>> k) % 2 ^ 1) <<< k := by
  rw [and_pow, Nat.shiftLeft_eq, Nat.shiftRight_eq_div_pow]

theorem and_himask_shl (x : Nat) : x &&& ((2 ^ w - 1) * 2 ^ k) = ((x >>> k) % 2 ^ w) <<< k := by
  rw [and_himask, Nat.shiftLeft_eq, Nat.shiftRight_eq_div_pow]

theorem bit_test (x : Nat) : decide (x &&& (1 <<< k) ≠ 0) = decide ((x >>> k) % 2 ^ 1 = 1) := by
  rw [Nat.shiftRight_eq_div_pow]; simp only [decide_eq_decide]; exact and_bit_ne x k

end

theorem toNat_mod (b : Bool) (v : Nat) (h : 1 ≤ v) : b.toNat % 2 ^ v = b.toNat := by
  apply Nat.mod_eq_of_lt
  have : 2 ^ 1 ≤ 2 ^ v := Nat.pow_le_pow_right (by omega) h
  have := toNat_le_one b; omega

theorem toNat_shr (b : Bool) (k : Nat) (h : 1 ≤ k) : b.toNat >>> k = 0 := by
  rw [Nat.shiftRight_eq_div_pow]
  apply Nat.div_eq_of_lt
  have : 2 ^ 1 ≤ 2 ^ k := Nat.pow_le_pow_right (by omega) h
  have := toNat_le_one b; omega

theorem toNat_eq_one_dec (b : Bool) : decide (b.toNat = 1) = b := by cases b <;> rfl

section
variable (x : Nat)
theorem and_s4 : x &&& 0x4 = ((x >>> 2) % 2 ^ 1) <<< 2 := and_bit_shl 2 x
theorem and_s100 : x &&& 0x100 = ((x >>> 8) % 2 ^ 1) <<< 8 := and_bit_shl 8 x
theorem and_s200 : x &&& 0x200 = ((x >>> 9) % 2 ^ 1) <<< 9 := and_bit_shl 9 x
theorem and_sf8 : x &&& 0xf8 = ((x >>> 3) % 2 ^ 5) <<< 3 := and_himask_shl 5 3 x
theorem and_sffc : x &&& 0xffc = ((x >>> 2) % 2 ^ 10) <<< 2 := and_himask_shl 10 2 x
theorem and_sfffffffc : x &&& 0xfffffffc = ((x >>> 2) % 2 ^ 30) <<< 2 := and_himask_shl 30 2 x
theorem and_s64c : x &&& 0xfffffffffffffffc = ((x >>> 2) % 2 ^ 62) <<< 2 := and_himask_shl 62 2 x
end

/-- Normalise `(word >>> k) &&& mask` where `word` is an OR of shifted, masked fields. -/
macro "fields" : tactic => `(tactic|
  simp (discharger := omega) only [and_m1, and_m2, and_m3, and_m4, and_m5, and_m6, and_m7, and_m8, and_m9, and_m10, and_m11, and_m12,
    and_m13, and_m16, and_m23, and_m24, and_m32, and_m64,
    and_s4, and_s100, and_s200, and_sf8, and_sffc, and_sfffffffc, and_s64c, bit_test,
    Nat.shiftRight_or_distrib, Nat.shiftLeft_or_distrib, Nat.or_mod_two_pow, ← Nat.shiftLeft_add, ← Nat.shiftRight_add,
    Nat.reduceAdd, Nat.reduceSub, shl_shr_ge, shl_shr_le, mod_shr_zero, shl_mod_zero, mod_mod_le, mod_mod_ge,
    mod_shr, shl_mod, toNat_mod, toNat_shr, toNat_eq_one_dec, Nat.zero_or, Nat.or_zero,
    Nat.shiftLeft_zero, Nat.shiftRight_zero, Nat.zero_shiftLeft, Nat.zero_shiftRight, Nat.zero_mod,
    Nat.mod_one, Nat.pow_zero, Nat.or_assoc])

end Pcie
