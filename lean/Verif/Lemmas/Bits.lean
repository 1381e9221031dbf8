/-
Bit-level helper lemmas: masks as remainders, field extraction from OR-ed words.
-/
import Verif.Model.Utils
namespace Pcie

/-! Masks as `% 2^w`. -/
theorem and_mask_eq (x w : Nat) : x &&& (2 ^ w - 1) = x % 2 ^ w := Nat.and_two_pow_sub_one_eq_mod x w

section
variable (x : Nat)
theorem and_m1  : x &&& 0x1 = x % 2^1 := and_mask_eq x 1
theorem and_m2  : x &&& 0x3 = x % 2^2 := and_mask_eq x 2
theorem and_m3  : x &&& 0x7 = x % 2^3 := and_mask_eq x 3
theorem and_m4  : x &&& 0xf = x % 2^4 := and_mask_eq x 4
theorem and_m5  : x &&& 0x1f = x % 2^5 := and_mask_eq x 5
theorem and_m6  : x &&& 0x3f = x % 2^6 := and_mask_eq x 6
theorem and_m7  : x &&& 0x7f = x % 2^7 := and_mask_eq x 7
theorem and_m8  : x &&& 0xff = x % 2^8 := and_mask_eq x 8
theorem and_m9  : x &&& 0x1ff = x % 2^9 := and_mask_eq x 9
theorem and_m10 : x &&& 0x3ff = x % 2^10 := and_mask_eq x 10
theorem and_m11 : x &&& 0x7ff = x % 2^11 := and_mask_eq x 11
theorem and_m12 : x &&& 0xfff = x % 2^12 := and_mask_eq x 12
theorem and_m13 : x &&& 0x1fff = x % 2^13 := and_mask_eq x 13
theorem and_m16 : x &&& 0xffff = x % 2^16 := and_mask_eq x 16
theorem and_m23 : x &&& 0x7fffff = x % 2^23 := and_mask_eq x 23
theorem and_m24 : x &&& 0xffffff = x % 2^24 := and_mask_eq x 24
theorem and_m32 : x &&& 0xffffffff = x % 2^32 := and_mask_eq x 32
theorem and_m64 : x &&& 0xffffffffffffffff = x % 2^64 := and_mask_eq x 64
end

theorem andNot_testBit (a b i : Nat) : (andNot a b).testBit i = (a.testBit i && !b.testBit i) := by
  simp only [andNot, Nat.testBit_xor, Nat.testBit_and]
  cases a.testBit i <;> cases b.testBit i <;> rfl

end Pcie
