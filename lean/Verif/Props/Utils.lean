/-
C01-C03: alignment, byte-masked update, PCIe IDs.
-/
import Verif.Lemmas.Utils
import Verif.Lemmas.Tlp
namespace Pcie

/-! ### C01 -/

/-- C01: with `mask = 2^k - 1`, `align val mask` is the least multiple of `2^k` that is at least `val`. -/
theorem C01_align_least_multiple (val k : Nat) :
    2 ^ k ∣ align val (2 ^ k - 1) ∧ val ≤ align val (2 ^ k - 1) ∧
    ∀ m, 2 ^ k ∣ m → val ≤ m → align val (2 ^ k - 1) ≤ m := by
  have hp := Nat.two_pow_pos k
  have hd := Nat.div_add_mod val (2 ^ k)
  have hm := Nat.mod_lt val hp
  unfold align
  rw [and_mask_eq]
  split
  · rename_i h
    have e : val + (2 ^ k - 1) + 1 - val % 2 ^ k = 2 ^ k * (val / 2 ^ k + 1) := by
      rw [Nat.mul_add, Nat.mul_one]; omega
    rw [e]
    refine ⟨Nat.dvd_mul_right _ _, by rw [Nat.mul_add]; omega, ?_⟩
    rintro m ⟨c, rfl⟩ hc
    apply Nat.mul_le_mul_left
    by_cases hlt : val / 2 ^ k + 1 ≤ c
    · exact hlt
    · have : c ≤ val / 2 ^ k := by omega
      have := Nat.mul_le_mul_left (2 ^ k) this
      omega
  · rename_i h
    exact ⟨Nat.dvd_of_mod_eq_zero (by omega), Nat.le_refl _, fun m _ h => h⟩

/-- C01: an aligned value is returned unchanged. -/
theorem C01_align_fixed (val k : Nat) (h : 2 ^ k ∣ val) : align val (2 ^ k - 1) = val := by
  obtain ⟨h1, h2, h3⟩ := C01_align_least_multiple val k
  exact Nat.le_antisymm (h3 val h (Nat.le_refl _)) h2

example : align 0x12345 (2 ^ 12 - 1) = 0x13000 ∧ align 0x13000 (2 ^ 12 - 1) = 0x13000 := by decide

/-! ### C02 -/

/-- C02: bit `i` of the result comes from `new` exactly when its byte is enabled and the bit is writable
(`bitmask = none` is the default -1: every bit is writable). -/
theorem C02_byte_mask_update (old mask new : Nat) (bitmask : Option Nat) (i : Nat) :
    (byteMaskUpdate old mask new bitmask).testBit i =
      if mask.testBit (i / 8) ∧ (∀ b, bitmask = some b → b.testBit i) then new.testBit i else old.testBit i := by
  have key := fun n => byteMaskLoop_testBit mask n 0 old i
  simp only [Nat.pow_zero, Nat.mul_zero, Nat.shiftLeft_zero, Nat.zero_le, true_and] at key
  unfold byteMaskUpdate
  simp only
  rw [key]
  cases bitmask with
  | none => simp
  | some b =>
    simp only [Option.some.injEq, forall_eq', Nat.testBit_or, Nat.testBit_and, andNot_testBit]
    cases hm : mask.testBit (i / 8) <;> cases hb : b.testBit i <;> simp

example : byteMaskUpdate 0x11223344 0x5 0xaabbccdd (some 0x00ffff0f) = 0x11bb334d := by decide +kernel

/-! ### C03 -/

/-- C03: construction succeeds exactly for in-range components, and keeps them. -/
theorem C03_pcieid_range (b d f : Nat) (p : PcieId) :
    PcieId.mk? b d f = some p ↔ (b ≤ 255 ∧ d ≤ 31 ∧ f ≤ 7 ∧ p = ⟨b, d, f⟩) := by
  unfold PcieId.mk?
  repeat' split
  · simp; omega
  · simp; omega
  · simp; omega
  · simp only [Option.some.injEq]
    constructor
    · rintro rfl; exact ⟨by omega, by omega, by omega, rfl⟩
    · rintro ⟨-, -, -, rfl⟩; rfl

/-- C03: decoding an encoded ID gives the ID back. -/
theorem C03_from_int_to_int (p : PcieId) (h : p.bus ≤ 255 ∧ p.device ≤ 31 ∧ p.function ≤ 7) :
    PcieId.fromInt p.toInt = p ∧ p.toInt < 2 ^ 16 := by
  refine ⟨fromInt_eq p h _ ?_, toInt_lt p⟩
  rw [toInt_eq]; omega

/-- C03: encoding a decoded 16-bit value gives the value back, and the decoded components pass the range check. -/
theorem C03_to_int_from_int (v : Nat) (h : v < 2 ^ 16) :
    (PcieId.fromInt v).toInt = v ∧
    PcieId.mk? (PcieId.fromInt v).bus (PcieId.fromInt v).device (PcieId.fromInt v).function
      = some (PcieId.fromInt v) := by
  constructor
  · rw [toInt_eq]
    simp only [PcieId.fromInt, and_m3, and_m5, and_m8, Nat.shiftRight_eq_div_pow]; omega
  · rw [C03_pcieid_range]
    simp only [PcieId.fromInt, and_m3, and_m5, and_m8]
    exact ⟨by omega, by omega, by omega, trivial⟩

/-- C03: distinct IDs have distinct encodings. -/
theorem C03_no_alias (p q : PcieId) (hp : p.Valid) (hq : q.Valid) (h : p.toInt = q.toInt) : p = q := by
  rw [← (C03_from_int_to_int p hp).1, ← (C03_from_int_to_int q hq).1, h]

/-- C03: the integer encoding is the standard one, bus in bits 15:8, device in 7:3, function in 2:0. -/
theorem C03_encoding (p : PcieId) (h : p.Valid) : p.toInt = p.bus * 256 + p.device * 8 + p.function := by
  rw [toInt_eq]; simp only [PcieId.Valid] at h; omega

example : (⟨0x12, 0x1f, 5⟩ : PcieId).Valid ∧ (⟨0x12, 0x1f, 5⟩ : PcieId).toInt = 0x12fd := by decide

end Pcie
