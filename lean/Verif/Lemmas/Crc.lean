/-
CRC theory: the CRC register update is GF(2)-linear and injective on 16-bit states.
-/
import Verif.Lemmas.Arith
import Verif.Spec.Dllp
namespace Pcie

/-- One shift of the CRC register, on a register of unbounded width. -/
def crcShift (c : Nat) : Nat := if c &&& 1 ≠ 0 then (c >>> 1) ^^^ 0xD008 else c >>> 1

theorem crcBits_succ (n c : Nat) : crcBits 0xD008 (n + 1) c = crcBits 0xD008 n (crcShift c) := rfl

theorem crcShift_testBit (c i : Nat) :
    (crcShift c).testBit i = ((c.testBit (i + 1)) ^^ (c.testBit 0 && Nat.testBit 0xD008 i)) := by
  unfold crcShift
  have h : (c &&& 1 ≠ 0) ↔ c.testBit 0 = true := by
    rw [and_m1]; simp only [Nat.testBit_zero, decide_eq_true_eq]; omega
  split
  · rename_i h1
    rw [h] at h1
    simp [Nat.testBit_xor, Nat.testBit_shiftRight, h1, Nat.add_comm]
  · rename_i h1
    rw [h] at h1
    have h1 : c.testBit 0 = false := by simpa using h1
    rw [h1]
    simp [Nat.testBit_shiftRight, Nat.add_comm]

theorem crcShift_xor (a b : Nat) : crcShift (a ^^^ b) = crcShift a ^^^ crcShift b := by
  apply Nat.eq_of_testBit_eq; intro i
  simp only [Nat.testBit_xor, crcShift_testBit]
  cases a.testBit (i+1) <;> cases b.testBit (i+1) <;> cases a.testBit 0 <;> cases b.testBit 0 <;>
    cases Nat.testBit 0xD008 i <;> rfl

theorem crcBits_xor (n a b : Nat) : crcBits 0xD008 n (a ^^^ b) = crcBits 0xD008 n a ^^^ crcBits 0xD008 n b := by
  induction n generalizing a b with
  | zero => rfl
  | succ n ih => simp only [crcBits_succ, crcShift_xor, ih]

theorem crcShift_shl (x : Nat) : crcShift (x <<< 1) = x := by
  apply Nat.eq_of_testBit_eq; intro i
  rw [crcShift_testBit]
  simp [Nat.testBit_shiftLeft]

theorem crcBits_shl (n x : Nat) : crcBits 0xD008 n (x <<< n) = x := by
  induction n generalizing x with
  | zero => rfl
  | succ n ih => rw [crcBits_succ, Nat.shiftLeft_add, crcShift_shl, ih]

theorem crcBits_add (m n x : Nat) : crcBits 0xD008 (m + n) x = crcBits 0xD008 n (crcBits 0xD008 m x) := by
  induction m generalizing x with
  | zero => rw [Nat.zero_add]; rfl
  | succ m ih => rw [Nat.add_right_comm, crcBits_succ, ih, crcBits_succ]

/-- Little-endian integer value of a packet. -/
def le : List UInt8 → Nat
  | [] => 0
  | b :: bs => b.toNat ^^^ (le bs <<< 8)

theorem crc16_eq (data : List UInt8) (c : Nat) :
    crc16 data c = crcBits 0xD008 (8 * data.length) (c ^^^ le data) := by
  induction data generalizing c with
  | nil => simp [crc16, le, crcBits]
  | cons d ds ih =>
    have : crc16 (d :: ds) c = crc16 ds (crcBits 0xD008 8 (c ^^^ d.toNat)) := rfl
    rw [this, ih]
    have e : crcBits 0xD008 8 (c ^^^ d.toNat) ^^^ le ds = crcBits 0xD008 8 (c ^^^ (le (d :: ds))) := by
      rw [le, ← Nat.xor_assoc, crcBits_xor 8 _ (le ds <<< 8), crcBits_shl]
    rw [e, ← crcBits_add]
    congr 1
    simp only [List.length_cons]; omega

theorem crcShift_lt (c : Nat) (h : c < 2 ^ 16) : crcShift c < 2 ^ 16 := by
  unfold crcShift
  have : c >>> 1 < 2 ^ 16 := by rw [Nat.shiftRight_eq_div_pow]; omega
  split
  · exact Nat.xor_lt_two_pow this (by decide)
  · exact this

theorem crcBits_lt (n c : Nat) (h : c < 2 ^ 16) : crcBits 0xD008 n c < 2 ^ 16 := by
  induction n generalizing c with
  | zero => exact h
  | succ n ih => rw [crcBits_succ]; exact ih _ (crcShift_lt c h)

theorem crcShift_ne_zero (c : Nat) (h : c < 2 ^ 16) (h0 : c ≠ 0) : crcShift c ≠ 0 := by
  intro hz
  have hb := crcShift_testBit c 15
  rw [hz, Nat.zero_testBit, Nat.testBit_lt_two_pow (show c < 2 ^ (15 + 1) from h)] at hb
  have h15 : Nat.testBit 0xD008 15 = true := by decide
  rw [h15] at hb
  have hc0 : c.testBit 0 = false := by
    revert hb; cases c.testBit 0 <;> simp
  apply h0
  apply Nat.eq_of_testBit_eq; intro i
  rw [Nat.zero_testBit]
  cases i with
  | zero => exact hc0
  | succ i =>
    have := crcShift_testBit c i
    rw [hz, Nat.zero_testBit, hc0] at this
    revert this; cases c.testBit (i + 1) <;> simp

theorem crcBits_ne_zero (n c : Nat) (h : c < 2 ^ 16) (h0 : c ≠ 0) : crcBits 0xD008 n c ≠ 0 := by
  induction n generalizing c with
  | zero => exact h0
  | succ n ih => rw [crcBits_succ]; exact ih _ (crcShift_lt c h) (crcShift_ne_zero c h h0)

/-- A burst of at most 16 bits, shifted through any number of bits that covers it, leaves a non-zero register. -/
theorem crcBits_burst (n p B : Nat) (hB : B < 2 ^ 16) (h0 : B ≠ 0) (hp : p ≤ n) :
    crcBits 0xD008 n (B <<< p) ≠ 0 := by
  have : n = p + (n - p) := by omega
  rw [this, crcBits_add, crcBits_shl]
  exact crcBits_ne_zero _ _ hB h0

theorem crc16_lt (data : List UInt8) : crc16 data < 2 ^ 16 := by
  have : ∀ c, c < 2 ^ 16 → crc16 data c < 2 ^ 16 := by
    induction data with
    | nil => intro c h; exact h
    | cons d ds ih =>
      intro c h
      show crc16 ds (crcBits 0xD008 8 (c ^^^ d.toNat)) < _
      apply ih
      apply crcBits_lt
      apply Nat.xor_lt_two_pow h
      have := d.toNat_lt; omega
  exact this _ (by decide)

theorem le_testBit (pkt : List UInt8) (i : Nat) : (le pkt).testBit i = Spec.wireBit pkt i := by
  induction pkt generalizing i with
  | nil => simp [le, Spec.wireBit]
  | cons b bs ih =>
    rw [le, Nat.testBit_xor, Nat.testBit_shiftLeft]
    by_cases h : 8 ≤ i
    · have hb : b.toNat.testBit i = false := by
        apply Nat.testBit_lt_two_pow
        have := b.toNat_lt
        exact Nat.lt_of_lt_of_le this (Nat.pow_le_pow_right (by omega) h)
      rw [hb, ih]
      simp only [h, decide_true, Bool.true_and, Bool.false_bne, Spec.wireBit]
      have e1 : i / 8 = (i - 8) / 8 + 1 := by omega
      have e2 : i % 8 = (i - 8) % 8 := by omega
      rw [e1, e2, List.getElem?_cons_succ]
    · have e1 : i / 8 = 0 := by omega
      have e2 : i % 8 = i := by omega
      simp [h, Spec.wireBit, e1, e2]

theorem le_append (a b : List UInt8) : le (a ++ b) = le a ^^^ (le b <<< (8 * a.length)) := by
  induction a with
  | nil => simp [le]
  | cons x xs ih =>
    rw [List.cons_append, le, le, ih, Nat.shiftLeft_xor_distrib, ← Nat.shiftLeft_add, ← Nat.xor_assoc]
    simp only [List.length_cons]
    congr 2

theorem le_lt (pkt : List UInt8) : le pkt < 2 ^ (8 * pkt.length) := by
  apply Nat.lt_pow_two_of_testBit
  intro i hi
  rw [le_testBit, Spec.wireBit]
  have : pkt[i / 8]? = none := by rw [List.getElem?_eq_none_iff]; omega
  rw [this]

end Pcie
