import Verif.Model.Frames
import Verif.Spec.Parity
import Mathlib.Tactic.IntervalCases
/- Lemmas for C41. -/
namespace Pcie
open Spec

/-- The value after the three folding steps. -/
def fold3 (d : Nat) : Nat :=
  let d := d ^^^ (d >>> 4)
  let d := d ^^^ (d >>> 2)
  d ^^^ (d >>> 1)

theorem fold3_bit (d k : Nat) : (fold3 d).testBit (8 * k) = decide (OddByte d k) := by
  simp only [fold3, Nat.testBit_xor, Nat.testBit_shiftRight, OddByte, show List.range 8 = [0, 1, 2, 3, 4, 5, 6, 7] from rfl,
    List.countP_cons, List.countP_nil,
    show 4 + 8 * k = 8 * k + 4 by omega, show 2 + 8 * k = 8 * k + 2 by omega, show 4 + (8 * k + 2) = 8 * k + 6 by omega,
    show 1 + 8 * k = 8 * k + 1 by omega, show 4 + (8 * k + 1) = 8 * k + 5 by omega, show 2 + (8 * k + 1) = 8 * k + 3 by omega,
    show 4 + (8 * k + 3) = 8 * k + 7 by omega, Nat.add_zero]
  generalize d.testBit (8 * k) = b0
  generalize d.testBit (8 * k + 1) = b1
  generalize d.testBit (8 * k + 2) = b2
  generalize d.testBit (8 * k + 3) = b3
  generalize d.testBit (8 * k + 4) = b4
  generalize d.testBit (8 * k + 5) = b5
  generalize d.testBit (8 * k + 6) = b6
  generalize d.testBit (8 * k + 7) = b7
  revert b0 b1 b2 b3 b4 b5 b6 b7
  decide

theorem par_and_bit_ne (d n : Nat) : (d &&& 2 ^ n ≠ 0) ↔ d.testBit n = true := by
  rw [Nat.and_two_pow]
  cases d.testBit n
  · simp
  · simp

theorem dwordParity_bit (d k : Nat) : (dwordParity d).testBit k = (decide (k < 4) && decide (OddByte d k)) := by
  have h0 := fold3_bit d 0
  have h1 := fold3_bit d 1
  have h2 := fold3_bit d 2
  have h3 := fold3_bit d 3
  have he : dwordParity d =
      (let p := fold3 d &&& 0x1
       let p := if fold3 d &&& 0x100 ≠ 0 then p ||| 0x2 else p
       let p := if fold3 d &&& 0x10000 ≠ 0 then p ||| 0x4 else p
       if fold3 d &&& 0x1000000 ≠ 0 then p ||| 0x8 else p) := rfl
  rw [he]
  generalize fold3 d = e at *
  have a1 : (e &&& 0x100 ≠ 0) ↔ e.testBit 8 = true := par_and_bit_ne e 8
  have a2 : (e &&& 0x10000 ≠ 0) ↔ e.testBit 16 = true := par_and_bit_ne e 16
  have a3 : (e &&& 0x1000000 ≠ 0) ↔ e.testBit 24 = true := par_and_bit_ne e 24
  have a0 : e &&& 0x1 = (e.testBit 0).toNat := by
    have := Nat.and_two_pow e 0
    simpa using this
  simp only [a0, a1, a2, a3]
  simp only [Nat.mul_zero, Nat.mul_one, Nat.reduceMul] at h0 h1 h2 h3
  rw [h0, h1, h2, h3]
  rcases k with _ | _ | _ | _ | k
  · by_cases b0 : OddByte d 0 <;> by_cases b1 : OddByte d 1 <;> by_cases b2 : OddByte d 2 <;> by_cases b3 : OddByte d 3 <;>
      simp [b0, b1, b2, b3] <;> decide
  · by_cases b0 : OddByte d 0 <;> by_cases b1 : OddByte d 1 <;> by_cases b2 : OddByte d 2 <;> by_cases b3 : OddByte d 3 <;>
      simp [b0, b1, b2, b3] <;> decide
  · by_cases b0 : OddByte d 0 <;> by_cases b1 : OddByte d 1 <;> by_cases b2 : OddByte d 2 <;> by_cases b3 : OddByte d 3 <;>
      simp [b0, b1, b2, b3] <;> decide
  · by_cases b0 : OddByte d 0 <;> by_cases b1 : OddByte d 1 <;> by_cases b2 : OddByte d 2 <;> by_cases b3 : OddByte d 3 <;>
      simp [b0, b1, b2, b3] <;> decide
  · have hlt : ∀ x : Nat, x < 16 → x.testBit (k + 1 + 1 + 1 + 1) = false := fun x hx =>
      Nat.testBit_lt_two_pow (Nat.lt_of_lt_of_le hx (by
        rw [show k + 1 + 1 + 1 + 1 = 4 + k by omega, Nat.pow_add]
        exact Nat.le_mul_of_pos_right 16 (Nat.two_pow_pos k)))
    rw [hlt]
    · simp
    · by_cases b0 : OddByte d 0 <;> by_cases b1 : OddByte d 1 <;> by_cases b2 : OddByte d 2 <;> by_cases b3 : OddByte d 3 <;>
        simp [b0, b1, b2, b3]

theorem parityLoop_bit (d : Nat) : ∀ (j p k : Nat), (parityLoop d (2 ^ j) p).testBit k =
    (p.testBit k || (decide (j ≤ k) && d.testBit (8 * (k - j)))) := by
  induction d using Nat.strongRecOn with
  | _ d ih =>
    intro j p k
    unfold parityLoop
    by_cases hd : d = 0
    · simp [hd]
    · have hs : (2 : Nat) ^ j <<< 1 = 2 ^ (j + 1) := by rw [Nat.shiftLeft_eq]; rfl
      rw [dif_neg hd, hs, ih _ (by rw [Nat.shiftRight_eq_div_pow]; omega)]
      have h1 : (d &&& 0x1 ≠ 0) ↔ d.testBit 0 = true := par_and_bit_ne d 0
      simp only [h1, Nat.testBit_shiftRight]
      by_cases hk : j = k
      · subst hk
        cases hb : d.testBit 0 <;> simp [hb]
      · by_cases hjk : j + 1 ≤ k
        · rw [show 8 + 8 * (k - (j + 1)) = 8 * (k - j) by omega]
          have : decide (j ≤ k) = true := by simp; omega
          rw [this]
          cases hb : d.testBit 0 <;> simp [hjk, hk]
        · have : decide (j ≤ k) = false := by simp; omega
          rw [this]
          cases hb : d.testBit 0 <;> simp [hjk, hk]

theorem parityOf_bit (d k : Nat) : (parityOf d).testBit k = decide (OddByte d k) := by
  have := parityLoop_bit (fold3 d) 0 0 k
  rw [← fold3_bit]
  have he : parityOf d = parityLoop (fold3 d) (2 ^ 0) 0 := rfl
  rw [he, this]
  simp

/-- Inverting a bit changes the parity of its byte. -/
theorem oddByte_flip (d b : Nat) : OddByte (d ^^^ 2 ^ b) (b / 8) ↔ ¬ OddByte d (b / 8) := by
  obtain ⟨k, i, hi, rfl⟩ : ∃ k i, i < 8 ∧ b = 8 * k + i := ⟨b / 8, b % 8, by omega, by omega⟩
  rw [show (8 * k + i) / 8 = k by omega]
  simp only [OddByte, Nat.testBit_xor, Nat.testBit_two_pow, show List.range 8 = [0, 1, 2, 3, 4, 5, 6, 7] from rfl,
    List.countP_cons, List.countP_nil, Nat.add_left_cancel_iff]
  generalize d.testBit (8 * k + 0) = b0
  generalize d.testBit (8 * k + 1) = b1
  generalize d.testBit (8 * k + 2) = b2
  generalize d.testBit (8 * k + 3) = b3
  generalize d.testBit (8 * k + 4) = b4
  generalize d.testBit (8 * k + 5) = b5
  generalize d.testBit (8 * k + 6) = b6
  generalize d.testBit (8 * k + 7) = b7
  clear d k
  interval_cases i <;> revert b0 b1 b2 b3 b4 b5 b6 b7 <;> decide

theorem dwordParity_flip {d b : Nat} (hb : b < 32) : dwordParity (d ^^^ 2 ^ b) ≠ dwordParity d := by
  intro h
  have := congrArg (fun x => x.testBit (b / 8)) h
  simp only [dwordParity_bit, oddByte_flip, show b / 8 < 4 by omega, decide_true, Bool.true_and] at this
  by_cases ho : OddByte d (b / 8) <;> simp [ho] at this

theorem parityOf_flip (d b : Nat) : parityOf (d ^^^ 2 ^ b) ≠ parityOf d := by
  intro h
  have := congrArg (fun x => x.testBit (b / 8)) h
  simp only [parityOf_bit, oddByte_flip] at this
  by_cases ho : OddByte d (b / 8) <;> simp [ho] at this

theorem xor_pow_ne (p b : Nat) : p ^^^ 2 ^ b ≠ p := by
  intro h
  have := congrArg (fun x => x.testBit b) h
  simp only [Nat.testBit_xor, Nat.testBit_two_pow_self] at this
  cases hb : p.testBit b <;> simp [hb] at this

theorem flip_data {data parity : List Nat} (h : parity = data.map fun d => dwordParity d ^^^ 0xf) {i b : Nat} (hi : i < data.length)
    (hb : b < 32) : parity ≠ (flipAt data i b).map fun d => dwordParity d ^^^ 0xf := by
  intro hc
  rw [h] at hc
  have h1 := congrArg (fun l => l[i]?) hc
  simp only [List.getElem?_map, flipAt, List.getElem?_modify, List.getElem?_eq_getElem hi, Option.map_some, if_true] at h1
  have h2 : dwordParity data[i] ^^^ 15 = dwordParity (data[i] ^^^ 2 ^ b) ^^^ 15 := Option.some.inj h1
  exact dwordParity_flip hb (Nat.xor_left_injective (x := 0xf) h2).symm

theorem flip_parity {data parity : List Nat} (h : parity = data.map fun d => dwordParity d ^^^ 0xf) {i : Nat} (b : Nat)
    (hi : i < parity.length) : flipAt parity i b ≠ data.map fun d => dwordParity d ^^^ 0xf := by
  intro hc
  rw [← h] at hc
  have h1 := congrArg (fun l => l[i]?) hc
  simp only [flipAt, List.getElem?_modify, List.getElem?_eq_getElem hi, Option.map_some, if_true] at h1
  exact xor_pow_ne _ _ (Option.some.inj h1)

end Pcie
