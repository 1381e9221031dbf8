/- The registers of the MSI and MSI-X capabilities. -/
import Verif.Lemmas.Config
import Verif.Lemmas.Msi
import Verif.Spec.MsiRegs
namespace Pcie
open Spec
theorem dec_bit (x i : Nat) : decide (x &&& 1 <<< i ≠ 0) = x.testBit i := by
  rw [← bitSet_eq, bitSet]
  by_cases h : x &&& 1 <<< i = 0 <;> simp [h]

namespace MsiCap

/-- The place of a register. -/
def pos (c : MsiCap) : MsiReg → Nat
  | .control => 0
  | .address => 1
  | .upper => 2
  | .data => if c.cap64 then 3 else 2
  | .mask => if c.cap64 then 4 else 3
  | .pending => if c.cap64 then 5 else 4

def present (c : MsiCap) : MsiReg → Bool
  | .upper => c.cap64
  | .mask | .pending => c.maskCap
  | _ => true

theorem layout_iff (c : MsiCap) (reg : Nat) (r : MsiReg) : (msiLayout c)[reg]? = some r ↔ c.present r = true ∧ reg = c.pos r := by
  unfold msiLayout
  cases h1 : c.cap64 <;> cases h2 : c.maskCap <;>
    (rcases reg with _ | _ | _ | _ | _ | _ | n <;> cases r <;> simp [pos, present, h1, h2])

theorem pos_inj (c : MsiCap) {r r' : MsiReg} (h : c.present r = true) (h' : c.present r' = true) (e : c.pos r = c.pos r') : r = r' := by
  cases h1 : c.cap64 <;> cases r <;> cases r' <;> simp [pos, present, h1] at *

theorem control_bit (c : MsiCap) (i : Nat) (hi : i < 32) : (c.control &&& 0xffff0000 ||| c.head &&& 0xffff).testBit i = msiBit c .control i := by
  rw [Nat.testBit_or, tb_ffff0000, tb_ffff0]
  simp only [MsiCap.control, Nat.testBit_or, tb_bool, tb_7, msiBit]
  interval_cases i <;> simp

theorem tb_fffc (x i : Nat) : (x &&& 0xfffffffc).testBit i = (decide (2 ≤ i) && decide (i < 32) && x.testBit i) := tb_top x 32 2 i (by omega)

theorem read_bit (c : MsiCap) (r : MsiReg) (h : c.present r = true) :
    ∃ v, c.read (c.pos r) = some v ∧ v < 2 ^ 32 ∧ ∀ i < 32, v.testBit i = msiBit c r i := by
  have lt32 : ∀ x : Nat, x &&& 0xffffffff < 2 ^ 32 := fun x => Nat.lt_of_le_of_lt Nat.and_le_right (by decide)
  cases r with
  | control =>
    refine ⟨_, rfl, Nat.or_lt_two_pow (Nat.lt_of_le_of_lt Nat.and_le_right (by decide)) (Nat.lt_of_le_of_lt Nat.and_le_right (by decide)),
      fun i hi => control_bit c i hi⟩
  | address =>
    refine ⟨_, rfl, Nat.lt_of_le_of_lt Nat.and_le_right (by decide), fun i hi => ?_⟩
    rw [tb_fffc]; simp [hi, msiBit]
  | upper =>
    have h : c.cap64 = true := h
    refine ⟨c.addr >>> 32 &&& 0xffffffff, by simp [MsiCap.read, pos, h], lt32 _, fun i hi => ?_⟩
    rw [tb_ff32, Nat.testBit_shiftRight]; simp [hi, msiBit]
  | data =>
    cases he : c.extCap with
    | true =>
      refine ⟨c.data &&& 0xffffffff, by cases h1 : c.cap64 <;> simp [MsiCap.read, pos, h1, he], lt32 _, fun i hi => ?_⟩
      rw [tb_ff32]; simp [hi, msiBit, he]
    | false =>
      refine ⟨c.data &&& 0xffff, by cases h1 : c.cap64 <;> simp [MsiCap.read, pos, h1, he], Nat.lt_of_le_of_lt Nat.and_le_right (by decide), fun i hi => ?_⟩
      rw [tb_ffff0]; simp [msiBit, he]
  | mask =>
    have h : c.maskCap = true := h
    refine ⟨c.maskBits &&& 0xffffffff, by cases h1 : c.cap64 <;> simp [MsiCap.read, pos, h1, h], lt32 _, fun i hi => ?_⟩
    rw [tb_ff32]; simp [hi, msiBit]
  | pending =>
    have h : c.maskCap = true := h
    refine ⟨c.pending &&& 0xffffffff, by cases h1 : c.cap64 <;> simp [MsiCap.read, pos, h1, h], lt32 _, fun i hi => ?_⟩
    rw [tb_ff32]; simp [hi, msiBit]

theorem read_absent (c : MsiCap) (reg : Nat) (h : (msiLayout c)[reg]? = none) : c.read reg = none := by
  unfold msiLayout at h
  have n0 : reg ≠ 0 := by rintro rfl; simp at h
  have n1 : reg ≠ 1 := by rintro rfl; simp at h
  cases h1 : c.cap64 <;> cases h2 : c.maskCap <;> simp [h1, h2] at h <;> unfold MsiCap.read <;> simp only [h1, h2, n0, n1]
  · simp [show reg ≠ 2 by omega]
  · simp [show reg ≠ 2 by omega, show reg ≠ 3 by omega, show reg ≠ 4 by omega]
  · simp [show reg ≠ 2 by omega, show reg ≠ 3 by omega]
  · simp [show reg ≠ 2 by omega, show reg ≠ 3 by omega, show reg ≠ 4 by omega, show reg ≠ 5 by omega]

theorem write_address (c : MsiCap) (data mask : Nat) : c.write 1 data mask = { c with addr := byteMaskUpdate c.addr mask (data &&& 0xfffffffc) } := rfl
theorem write_upper (c : MsiCap) (h : c.cap64 = true) (data mask : Nat) :
    c.write 2 data mask = { c with addr := byteMaskUpdate c.addr (mask <<< 4) (data <<< 32) } := by simp [MsiCap.write, h]
theorem write_data (c : MsiCap) (data mask : Nat) : c.write (c.pos .data) data mask =
    { c with data := if c.extCap then byteMaskUpdate c.data mask data &&& 0xffffffff else byteMaskUpdate c.data (mask &&& 0x3) data &&& 0xffff } := by
  cases h1 : c.cap64 <;> cases h2 : c.extCap <;> simp [MsiCap.write, pos, h1, h2]
theorem write_mask (c : MsiCap) (h : c.maskCap = true) (data mask : Nat) : c.write (c.pos .mask) data mask =
    { c with maskBits := byteMaskUpdate c.maskBits mask data &&& 0xffffffff } := by
  cases h1 : c.cap64 <;> simp [MsiCap.write, pos, h1, h]
theorem write_pending (c : MsiCap) (data mask : Nat) : c.write (c.pos .pending) data mask = c := by
  cases h1 : c.cap64 <;> simp [MsiCap.write, pos, h1]

/-- The capabilities of the capability do not change. -/
theorem write_caps (c : MsiCap) (r : MsiReg) (h : c.present r = true) (data mask : Nat) :
    (c.write (c.pos r) data mask).cap64 = c.cap64 ∧ (c.write (c.pos r) data mask).maskCap = c.maskCap := by
  cases r with
  | control => simp only [pos, MsiCap.write, if_true]; split <;> exact ⟨rfl, rfl⟩
  | address => exact ⟨rfl, rfl⟩
  | upper => rw [show c.pos .upper = 2 from rfl, write_upper c h]; exact ⟨rfl, rfl⟩
  | data => rw [write_data]; exact ⟨rfl, rfl⟩
  | mask => rw [write_mask c h]; exact ⟨rfl, rfl⟩
  | pending => rw [write_pending]; exact ⟨rfl, rfl⟩

theorem write_layout (c : MsiCap) (r : MsiReg) (h : c.present r = true) (data mask : Nat) :
    msiLayout (c.write (c.pos r) data mask) = msiLayout c := by
  obtain ⟨e1, e2⟩ := write_caps c r h data mask
  simp only [msiLayout, e1, e2]

theorem write_bit (c : MsiCap) (r r' : MsiReg) (h : c.present r = true) (data mask i : Nat) (hm : mask < 16) (hi : i < 32)
    (hx : r' = .control → i ≠ 26) :
    msiBit (c.write (c.pos r) data mask) r' i =
      if r' = r ∧ msiRw c r' i = true ∧ mask.testBit (i / 8) = true then data.testBit i else msiBit c r' i := by
  have big : ∀ k, 4 ≤ k → mask.testBit k = false := fun k hk => Nat.testBit_lt_two_pow (Nat.lt_of_lt_of_le hm (by
    calc 16 = 2 ^ 4 := rfl
      _ ≤ 2 ^ k := Nat.pow_le_pow_right (by omega) hk))
  cases r with
  | control =>
    by_cases hc : r' = .control
    · subst hc
      have hx := hx rfl
      simp only [pos, MsiCap.write, if_true, m_and4, dec_bit]
      cases hm2 : mask.testBit 2 with
      | true =>
        simp only [if_true, msiBit, msiRw, tb_70, Nat.testBit_shiftRight]
        interval_cases i <;> simp_all
      | false =>
        simp only [msiBit, msiRw]
        interval_cases i <;> simp_all
    · rw [if_neg (fun q => hc q.1)]
      simp only [pos, MsiCap.write, if_true]
      split <;> cases r' <;> first | rfl | exact absurd rfl hc
  | address =>
    rw [show c.pos .address = 1 from rfl, write_address]
    cases r' with
    | address =>
      simp only [msiBit, bmu_none, tb_fffc, msiRw]
      by_cases h2 : 2 ≤ i <;> simp [h2, hi]
    | upper => simp [msiBit, bmu_none, big ((32 + i) / 8) (by omega)]
    | _ => simp [msiBit]
  | upper =>
    rw [show c.pos .upper = 2 from rfl, write_upper c h]
    cases r' with
    | address =>
      have : ¬ 4 ≤ i / 8 := by omega
      simp [msiBit, bmu_none, Nat.testBit_shiftLeft, this]
    | upper =>
      have e : (32 + i) / 8 = 4 + i / 8 := by omega
      simp [msiBit, bmu_none, Nat.testBit_shiftLeft, msiRw, e]
    | _ => simp [msiBit]
  | data =>
    rw [write_data]
    cases r' with
    | data =>
      cases he : c.extCap with
      | true => simp [-Nat.testBit_and, msiBit, msiRw, he, bmu_none, tb_ff32, hi]
      | false =>
        by_cases h16 : i < 16
        · have : i / 8 < 2 := by omega
          have e3 : (3 : Nat).testBit (i / 8) = true := by interval_cases (i / 8) <;> rfl
          simp [-Nat.testBit_and, msiBit, msiRw, he, tb_ffff0, h16, bmu_none]
          rw [Nat.testBit_and, e3]; simp
        · simp [msiBit, msiRw, he, h16]
    | _ => simp [msiBit]
  | mask =>
    rw [write_mask c h]
    cases r' with
    | mask => simp [-Nat.testBit_and, msiBit, msiRw, bmu_none, tb_ff32, hi]
    | _ => simp [msiBit]
  | pending =>
    rw [write_pending]
    cases r' <;> simp [msiRw]

end MsiCap

namespace MsixCap

theorem msix_tb_top (x i : Nat) : (x &&& 0xfffffff8).testBit i = (decide (3 ≤ i) && decide (i < 32) && x.testBit i) := tb_top x 32 3 i (by omega)

theorem read_bit (c : MsixCap) (reg : Nat) (h : reg < 3) :
    ∃ v, c.read reg = some v ∧ v < 2 ^ 32 ∧ ∀ i < 32, v.testBit i = msixBit c reg i := by
  have lt : ∀ x k : Nat, k < 2 ^ 32 → x &&& k < 2 ^ 32 := fun x k hk => Nat.lt_of_le_of_lt Nat.and_le_right hk
  have hreg : reg = 0 ∨ reg = 1 ∨ reg = 2 := by omega
  rcases hreg with e | e | e <;> subst e
  · refine ⟨_, rfl, Nat.or_lt_two_pow (lt _ _ (by decide)) (lt _ _ (by decide)), fun i hi => ?_⟩
    rw [Nat.testBit_or, tb_ffff0000, tb_ffff0]
    simp only [MsixCap.control, Nat.testBit_or, tb_bool, tb_7ff, msixBit]
    interval_cases i <;> simp
  · refine ⟨_, rfl, Nat.or_lt_two_pow (lt _ _ (by decide)) (lt _ _ (by decide)), fun i hi => ?_⟩
    rw [Nat.testBit_or, tb_70, msix_tb_top]
    by_cases h3 : i < 3
    · simp [msixBit, h3]; try omega
    · simp [msixBit, h3, hi]; try omega
  · refine ⟨_, rfl, Nat.or_lt_two_pow (lt _ _ (by decide)) (lt _ _ (by decide)), fun i hi => ?_⟩
    rw [Nat.testBit_or, tb_70, msix_tb_top]
    by_cases h3 : i < 3
    · simp [msixBit, h3]; try omega
    · simp [msixBit, h3, hi]; try omega

theorem write_bit (c : MsixCap) (reg reg' data mask i : Nat) (h' : reg' < 3) (hi : i < 32) :
    msixBit (c.write reg data mask) reg' i =
      if reg' = reg ∧ msixRw reg' i = true ∧ mask.testBit (i / 8) = true then data.testBit i else msixBit c reg' i := by
  have hreg : reg' = 0 ∨ reg' = 1 ∨ reg' = 2 := by omega
  by_cases h0 : reg = 0
  · subst h0
    simp only [MsixCap.write, if_true, m_and8, dec_bit]
    rcases hreg with e | e | e <;> subst e
    · cases hm2 : mask.testBit 3 with
      | true =>
        simp only [if_true, msixBit, msixRw]
        interval_cases i <;> simp_all
      | false =>
        simp only [msixBit, msixRw]
        interval_cases i <;> simp_all
    · split <;> simp [msixBit]
    · split <;> simp [msixBit]
  · rw [if_neg (fun q => by
      have := q.2.1
      simp [msixRw] at this
      exact h0 (q.1 ▸ this.1))]
    simp [MsixCap.write, h0]

end MsixCap
end Pcie
