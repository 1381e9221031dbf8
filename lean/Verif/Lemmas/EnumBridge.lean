/-
Helper lemmas: programming the windows of a bridge.
-/
import Verif.Lemmas.EnumAssign2
namespace Pcie
open Spec

theorem tb_rdown (x k i : Nat) : (x / 2 ^ k * 2 ^ k).testBit i = (decide (k ≤ i) && x.testBit i) := by
  rw [← Nat.shiftLeft_eq, ← Nat.shiftRight_eq_div_pow, Nat.testBit_shiftLeft, Nat.testBit_shiftRight]
  by_cases h : k ≤ i
  · simp [h]
  · simp [h]

theorem pred_mod (e k : Nat) (h0 : 0 < e) (h : e % 2 ^ k = 0) : (e - 1) % 2 ^ k = 2 ^ k - 1 := by
  have hp := Nat.two_pow_pos k
  have h1 := Nat.div_add_mod e (2 ^ k)
  have h2 : 0 < e / 2 ^ k := by
    rcases Nat.eq_zero_or_pos (e / 2 ^ k) with h | h
    · rw [h] at h1; simp at h1; omega
    · exact h
  obtain ⟨q, hq⟩ := Nat.exists_eq_succ_of_ne_zero (Nat.pos_iff_ne_zero.1 h2)
  rw [hq, h, Nat.mul_succ] at h1
  have : e - 1 = (2 ^ k - 1) + 2 ^ k * q := by omega
  rw [this, Nat.add_mul_mod_self_left]
  exact Nat.mod_eq_of_lt (by omega)

theorem pred_tb (e k i : Nat) (h0 : 0 < e) (h : e % 2 ^ k = 0) (hi : i < k) : (e - 1).testBit i = true := by
  have := Nat.testBit_mod_two_pow (e - 1) k i
  rw [pred_mod e k h0 h, Nat.testBit_two_pow_sub_one] at this
  simpa [hi] using this.symm

theorem mod_tb (x k i : Nat) (h : x % 2 ^ k = 0) (hi : i < k) : x.testBit i = false := by
  have := Nat.testBit_mod_two_pow x k i
  rw [h, Nat.zero_testBit] at this
  simpa [hi] using this.symm

theorem c_f0 (i : Nat) : (0xf0 : Nat).testBit i = (decide (4 ≤ i) && decide (i < 8)) := c_top 8 4 i (by omega)
theorem c_fff0' (i : Nat) : (0xfff0 : Nat).testBit i = (decide (4 ≤ i) && decide (i < 16)) := c_top 16 4 i (by omega)
theorem c_c (i : Nat) : (0xc : Nat).testBit i = (decide (2 ≤ i) && decide (i < 4)) := c_top 4 2 i (by omega)
theorem c_f0f (i : Nat) : (0xf : Nat).testBit i = (decide (i < 4)) := Nat.testBit_two_pow_sub_one 4 i

theorem win_ioBase (x b y c : Nat) (hx : x < 2 ^ 32) (hm : x % 2 ^ 12 = 0) (hb : b >>> 16 < 2 ^ 16) :
    byteMaskUpdate (byteMaskUpdate x 2 ((b >>> 8 &&& 0xf0 ||| y <<< 8) <<< 8) (some 0xf000)) 0xc
      ((b >>> 16 ||| c <<< 16) <<< 16) none = b / 2 ^ 12 * 2 ^ 12 := by
  have hb' : b < 2 ^ 32 := by rw [Nat.shiftRight_eq_div_pow] at hb; omega
  apply Nat.eq_of_testBit_eq
  intro i
  rw [tb_rdown, bmu_none, bmu_some]
  by_cases hi : 32 ≤ i
  · rw [tb_big b i 32 hb' hi, tb_big x i 32 hx hi, c_c, c_f000, show (2 : Nat).testBit (i / 8) = false by rw [c_2]; simp; omega]
    have : ¬ (i / 8 < 4) := by omega
    simp [this]
  · have hi' : i < 32 := by omega
    rw [c_2, c_c, c_f000]
    by_cases h12 : i < 12
    · have e1 : ¬ (12 ≤ i) := by omega
      have e2 : ¬ (2 ≤ i / 8) := by omega
      simp [e1, e2, mod_tb x 12 i hm h12]
    · by_cases h16 : i < 16
      · have e1 : 12 ≤ i := by omega
        have e2 : i / 8 = 1 := by omega
        simp only [e1, e2, h16]
        simp only [Nat.testBit_shiftLeft, Nat.testBit_or, Nat.testBit_and, c_f0, Nat.testBit_shiftRight]
        have e3 : 8 ≤ i := by omega
        have e4 : ¬ (8 ≤ i - 8) := by omega
        have e5 : 4 ≤ i - 8 := by omega
        have e6 : i - 8 < 8 := by omega
        simp [e3, e4, e5, e6]
      · have e1 : 12 ≤ i := by omega
        have e2 : 2 ≤ i / 8 := by omega
        have e2' : i / 8 < 4 := by omega
        simp only [e1, e2, e2', Nat.testBit_shiftLeft, Nat.testBit_or, Nat.testBit_shiftRight]
        have e3 : 16 ≤ i := by omega
        have e4 : ¬ (16 ≤ i - 16) := by omega
        simp [e3, e4]

theorem win_ioLimit (x e y c : Nat) (hx : x < 2 ^ 32) (h0 : 0 < e) (he : e % 2 ^ 12 = 0) (hb : (e - 1) >>> 16 < 2 ^ 16)
    (hy : y < 2 ^ 8) (hc : c < 2 ^ 16) :
    byteMaskUpdate (byteMaskUpdate x 2 (y ||| ((e - 1) >>> 8 &&& 0xf0) <<< 8) (some 0xf000) ||| 0xfff) 0xc
      (c ||| (e - 1) >>> 16 <<< 16) none = e - 1 := by
  have hb' : e - 1 < 2 ^ 32 := by rw [Nat.shiftRight_eq_div_pow] at hb; omega
  apply Nat.eq_of_testBit_eq
  intro i
  rw [bmu_none, Nat.testBit_or _ 0xfff, bmu_some, c_fff]
  by_cases hi : 32 ≤ i
  · rw [tb_big (e - 1) i 32 hb' hi, tb_big x i 32 hx hi, c_c, c_f000, show (2 : Nat).testBit (i / 8) = false by rw [c_2]; simp; omega]
    have h1 : ¬ (i / 8 < 4) := by omega
    have h2 : ¬ (i < 12) := by omega
    simp [h1, h2]
  · have hi' : i < 32 := by omega
    rw [c_2, c_c, c_f000]
    by_cases h12 : i < 12
    · have e1 : ¬ (12 ≤ i) := by omega
      have e2 : ¬ (2 ≤ i / 8) := by omega
      rw [pred_tb e 12 i h0 he h12]
      simp [e2, h12]
    · by_cases h16 : i < 16
      · have e1 : 12 ≤ i := by omega
        have e2 : i / 8 = 1 := by omega
        simp only [e1, e2, h16, h12]
        simp only [Nat.testBit_shiftLeft, Nat.testBit_or, Nat.testBit_and, c_f0, Nat.testBit_shiftRight]
        have e3 : 8 ≤ i := by omega
        have e5 : 4 ≤ i - 8 := by omega
        have e6 : i - 8 < 8 := by omega
        simp [e3, e5, e6, tb_big y i 8 hy e3]
      · have e1 : 12 ≤ i := by omega
        have e2 : 2 ≤ i / 8 := by omega
        have e2' : i / 8 < 4 := by omega
        simp only [e2, e2', Nat.testBit_shiftLeft, Nat.testBit_or, Nat.testBit_shiftRight]
        have e3 : 16 ≤ i := by omega
        simp [e3, tb_big c i 16 hc e3]

theorem win_memBase (x b y : Nat) (hm : x % 2 ^ 20 = 0) (i : Nat) :
    (byteMaskUpdate x 0xc ((b >>> 16 &&& 0xfff0 ||| y <<< 16) <<< 16) (some 0xfff00000)).testBit i =
      if i < 32 then decide (20 ≤ i) && b.testBit i else x.testBit i := by
  rw [bmu_some, c_fff0, c_c]
  by_cases hi : i < 32
  · by_cases h20 : i < 20
    · have e1 : ¬ (20 ≤ i) := by omega
      simp [e1, hi, mod_tb x 20 i hm h20]
    · have e1 : 20 ≤ i := by omega
      have e2 : 2 ≤ i / 8 := by omega
      have e3 : i / 8 < 4 := by omega
      simp only [e1, e2, e3, hi, Nat.testBit_shiftLeft, Nat.testBit_or, Nat.testBit_and, c_fff0', Nat.testBit_shiftRight]
      have e4 : 16 ≤ i := by omega
      have e5 : ¬ (16 ≤ i - 16) := by omega
      have e6 : 4 ≤ i - 16 := by omega
      have e7 : i - 16 < 16 := by omega
      simp [e4, e5, e6, e7]
  · simp [hi]

theorem win_memLimit (x e y : Nat) (h0 : 0 < e) (he : e % 2 ^ 20 = 0) (hy : y < 2 ^ 16) (i : Nat) :
    (byteMaskUpdate x 0xc (y ||| ((e - 1) >>> 16 &&& 0xfff0) <<< 16) (some 0xfff00000) ||| 0xfffff).testBit i =
      if i < 32 then (e - 1).testBit i else x.testBit i := by
  rw [Nat.testBit_or, bmu_some, c_fff0, c_c, c_fffff]
  by_cases hi : i < 32
  · by_cases h20 : i < 20
    · simp [hi, h20, pred_tb e 20 i h0 he h20]
    · have e1 : 20 ≤ i := by omega
      have e2 : 2 ≤ i / 8 := by omega
      have e3 : i / 8 < 4 := by omega
      simp only [e1, e2, e3, hi, h20, Nat.testBit_shiftLeft, Nat.testBit_or, Nat.testBit_and, c_fff0', Nat.testBit_shiftRight]
      have e4 : 16 ≤ i := by omega
      have e6 : 4 ≤ i - 16 := by omega
      have e7 : i - 16 < 16 := by omega
      simp [e4, e6, e7, tb_big y i 16 hy e4]
  · have h20 : ¬ (i < 20) := by omega
    simp [hi, h20]

section
variable {σ : Type} (ops : CapOps σ) (f : Br σ) (d : Nat)
theorem br_w7 : f.write ops 7 d 3 = { f with
    ioBase := byteMaskUpdate f.ioBase 2 (d <<< 8) (some 0xf000)
    ioLimit := byteMaskUpdate f.ioLimit 2 d (some 0xf000) ||| 0xfff } := by
  have m1 : (3 : Nat) &&& 1 ≠ 0 := by decide
  have m2 : (3 : Nat) &&& 2 ≠ 0 := by decide
  have m8 : ¬ (3 : Nat) &&& 8 ≠ 0 := by decide
  simp only [Br.write, Br.writeIo, Nat.reduceEqDiff, if_false, if_true, m8, false_and]
  rw [if_pos m1, if_pos m2]
theorem br_w8 : f.write ops 8 d 0xf = { f with
    memBase := byteMaskUpdate f.memBase 0xc (d <<< 16) (some 0xfff00000)
    memLimit := byteMaskUpdate f.memLimit 0xc d (some 0xfff00000) ||| 0xfffff } := rfl
theorem br_w9 : f.write ops 9 d 0xf = { f with
    prefBase := byteMaskUpdate f.prefBase 0xc (d <<< 16) (some 0xfff00000)
    prefLimit := byteMaskUpdate f.prefLimit 0xc d (some 0xfff00000) ||| 0xfffff } := rfl
theorem br_w10 : f.write ops 10 d 0xf = { f with prefBase := byteMaskUpdate f.prefBase 0xf0 (d <<< 32) none } := rfl
theorem br_w11 : f.write ops 11 d 0xf = { f with prefLimit := byteMaskUpdate f.prefLimit 0xf0 (d <<< 32) none } := rfl
theorem br_w12 : f.write ops 12 d 0xf = { f with
    ioBase := byteMaskUpdate f.ioBase 0xc (d <<< 16) none
    ioLimit := byteMaskUpdate f.ioLimit 0xc d none } := rfl
end

theorem ok_bind {α β} (a : α) (g : α → Py β) : (Except.ok a >>= g) = g a := rfl
theorem error_bind {α β} (a : String) (g : α → Py β) : ((Except.error a : Py α) >>= g) = .error a := rfl

theorem setupBridge_spec {σ} (ops : CapOps σ) (f f' : Br σ) (b e : Limits) (hc : BrClean f)
    (h0 : 0 < e.io ∧ 0 < e.mem ∧ 0 < e.pref) (ha : e.io % 2 ^ 12 = 0 ∧ e.mem % 2 ^ 20 = 0 ∧ e.pref % 2 ^ 20 = 0)
    (h : setupBridge ops f b e = .ok f') :
    b.io < 2 ^ 32 ∧ e.io ≤ 2 ^ 32 ∧ b.pref < 2 ^ 64 ∧ e.pref ≤ 2 ^ 64 ∧
    f' = { f with
      ioBase := b.io / 2 ^ 12 * 2 ^ 12, ioLimit := e.io - 1,
      memBase := b.mem % 2 ^ 32 / 2 ^ 20 * 2 ^ 20, memLimit := (e.mem - 1) % 2 ^ 32,
      prefBase := b.pref / 2 ^ 20 * 2 ^ 20, prefLimit := e.pref - 1 } := by
  have n1 : ¬ e.io = 0 := by omega
  have n2 : ¬ e.mem = 0 := by omega
  have n3 : ¬ e.pref = 0 := by omega
  unfold setupBridge at h
  simp only [br_w7, br_w8, br_w9, br_w10, br_w11, br_w12] at h
  by_cases p1 : b.io >>> 16 < 2 ^ 16 ∧ (e.io - 1) >>> 16 < 2 ^ 16
  swap
  · simp only [packHH, pred_shr, n1, if_false, if_neg p1, error_bind] at h; cases h
  simp only [packHH, pred_shr, n1, n3, if_false, if_pos p1, ok_bind] at h
  by_cases p2 : b.pref >>> 32 < 2 ^ 32
  swap
  · simp only [packL1, if_neg p2, error_bind] at h; cases h
  by_cases p3 : (e.pref - 1) >>> 32 < 2 ^ 32
  swap
  · simp only [packL1, if_pos p2, if_neg p3, error_bind, ok_bind] at h; cases h
  simp only [packL1, if_pos p2, if_pos p3, ok_bind, pred_shr_and, n1, n2, n3, if_false] at h
  have hp2 : b.pref < 2 ^ 64 := by rw [Nat.shiftRight_eq_div_pow] at p2; omega
  have hp3 : e.pref - 1 < 2 ^ 64 := by rw [Nat.shiftRight_eq_div_pow] at p3; omega
  have hp1 : b.io < 2 ^ 32 ∧ e.io - 1 < 2 ^ 32 := by
    rw [Nat.shiftRight_eq_div_pow, Nat.shiftRight_eq_div_pow] at p1; omega
  refine ⟨hp1.1, by omega, hp2, by omega, ?_⟩
  have hand : ∀ x : Nat, x &&& 0xf0 < 2 ^ 8 := fun x => Nat.lt_of_le_of_lt Nat.and_le_right (by decide)
  have hand2 : ∀ x : Nat, x &&& 0xfff0 < 2 ^ 16 := fun x => Nat.lt_of_le_of_lt Nat.and_le_right (by decide)
  have g1 := win_ioBase f.ioBase b.io ((e.io - 1) >>> 8 &&& 0xf0) ((e.io - 1) >>> 16) hc.ioB.1 hc.ioB.2 p1.1
  have g2 := win_ioLimit f.ioLimit e.io _ (b.io >>> 16) hc.ioL h0.1 ha.1 p1.2 (hand (b.io >>> 8)) p1.1
  have g3 : byteMaskUpdate f.memBase 0xc ((b.mem >>> 16 &&& 0xfff0 ||| ((e.mem - 1) >>> 16 &&& 0xfff0) <<< 16) <<< 16)
      (some 0xfff00000) = b.mem % 2 ^ 32 / 2 ^ 20 * 2 ^ 20 := by
    apply Nat.eq_of_testBit_eq
    intro i
    rw [win_memBase _ _ _ hc.memB.2, tb_rdown, Nat.testBit_mod_two_pow]
    split
    · simp [*]
    · rw [tb_big _ i 32 hc.memB.1 (by omega)]; simp [*]
  have g4 : byteMaskUpdate f.memLimit 0xc (b.mem >>> 16 &&& 0xfff0 ||| ((e.mem - 1) >>> 16 &&& 0xfff0) <<< 16)
      (some 0xfff00000) ||| 0xfffff = (e.mem - 1) % 2 ^ 32 := by
    apply Nat.eq_of_testBit_eq
    intro i
    rw [win_memLimit _ _ _ h0.2.1 ha.2.1 (hand2 _), Nat.testBit_mod_two_pow]
    split
    · simp [*]
    · rw [tb_big _ i 32 hc.memL (by omega)]; simp [*]
  have g5 : byteMaskUpdate (byteMaskUpdate f.prefBase 0xc
      ((b.pref >>> 16 &&& 0xfff0 ||| ((e.pref - 1) >>> 16 &&& 0xfff0) <<< 16) <<< 16) (some 0xfff00000)) 0xf0
      (b.pref >>> 32 <<< 32) none = b.pref / 2 ^ 20 * 2 ^ 20 := by
    apply Nat.eq_of_testBit_eq
    intro i
    rw [bmu_none, win_memBase _ _ _ hc.prefB.2, tb_rdown, c_f0, Nat.testBit_shiftLeft, Nat.testBit_shiftRight]
    by_cases hi : i < 32
    · have e1 : ¬ (4 ≤ i / 8) := by omega
      simp [e1, hi]
    · by_cases h64 : i < 64
      · have e1 : 4 ≤ i / 8 := by omega
        have e2 : i / 8 < 8 := by omega
        have e3 : 32 ≤ i := by omega
        have e4 : 20 ≤ i := by omega
        simp [e1, e2, e3, e4]
      · have e2 : ¬ (i / 8 < 8) := by omega
        rw [tb_big _ i 64 hc.prefB.1 (by omega), tb_big _ i 64 hp2 (by omega)]
        simp [e2, hi]
  have g6 : byteMaskUpdate (byteMaskUpdate f.prefLimit 0xc
      (b.pref >>> 16 &&& 0xfff0 ||| ((e.pref - 1) >>> 16 &&& 0xfff0) <<< 16) (some 0xfff00000) ||| 0xfffff) 0xf0
      ((e.pref - 1) >>> 32 <<< 32) none = e.pref - 1 := by
    apply Nat.eq_of_testBit_eq
    intro i
    rw [bmu_none, win_memLimit _ _ _ h0.2.2 ha.2.2 (hand2 _), c_f0, Nat.testBit_shiftLeft, Nat.testBit_shiftRight]
    by_cases hi : i < 32
    · have e1 : ¬ (4 ≤ i / 8) := by omega
      simp [e1, hi]
    · by_cases h64 : i < 64
      · have e1 : 4 ≤ i / 8 := by omega
        have e2 : i / 8 < 8 := by omega
        have e3 : 32 ≤ i := by omega
        simp [e1, e2, e3]
      · have e2 : ¬ (i / 8 < 8) := by omega
        rw [tb_big _ i 64 hc.prefL (by omega), tb_big _ i 64 hp3 (by omega)]
        simp [e2, hi]
  rw [g1, g2, g3, g4, g5, g6] at h
  exact (Except.ok.inj h).symm

end Pcie
