/-
Helper lemmas: enumeration.
-/
import Verif.Lemmas.Config
import Verif.Spec.Enum
namespace Pcie
open Spec

theorem bmu_restore (v x m : Nat) :
    byteMaskUpdate (byteMaskUpdate v 0xf x (some m)) 0xf v (some m) = v := by
  apply Nat.eq_of_testBit_eq
  intro i
  rw [bmu_some, bmu_some]
  split <;> simp_all

/-- The base address registers of a function as seen through its configuration registers. -/
structure BarPort {τ} (ops : CapOps τ) (get : τ → List BarReg) (put : τ → List BarReg → τ) (cnt : Nat) : Prop where
  read : ∀ s i, i < cnt → ((get s).getD i {}).val < 2 ^ 32 → ops.read s (4 + i) = ((get s).getD i {}).val
  write : ∀ s i d, i < cnt → ops.write s (4 + i) d 0xf = put s (writeBar (get s) i d 0xf)
  get_put : ∀ s b, get (put s b) = b
  put_put : ∀ s b c, put (put s b) c = put s c
  put_get : ∀ s, put s (get s) = s

theorem Ep.port {σ} (ops : CapOps σ) :
    BarPort (Ep.regs ops) (fun f => f.bars) (fun f b => { f with bars := b }) 6 where
  read s i hi h := by
    simp only [Ep.regs, Ep.read]
    rw [if_pos (by omega)]
    simp only [readBar, Nat.add_sub_cancel_left]
    exact (Nat.and_two_pow_sub_one_eq_mod _ 32).trans (Nat.mod_eq_of_lt h)
  write s i d hi := by
    simp only [Ep.regs, Ep.write]
    rw [if_pos (by omega), Nat.add_sub_cancel_left]
  get_put _ _ := rfl
  put_put _ _ _ := rfl
  put_get _ := rfl

theorem Br.port {σ} (ops : CapOps σ) :
    BarPort (Br.regs ops) (fun f => f.bars) (fun f b => { f with bars := b }) 2 where
  read s i hi h := by
    rcases (show i = 0 ∨ i = 1 by omega) with rfl | rfl <;> rfl
  write s i d hi := by
    rcases (show i = 0 ∨ i = 1 by omega) with rfl | rfl <;> rfl
  get_put _ _ := rfl
  put_put _ _ _ := rfl
  put_get _ := rfl

theorem getD_mid (pre : List BarReg) (r : BarReg) (rs : List BarReg) (i : Nat) (h : pre.length = i) :
    (pre ++ r :: rs).getD i {} = r := by
  subst h; simp

theorem writeBar_mid (pre : List BarReg) (r : BarReg) (rs : List BarReg) (i d be : Nat) (h : pre.length = i) :
    writeBar (pre ++ r :: rs) i d be = pre ++ { r with val := byteMaskUpdate r.val be d (some r.mask) } :: rs := by
  subst h; simp [writeBar]

/-- What happens to one BAR register when it is sized. -/
theorem BarPort.probe {τ} {ops : CapOps τ} {get put cnt} (P : BarPort ops get put cnt) (s : τ) (pre rs : List BarReg)
    (r : BarReg) (i : Nat) (hs : get s = pre ++ r :: rs) (hi : pre.length = i) (hc : i < cnt) (hv : r.val < 2 ^ 32)
    (hv2 : byteMaskUpdate r.val 0xf 0xffffffff (some r.mask) < 2 ^ 32) :
    ops.read s (4 + i) = r.val ∧
    ops.read (ops.write s (4 + i) 0xffffffff 0xf) (4 + i) = byteMaskUpdate r.val 0xf 0xffffffff (some r.mask) ∧
    ops.write (ops.write s (4 + i) 0xffffffff 0xf) (4 + i) r.val 0xf = s := by
  have e1 : ops.write s (4 + i) 0xffffffff 0xf =
      put s (pre ++ { r with val := byteMaskUpdate r.val 0xf 0xffffffff (some r.mask) } :: rs) := by
    rw [P.write _ _ _ hc, hs, writeBar_mid _ _ _ _ _ _ hi]
  refine ⟨?_, ?_, ?_⟩
  · rw [P.read _ _ hc (by rw [hs, getD_mid _ _ _ _ hi]; exact hv), hs, getD_mid _ _ _ _ hi]
  · rw [e1, P.read _ _ hc (by rw [P.get_put, getD_mid _ _ _ _ hi]; exact hv2), P.get_put, getD_mid _ _ _ _ hi]
  · rw [e1, P.write _ _ _ hc, P.get_put, writeBar_mid _ _ _ _ _ _ hi]
    simp only [bmu_restore]
    rw [P.put_put, ← hs, P.put_get]

theorem size32_tab : ∀ k < 32, 4 ≤ k → ∀ fl ∈ [0, 8],
    (andNot 0xffffffff (2 ^ 32 - 2 ^ k + fl) ||| 0xf) + 1 = 2 ^ k ∧ 2 ^ 32 - 2 ^ k + fl ≠ 0 ∧
    (2 ^ 32 - 2 ^ k + fl) &&& 1 = 0 ∧ (2 ^ 32 - 2 ^ k + fl) &&& 4 = 0 ∧ 2 ^ 32 - 2 ^ k + fl < 2 ^ 32 := by decide +kernel

theorem sizeIo_tab : ∀ k < 32, 2 ≤ k →
    (andNot 0xffffffff (2 ^ 32 - 2 ^ k + 1) ||| 3) + 1 = 2 ^ k ∧ 2 ^ 32 - 2 ^ k + 1 ≠ 0 ∧
    (2 ^ 32 - 2 ^ k + 1) &&& 1 ≠ 0 ∧ 2 ^ 32 - 2 ^ k + 1 < 2 ^ 32 := by decide +kernel

theorem size64_tab : ∀ k < 64, 4 ≤ k → ∀ fl ∈ [4, 12],
    (andNot 0xffffffffffffffff (((2 ^ 64 - 2 ^ k) % 2 ^ 32 + fl) ||| ((2 ^ 64 - 2 ^ k) / 2 ^ 32) <<< 32) ||| 0xf) + 1 = 2 ^ k ∧
    (2 ^ 64 - 2 ^ k) % 2 ^ 32 + fl ≠ 0 ∧ ((2 ^ 64 - 2 ^ k) % 2 ^ 32 + fl) &&& 1 = 0 ∧
    ((2 ^ 64 - 2 ^ k) % 2 ^ 32 + fl) &&& 4 ≠ 0 ∧ (2 ^ 64 - 2 ^ k) % 2 ^ 32 + fl < 2 ^ 32 := by decide +kernel

theorem IsMem32.ones {r base k} (h : IsMem32 r base k) : ∃ fl, fl < 16 ∧ (fl = 0 ∨ fl = 8) ∧ r.val < 2 ^ 32 ∧
    r.val = base + fl ∧ byteMaskUpdate r.val 0xf 0xffffffff (some r.mask) = 2 ^ 32 - 2 ^ k + fl := by
  obtain ⟨h4, h32, hal, hb, hv, hm⟩ := h
  have h16 := mod16_of_align base k h4 hal
  have hp := pow_ge k 4 h4
  obtain ⟨fl, hfl, hv', hfv⟩ : ∃ fl, fl < 2 ^ k ∧ r.val = base + fl ∧ (fl = 0 ∨ fl = 8) := by
    rcases hv with h | h
    · exact ⟨0, by omega, by omega, by simp⟩
    · exact ⟨8, by omega, by omega, by simp⟩
  refine ⟨fl, by omega, hfv, by omega, hv', ?_⟩
  rw [hm, byteMaskUpdate_top _ _ _ (by omega) (by omega) (by omega), hv', align_mod _ _ _ hal hfl]
  congr 1
  have : ∀ k < 32, 0xffffffff / 2 ^ k * 2 ^ k = 2 ^ 32 - 2 ^ k := by decide +kernel
  exact this k h32

theorem IsIo.ones {r base k} (h : IsIo r base k) : r.val < 2 ^ 32 ∧
    byteMaskUpdate r.val 0xf 0xffffffff (some r.mask) = 2 ^ 32 - 2 ^ k + 1 := by
  obtain ⟨h4, h32, hal, hb, hv, hm⟩ := h
  have h16 := mod4_of_align base k h4 hal
  have hp := pow_ge k 2 h4
  refine ⟨by omega, ?_⟩
  rw [hm, byteMaskUpdate_top _ _ _ (by omega) (by omega) (by omega), hv, align_mod _ _ _ hal (by omega)]
  congr 1
  have : ∀ k < 32, 0xffffffff / 2 ^ k * 2 ^ k = 2 ^ 32 - 2 ^ k := by decide +kernel
  exact this k h32

theorem IsMem64.ones {lo hi base k} (h : IsMem64 lo hi base k) : ∃ fl, fl < 16 ∧ (fl = 4 ∨ fl = 12) ∧
    lo.val < 2 ^ 32 ∧ hi.val < 2 ^ 32 ∧ lo.val = base % 2 ^ 32 + fl ∧
    byteMaskUpdate lo.val 0xf 0xffffffff (some lo.mask) = (2 ^ 64 - 2 ^ k) % 2 ^ 32 + fl ∧
    byteMaskUpdate hi.val 0xf 0xffffffff (some hi.mask) = (2 ^ 64 - 2 ^ k) / 2 ^ 32 := by
  obtain ⟨h4, h64, hal, hb, hv, hvh, hm, hmh⟩ := h
  have h16 := mod16_of_align base k h4 hal
  have hp := pow_ge k 4 h4
  obtain ⟨s1, s2⟩ := top_split k h64
  obtain ⟨fl, hfl, hv', hfv⟩ : ∃ fl, fl < 2 ^ k ∧ lo.val = base % 2 ^ 32 + fl ∧ (fl = 4 ∨ fl = 12) := by
    rcases hv with h | h
    · exact ⟨4, by omega, by omega, by simp⟩
    · exact ⟨12, by omega, by omega, by simp⟩
  refine ⟨fl, by omega, hfv, by omega, by omega, hv', ?_, ?_⟩
  · by_cases hk : k < 32
    · have hz : base % 2 ^ 32 % 2 ^ k = 0 := by rw [mod_pow_mod _ _ _ (by omega)]; exact hal
      rw [hm, (s1 hk).1, byteMaskUpdate_top _ _ _ (by omega) (by omega) (by omega), hv', align_mod _ _ _ hz hfl]
      congr 1
      have : ∀ k < 32, 0xffffffff / 2 ^ k * 2 ^ k = 2 ^ 32 - 2 ^ k := by decide +kernel
      exact this k hk
    · have h1 : base % 2 ^ 32 = 0 := by
        rw [← Nat.mod_mod_of_dvd base (Nat.pow_dvd_pow 2 (show 32 ≤ k by omega)), hal]
      rw [hm, (s2 (by omega)).1, byteMaskUpdate_none, hv', h1]
  · by_cases hk : k < 32
    · rw [hmh, (s1 hk).2, byteMaskUpdate_top _ _ _ (by omega) (by omega) (by omega)]; omega
    · have e : 2 ^ k = 2 ^ 32 * 2 ^ (k - 32) := by rw [← Nat.pow_add]; congr 1; omega
      have a1 : base / 2 ^ 32 % 2 ^ (k - 32) = 0 := by
        rw [e] at hal
        have hd := Nat.dvd_of_mod_eq_zero hal
        exact Nat.mod_eq_zero_of_dvd ((Nat.dvd_div_iff_mul_dvd (Nat.dvd_trans (Nat.dvd_mul_right _ _) hd)).2 hd)
      rw [hmh, (s2 (by omega)).2, byteMaskUpdate_top _ _ _ (by omega) (by omega) (by omega), hvh, a1, Nat.add_zero]
      have : ∀ k < 64, 32 ≤ k → 0xffffffff / 2 ^ (k - 32) * 2 ^ (k - 32) = 2 ^ 32 - 2 ^ (k - 32) := by decide +kernel
      exact this k h64 (by omega)

/-- The upper half of a 64-bit BAR is left with the bits of the lower half. -/
theorem IsMem64.clobber {lo hi base k} (h : IsMem64 lo hi base k) : ∃ b,
    IsMem64 lo { hi with val := byteMaskUpdate (byteMaskUpdate hi.val 0xf 0xffffffff (some hi.mask)) 0xf lo.val (some hi.mask) } b k ∧
    b % 2 ^ 32 = base % 2 ^ 32 := by
  obtain ⟨fl, h1, h2, h3, h4, h5, h6, h7⟩ := IsMem64.ones h
  obtain ⟨hk4, h64, hal, hb, hv, hvh, hm, hmh⟩ := h
  obtain ⟨s1, s2⟩ := top_split k h64
  rw [h7]
  by_cases hk : k < 32
  · have e : byteMaskUpdate ((2 ^ 64 - 2 ^ k) / 2 ^ 32) 0xf lo.val (some hi.mask) = lo.val := by
      rw [hmh, (s1 hk).2, byteMaskUpdate_top _ _ _ (by omega) (by omega) (by omega)]; omega
    rw [e]
    refine ⟨lo.val * 2 ^ 32 + base % 2 ^ 32, ⟨hk4, h64, ?_, by omega, ?_, by simp only; omega, hm, hmh⟩, by omega⟩
    · rw [Nat.add_mod, mod_pow_mod _ _ _ (by omega), hal, Nat.add_zero, Nat.mod_mod]
      exact Nat.mod_eq_zero_of_dvd (Nat.dvd_trans (Nat.pow_dvd_pow 2 (by omega)) (Nat.dvd_mul_left _ _))
    · rw [show (lo.val * 2 ^ 32 + base % 2 ^ 32) % 2 ^ 32 = base % 2 ^ 32 by omega]; exact hv
  · have h0 : base % 2 ^ 32 = 0 := by
      rw [← Nat.mod_mod_of_dvd base (Nat.pow_dvd_pow 2 (show 32 ≤ k by omega)), hal]
    have e : byteMaskUpdate ((2 ^ 64 - 2 ^ k) / 2 ^ 32) 0xf lo.val (some hi.mask) =
        lo.val / 2 ^ (k - 32) * 2 ^ (k - 32) := by
      rw [hmh, (s2 (by omega)).2, byteMaskUpdate_top _ _ _ (by omega) (by omega) (by omega)]
      have : ∀ k < 64, 32 ≤ k → (2 ^ 32 - 2 ^ (k - 32)) % 2 ^ (k - 32) = 0 := by decide +kernel
      rw [this k h64 (by omega)]; rfl
    rw [e]
    have hle : lo.val / 2 ^ (k - 32) * 2 ^ (k - 32) ≤ lo.val := Nat.div_mul_le_self _ _
    generalize hq : lo.val / 2 ^ (k - 32) = q at *
    refine ⟨q * 2 ^ (k - 32) * 2 ^ 32, ⟨hk4, h64, ?_, by omega, ?_, by simp only; omega, hm, hmh⟩, by omega⟩
    · have e : 2 ^ k = 2 ^ (k - 32) * 2 ^ 32 := by rw [← Nat.pow_add]; congr 1; omega
      rw [Nat.mul_assoc, ← e]; exact Nat.mul_mod_left _ _
    · rw [Nat.mul_mod_left, ← h0]; exact hv

end Pcie
