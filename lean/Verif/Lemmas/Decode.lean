/-
Helper lemmas: which addresses are decoded, without restrictions on the address.
-/
import Verif.Lemmas.Bar
import Verif.Spec.Route
namespace Pcie
open Spec

/-- The address as the window compares it: a 32-bit register compares the low 32 bits only. -/
def Window.sees (w : Window) (addr : Nat) : Bool := w.contains (if w.wide then addr else addr % 2 ^ 32)

theorem and_mod32 (a v k : Nat) : (a ^^^ v) &&& (2 ^ 32 - 2 ^ k) = (a % 2 ^ 32 ^^^ v) &&& (2 ^ 32 - 2 ^ k) := by
  apply Nat.eq_of_testBit_eq
  intro i
  simp only [Nat.testBit_and, Nat.testBit_xor, Nat.testBit_mod_two_pow]
  by_cases h : i < 32
  · simp [h]
  · have : (2 ^ 32 - 2 ^ k).testBit i = false :=
      Nat.testBit_lt_two_pow (Nat.lt_of_lt_of_le (Nat.sub_lt (by decide) (Nat.two_pow_pos k)) (Nat.pow_le_pow_right (by omega) (by omega)))
    simp [this]

theorem matchBarFrom_sees (io : Bool) (addr i : Nat) (bars : List BarReg) (ws : List Window)
    (h : Layout i bars ws) (hk : ∀ w ∈ ws, w.k < 32) (ha : addr < 2 ^ 64) :
    ∃ r, matchBarFrom io addr i bars = .ok r ∧ (r.isSome ↔ ∃ w ∈ ws, w.io = io ∧ Window.sees w addr = true) := by
  induction h with
  | nil i => exact ⟨none, rfl, by simp⟩
  | absent i r rs ws h0 hl ih =>
    rw [matchBarFrom.eq_def]
    subst h0
    simp only [if_true]
    exact ih hk
  | mem32 i r rs ws base k hr hl ih =>
    obtain ⟨h4, h32, hal, hb, hv, hm⟩ := hr
    have hb16 := mod16_of_align base k h4 hal
    have ⟨hp1, hp2⟩ := pow_bounds k 32 h32
    have hp3 := pow_ge k 4 h4
    have hm0 : r.mask ≠ 0 := by omega
    obtain ⟨fl, hfl, hv', hfv⟩ : ∃ fl, fl < 2 ^ k ∧ r.val = base + fl ∧ (fl = 0 ∨ fl = 8) := by
      rcases hv with h | h
      · exact ⟨0, by omega, by omega, by simp⟩
      · exact ⟨8, by omega, by omega, by simp⟩
    have hb1 : ¬ (r.val &&& 1 ≠ 0) := by rw [and_1]; omega
    have hb4 : ¬ (r.val &&& 4 ≠ 0) := by rw [and_b2]; omega
    obtain ⟨w1, -⟩ := window_match (addr % 2 ^ 32) base fl 32 k (by omega) (Nat.mod_lt _ (by decide)) hb hal hfl
    rw [matchBarFrom.eq_def]
    simp only [hm0, if_false, hb1, hb4]
    simp only [hv', hm]
    rw [and_mod32]
    simp only [w1]
    obtain ⟨r', e, hr'⟩ := ih (fun w hw => hk w (by simp [hw]))
    cases io with
    | true => simp only [not_true, false_and, if_false]; exact ⟨r', e, by rw [hr']; simp⟩
    | false =>
      by_cases hc : base ≤ addr % 2 ^ 32 ∧ addr % 2 ^ 32 < base + 2 ^ k
      · rw [if_pos ⟨by simp, hc⟩]
        exact ⟨_, rfl, by simp [Window.sees, Window.contains, hc]⟩
      · rw [if_neg (fun h => hc h.2)]
        refine ⟨r', e, ?_⟩
        rw [hr']
        constructor
        · rintro ⟨w, h1, h2⟩; exact ⟨w, List.mem_cons_of_mem _ h1, h2⟩
        · rintro ⟨w, h1, h2, h3⟩
          rcases List.mem_cons.1 h1 with rfl | h1
          · simp [Window.sees, Window.contains] at h3; exact absurd h3 hc
          · exact ⟨w, h1, h2, h3⟩
  | io i r rs ws base k hr hl ih =>
    obtain ⟨h4, h32, hal, hb, hv, hm⟩ := hr
    have hb4' := mod4_of_align base k h4 hal
    have ⟨hp1, hp2⟩ := pow_bounds k 32 h32
    have hp3 := pow_ge k 2 h4
    have hm0 : r.mask ≠ 0 := by omega
    have hb1 : (r.val &&& 1 ≠ 0) := by rw [and_1]; omega
    obtain ⟨w1, -⟩ := window_match (addr % 2 ^ 32) base 1 32 k (by omega) (Nat.mod_lt _ (by decide)) hb hal (by omega)
    rw [matchBarFrom.eq_def]
    simp only [hm0, if_false, hb1, ne_eq, not_false_eq_true, if_true]
    simp only [hv, hm]
    rw [and_mod32]
    simp only [w1]
    obtain ⟨r', e, hr'⟩ := ih (fun w hw => hk w (by simp [hw]))
    cases io with
    | false => simp only [Bool.false_eq_true, false_and, if_false]; exact ⟨r', e, by rw [hr']; simp⟩
    | true =>
      by_cases hc : base ≤ addr % 2 ^ 32 ∧ addr % 2 ^ 32 < base + 2 ^ k
      · rw [if_pos ⟨rfl, hc⟩]
        exact ⟨_, rfl, by simp [Window.sees, Window.contains, hc]⟩
      · rw [if_neg (fun h => hc h.2)]
        refine ⟨r', e, ?_⟩
        rw [hr']
        constructor
        · rintro ⟨w, h1, h2⟩; exact ⟨w, List.mem_cons_of_mem _ h1, h2⟩
        · rintro ⟨w, h1, h2, h3⟩
          rcases List.mem_cons.1 h1 with rfl | h1
          · simp [Window.sees, Window.contains] at h3; exact absurd h3 hc
          · exact ⟨w, h1, h2, h3⟩
  | mem64 i lo hi rs ws base k hr hl ih =>
    obtain ⟨h4, h64, hal, hb, hv, hvh, hm, hmh⟩ := hr
    have h32 : k < 32 := hk ⟨i, false, true, base, k⟩ (by simp)
    have hb16 := mod16_of_align base k h4 hal
    have ⟨hp1, hp2⟩ := pow_bounds k 32 h32
    have hp3 := pow_ge k 4 h4
    have hlm : lo.mask = 2 ^ 32 - 2 ^ k := by rw [hm]; omega
    have hm0 : lo.mask ≠ 0 := by omega
    obtain ⟨fl, hfl, hv', hfv⟩ : ∃ fl, fl < 2 ^ k ∧ lo.val = base % 2 ^ 32 + fl ∧ (fl = 4 ∨ fl = 12) := by
      rcases hv with h | h
      · exact ⟨4, by omega, by omega, by simp⟩
      · exact ⟨12, by omega, by omega, by simp⟩
    have hb1 : ¬ (lo.val &&& 1 ≠ 0) := by rw [and_1]; omega
    have hb4 : (lo.val &&& 4 ≠ 0) := by rw [and_b2]; omega
    have hval : lo.val ||| hi.val <<< 32 = base + fl := by
      rw [or_shl_add _ _ _ (by omega), hvh]; omega
    have hmask : lo.mask ||| hi.mask <<< 32 = 2 ^ 64 - 2 ^ k := by
      rw [or_shl_add _ _ _ (by omega), hm, hmh]; omega
    obtain ⟨w1, -⟩ := window_match addr base fl 64 k (by omega) ha hb hal hfl
    rw [matchBarFrom.eq_def]
    simp only [hm0, if_false, hb1]
    simp only [hb4, ne_eq, not_false_eq_true, if_true, hval, hmask, w1]
    obtain ⟨r', e, hr'⟩ := ih (fun w hw => hk w (by simp [hw]))
    cases io with
    | true => simp only [not_true, false_and, if_false]; exact ⟨r', e, by rw [hr']; simp⟩
    | false =>
      by_cases hc : base ≤ addr ∧ addr < base + 2 ^ k
      · rw [if_pos ⟨by simp, hc⟩]
        exact ⟨_, rfl, by simp [Window.sees, Window.contains, hc]⟩
      · rw [if_neg (fun h => hc h.2)]
        refine ⟨r', e, ?_⟩
        rw [hr']
        constructor
        · rintro ⟨w, h1, h2⟩; exact ⟨w, List.mem_cons_of_mem _ h1, h2⟩
        · rintro ⟨w, h1, h2, h3⟩
          rcases List.mem_cons.1 h1 with rfl | h1
          · simp [Window.sees, Window.contains] at h3; exact absurd h3 hc
          · exact ⟨w, h1, h2, h3⟩

theorem align_end (base k n : Nat) (hk : k ≤ n) (hal : base % 2 ^ k = 0) (hb : base < 2 ^ n) : base + 2 ^ k ≤ 2 ^ n := by
  obtain ⟨c, rfl⟩ := Nat.dvd_of_mod_eq_zero hal
  obtain ⟨d, hd⟩ := Nat.pow_dvd_pow 2 hk
  rw [hd] at hb ⊢
  have : c < d := Nat.lt_of_mul_lt_mul_left hb
  have := Nat.mul_le_mul_left (2 ^ k) (show c + 1 ≤ d from this)
  rw [Nat.mul_add] at this
  omega

/-- The window that `match_bar` finds. -/
theorem matchBarFrom_hit (io : Bool) (addr i : Nat) (bars : List BarReg) (ws : List Window) {hit : Nat × Nat}
    (h : Layout i bars ws) (hk : ∀ w ∈ ws, w.k < 32) (ha : addr < 2 ^ 64) (he : matchBarFrom io addr i bars = .ok (some hit)) :
    ∃ w ∈ ws, w.io = io ∧ Window.sees w addr = true ∧ w.idx = hit.1 ∧ (w.contains addr = true → addr - w.base = hit.2) := by
  have step : ∀ (v : Window) (ws : List Window),
      (∃ w ∈ ws, w.io = io ∧ Window.sees w addr = true ∧ w.idx = hit.1 ∧ (w.contains addr = true → addr - w.base = hit.2)) →
      ∃ w ∈ v :: ws, w.io = io ∧ Window.sees w addr = true ∧ w.idx = hit.1 ∧ (w.contains addr = true → addr - w.base = hit.2) := by
    rintro v ws ⟨w, h1, h2⟩
    exact ⟨w, List.mem_cons_of_mem _ h1, h2⟩
  induction h with
  | nil i => cases he
  | absent i r rs ws h0 hl ih =>
    rw [matchBarFrom.eq_def] at he
    subst h0
    simp only [if_true] at he
    exact ih hk he
  | mem32 i r rs ws base k hr hl ih =>
    obtain ⟨h4, h32, hal, hb, hv, hm⟩ := hr
    have hb16 := mod16_of_align base k h4 hal
    have ⟨hp1, hp2⟩ := pow_bounds k 32 h32
    have hp3 := pow_ge k 4 h4
    have hm0 : r.mask ≠ 0 := by omega
    obtain ⟨fl, hfl, hv', hfv⟩ : ∃ fl, fl < 2 ^ k ∧ r.val = base + fl ∧ (fl = 0 ∨ fl = 8) := by
      rcases hv with h | h
      · exact ⟨0, by omega, by omega, by simp⟩
      · exact ⟨8, by omega, by omega, by simp⟩
    have hb1 : ¬ (r.val &&& 1 ≠ 0) := by rw [and_1]; omega
    have hb4 : ¬ (r.val &&& 4 ≠ 0) := by rw [and_b2]; omega
    obtain ⟨w1, -⟩ := window_match (addr % 2 ^ 32) base fl 32 k (by omega) (Nat.mod_lt _ (by decide)) hb hal hfl
    rw [matchBarFrom.eq_def] at he
    simp only [hm0, if_false, hb1, hb4] at he
    simp only [hv', hm] at he
    rw [and_mod32] at he
    simp only [w1] at he
    split at he
    · next hc =>
      cases he
      refine ⟨_, List.mem_cons_self, by cases io <;> simp_all, by simp [Window.sees, Window.contains, hc.2], rfl, ?_⟩
      intro hcc
      simp only [Window.contains, decide_eq_true_eq] at hcc
      have : base + 2 ^ k ≤ 2 ^ 32 := align_end base k 32 (by omega) hal hb
      exact ((window_match addr base fl 32 k (by omega) (by omega) hb hal hfl).2 hcc.1 hcc.2).symm
    · exact step _ _ (ih (fun w hw => hk w (by simp [hw])) he)
  | io i r rs ws base k hr hl ih =>
    obtain ⟨h4, h32, hal, hb, hv, hm⟩ := hr
    have hb4' := mod4_of_align base k h4 hal
    have ⟨hp1, hp2⟩ := pow_bounds k 32 h32
    have hp3 := pow_ge k 2 h4
    have hm0 : r.mask ≠ 0 := by omega
    have hb1 : (r.val &&& 1 ≠ 0) := by rw [and_1]; omega
    obtain ⟨w1, -⟩ := window_match (addr % 2 ^ 32) base 1 32 k (by omega) (Nat.mod_lt _ (by decide)) hb hal (by omega)
    rw [matchBarFrom.eq_def] at he
    simp only [hm0, if_false, hb1, ne_eq, not_false_eq_true, if_true] at he
    simp only [hv, hm] at he
    rw [and_mod32] at he
    simp only [w1] at he
    split at he
    · next hc =>
      cases he
      refine ⟨_, List.mem_cons_self, hc.1.symm, by simp [Window.sees, Window.contains, hc.2], rfl, ?_⟩
      intro hcc
      simp only [Window.contains, decide_eq_true_eq] at hcc
      have : base + 2 ^ k ≤ 2 ^ 32 := align_end base k 32 (by omega) hal hb
      exact ((window_match addr base 1 32 k (by omega) (by omega) hb hal (by omega)).2 hcc.1 hcc.2).symm
    · exact step _ _ (ih (fun w hw => hk w (by simp [hw])) he)
  | mem64 i lo hi rs ws base k hr hl ih =>
    obtain ⟨h4, h64, hal, hb, hv, hvh, hm, hmh⟩ := hr
    have h32 : k < 32 := hk ⟨i, false, true, base, k⟩ (by simp)
    have hb16 := mod16_of_align base k h4 hal
    have ⟨hp1, hp2⟩ := pow_bounds k 32 h32
    have hp3 := pow_ge k 4 h4
    have hlm : lo.mask = 2 ^ 32 - 2 ^ k := by rw [hm]; omega
    have hm0 : lo.mask ≠ 0 := by omega
    obtain ⟨fl, hfl, hv', hfv⟩ : ∃ fl, fl < 2 ^ k ∧ lo.val = base % 2 ^ 32 + fl ∧ (fl = 4 ∨ fl = 12) := by
      rcases hv with h | h
      · exact ⟨4, by omega, by omega, by simp⟩
      · exact ⟨12, by omega, by omega, by simp⟩
    have hb1 : ¬ (lo.val &&& 1 ≠ 0) := by rw [and_1]; omega
    have hb4 : (lo.val &&& 4 ≠ 0) := by rw [and_b2]; omega
    have hval : lo.val ||| hi.val <<< 32 = base + fl := by
      rw [or_shl_add _ _ _ (by omega), hvh]; omega
    have hmask : lo.mask ||| hi.mask <<< 32 = 2 ^ 64 - 2 ^ k := by
      rw [or_shl_add _ _ _ (by omega), hm, hmh]; omega
    obtain ⟨w1, w2⟩ := window_match addr base fl 64 k (by omega) ha hb hal hfl
    rw [matchBarFrom.eq_def] at he
    simp only [hm0, if_false, hb1] at he
    simp only [hb4, ne_eq, not_false_eq_true, if_true, hval, hmask, w1] at he
    split at he
    · next hc =>
      cases he
      refine ⟨_, List.mem_cons_self, by cases io <;> simp_all, by simp [Window.sees, Window.contains, hc.2], rfl, ?_⟩
      intro hcc
      exact (w2 hc.2.1 hc.2.2).symm
    · exact step _ _ (ih (fun w hw => hk w (by simp [hw])) he)

end Pcie

namespace Pcie
open Spec

theorem layout_good (io : Bool) (addr i : Nat) (bars : List BarReg) (ws : List Window) (h : Layout i bars ws)
    (hk : ∀ w ∈ ws, w.k < 32) : ∃ r, matchBarFrom io addr i bars = .ok r := by
  induction h with
  | nil i => exact ⟨none, rfl⟩
  | absent i r rs ws h0 hl ih =>
    rw [matchBarFrom.eq_def]
    subst h0
    simp only [if_true]
    exact ih hk
  | mem32 i r rs ws base k hr hl ih =>
    obtain ⟨h4, h32, hal, hb, hv, hm⟩ := hr
    have hb16 := mod16_of_align base k h4 hal
    have hb4 : ¬ (r.val &&& 4 ≠ 0) := by rw [and_b2]; omega
    have ih' := ih (fun w hw => hk w (by simp [hw]))
    rw [matchBarFrom.eq_def]
    simp only [hb4, if_false]
    repeat' split
    all_goals first | exact ⟨_, rfl⟩ | exact ih'
  | io i r rs ws base k hr hl ih =>
    obtain ⟨h4, h32, hal, hb, hv, hm⟩ := hr
    have hb4' := mod4_of_align base k h4 hal
    have hb1 : (r.val &&& 1 ≠ 0) := by rw [and_1]; omega
    have ih' := ih (fun w hw => hk w (by simp [hw]))
    rw [matchBarFrom.eq_def]
    simp only [hb1, ne_eq, not_false_eq_true, if_true]
    repeat' split
    all_goals first | exact ⟨_, rfl⟩ | exact ih'
  | mem64 i lo hi rs ws base k hr hl ih =>
    obtain ⟨h4, h64, hal, hb, hv, hvh, hm, hmh⟩ := hr
    have h32 : k < 32 := hk ⟨i, false, true, base, k⟩ (by simp)
    have hb16 := mod16_of_align base k h4 hal
    have ⟨hp1, hp2⟩ := pow_bounds k 32 h32
    have hm0 : lo.mask ≠ 0 := by omega
    have hb1 : ¬ (lo.val &&& 1 ≠ 0) := by rw [and_1]; omega
    have hb4 : (lo.val &&& 4 ≠ 0) := by rw [and_b2]; omega
    have ih' := ih (fun w hw => hk w (by simp [hw]))
    rw [matchBarFrom.eq_def]
    simp only [hm0, if_false, hb1]
    simp only [hb4, ne_eq, not_false_eq_true, if_true]
    repeat' split
    all_goals first | exact ⟨_, rfl⟩ | exact ih'

end Pcie
