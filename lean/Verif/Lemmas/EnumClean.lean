/-
Helper lemmas: the window registers of a bridge keep their read-only bits; windows determined by the registers.
-/
import Verif.Lemmas.EnumTree2
namespace Pcie
open Spec

theorem lt_of_tb (x w : Nat) (h : ∀ i, w ≤ i → x.testBit i = false) : x < 2 ^ w := Nat.lt_pow_two_of_testBit x h

theorem mod_of_tb (x k : Nat) (h : ∀ i < k, x.testBit i = false) : x % 2 ^ k = 0 := by
  apply Nat.eq_of_testBit_eq
  intro i
  rw [Nat.testBit_mod_two_pow, Nat.zero_testBit]
  by_cases hi : i < k
  · rw [h i hi]; simp
  · simp [hi]

theorem bmu_clean (x be d m w k : Nat) (hm : ∀ i, m.testBit i = true → k ≤ i ∧ i < w) (hx : x < 2 ^ w) (hk : x % 2 ^ k = 0) :
    byteMaskUpdate x be d (some m) < 2 ^ w ∧ byteMaskUpdate x be d (some m) % 2 ^ k = 0 := by
  constructor
  · apply lt_of_tb
    intro i hi
    rw [bmu_some, if_neg (fun h => by have := hm i h.2; omega)]
    exact tb_big x i w hx hi
  · apply mod_of_tb
    intro i hi
    rw [bmu_some, if_neg (fun h => by have := hm i h.2; omega)]
    exact mod_tb x k i hk hi

theorem bmu_none_clean (x be d w k : Nat) (hbe : ∀ i, be.testBit (i / 8) = true → k ≤ i ∧ i < w) (hx : x < 2 ^ w)
    (hk : x % 2 ^ k = 0) : byteMaskUpdate x be d none < 2 ^ w ∧ byteMaskUpdate x be d none % 2 ^ k = 0 := by
  constructor
  · apply lt_of_tb
    intro i hi
    rw [bmu_none, if_neg (fun h => by have := hbe i h; omega)]
    exact tb_big x i w hx hi
  · apply mod_of_tb
    intro i hi
    rw [bmu_none, if_neg (fun h => by have := hbe i h; omega)]
    exact mod_tb x k i hk hi

theorem or_lt (x y w : Nat) (hx : x < 2 ^ w) (hy : y < 2 ^ w) : x ||| y < 2 ^ w := Nat.or_lt_two_pow hx hy

theorem brClean_write {σ} (ops : CapOps σ) (f : Br σ) (reg data mask : Nat) (hm : mask < 16) (h : BrClean f) :
    BrClean (f.write ops reg data mask) := by
  obtain ⟨⟨h1, h1'⟩, h2, ⟨h3, h3'⟩, h4, ⟨h5, h5'⟩, h6⟩ := h
  have zk : ∀ x : Nat, x % 2 ^ 0 = 0 := fun x => by rw [Nat.pow_zero]; exact Nat.mod_one x
  have mF : ∀ i, (0xf000 : Nat).testBit i = true → 12 ≤ i ∧ i < 32 := by
    intro i hi; rw [c_f000] at hi; simp at hi; omega
  have mF0 : ∀ i, (0xf000 : Nat).testBit i = true → 0 ≤ i ∧ i < 32 := fun i hi => by have := mF i hi; omega
  have mM : ∀ i, (0xfff00000 : Nat).testBit i = true → 20 ≤ i ∧ i < 32 := by
    intro i hi; rw [c_fff0] at hi; simp at hi; omega
  have mM0 : ∀ i, (0xfff00000 : Nat).testBit i = true → 0 ≤ i ∧ i < 32 := fun i hi => by have := mM i hi; omega
  have mP : ∀ i, (0xfff00000 : Nat).testBit i = true → 20 ≤ i ∧ i < 64 := fun i hi => by have := mM i hi; omega
  have mP0 : ∀ i, (0xfff00000 : Nat).testBit i = true → 0 ≤ i ∧ i < 64 := fun i hi => by have := mM i hi; omega
  have bHi : ∀ i, ((mask &&& 3) <<< 2).testBit (i / 8) = true → 12 ≤ i ∧ i < 32 := by
    intro i hi
    rw [Nat.testBit_shiftLeft, show (3 : Nat) = 2 ^ 2 - 1 by decide, tb_field0] at hi
    simp at hi; omega
  have bC : ∀ i, (mask &&& 0xc).testBit (i / 8) = true → 0 ≤ i ∧ i < 32 := by
    intro i hi
    rw [Nat.testBit_and, c_c] at hi; simp at hi; omega
  have bM : ∀ i, (mask <<< 4).testBit (i / 8) = true → 20 ≤ i ∧ i < 64 := by
    intro i hi
    rw [Nat.testBit_shiftLeft] at hi
    simp only [Bool.and_eq_true, decide_eq_true_eq] at hi
    by_cases h4 : i / 8 - 4 < 4
    · omega
    · rw [tb_big mask _ 4 hm (by omega)] at hi; simp at hi
  have bM0 : ∀ i, (mask <<< 4).testBit (i / 8) = true → 0 ≤ i ∧ i < 64 := fun i hi => by have := bM i hi; omega
  rw [Br.write]
  by_cases e4 : reg = 4
  · rw [if_pos e4]
    exact ⟨⟨h1, h1'⟩, h2, ⟨h3, h3'⟩, h4, ⟨h5, h5'⟩, h6⟩
  rw [if_neg e4]
  by_cases e5 : reg = 5
  · rw [if_pos e5]
    exact ⟨⟨h1, h1'⟩, h2, ⟨h3, h3'⟩, h4, ⟨h5, h5'⟩, h6⟩
  rw [if_neg e5]
  by_cases e6 : reg = 6
  · rw [if_pos e6]
    exact ⟨⟨h1, h1'⟩, h2, ⟨h3, h3'⟩, h4, ⟨h5, h5'⟩, h6⟩
  rw [if_neg e6]
  by_cases e7 : reg = 7
  · rw [if_pos e7]
    refine ⟨?_, ?_, ⟨h3, h3'⟩, h4, ⟨h5, h5'⟩, h6⟩
    · simp only [Br.writeIo]; split
      · exact bmu_clean _ _ _ _ _ _ mF h1 h1'
      · exact ⟨h1, h1'⟩
    · simp only [Br.writeIo]; split
      · exact or_lt _ _ _ (bmu_clean _ _ _ _ _ 0 mF0 h2 (zk _)).1 (by decide)
      · exact h2
  rw [if_neg e7]
  by_cases e8 : reg = 8
  · rw [if_pos e8]
    exact ⟨⟨h1, h1'⟩, h2, bmu_clean _ _ _ _ _ _ mM h3 h3',
      or_lt _ _ _ (bmu_clean _ _ _ _ _ 0 mM0 h4 (zk _)).1 (by decide), ⟨h5, h5'⟩, h6⟩
  rw [if_neg e8]
  by_cases e9 : reg = 9
  · rw [if_pos e9]
    exact ⟨⟨h1, h1'⟩, h2, ⟨h3, h3'⟩, h4, bmu_clean _ _ _ _ _ _ mP h5 h5',
      or_lt _ _ _ (bmu_clean _ _ _ _ _ 0 mP0 h6 (zk _)).1 (by decide)⟩
  rw [if_neg e9]
  by_cases e10 : reg = 10
  · rw [if_pos e10]
    exact ⟨⟨h1, h1'⟩, h2, ⟨h3, h3'⟩, h4, bmu_none_clean _ _ _ _ _ bM h5 h5', h6⟩
  rw [if_neg e10]
  by_cases e11 : reg = 11
  · rw [if_pos e11]
    exact ⟨⟨h1, h1'⟩, h2, ⟨h3, h3'⟩, h4, ⟨h5, h5'⟩, (bmu_none_clean _ _ _ _ 0 bM0 h6 (zk _)).1⟩
  rw [if_neg e11]
  by_cases e12 : reg = 12
  · rw [if_pos e12]
    exact ⟨bmu_none_clean _ _ _ _ _ bHi h1 h1', (bmu_none_clean _ _ _ _ 0 bC h2 (zk _)).1, ⟨h3, h3'⟩, h4, ⟨h5, h5'⟩, h6⟩
  rw [if_neg e12]
  by_cases e14 : reg = 14
  · rw [if_pos e14]
    exact ⟨⟨h1, h1'⟩, h2, ⟨h3, h3'⟩, h4, ⟨h5, h5'⟩, h6⟩
  rw [if_neg e14]
  by_cases e15 : reg = 15
  · rw [if_pos e15]
    exact ⟨⟨h1, h1'⟩, h2, ⟨h3, h3'⟩, h4, ⟨h5, h5'⟩, h6⟩
  rw [if_neg e15]
  exact ⟨⟨h1, h1'⟩, h2, ⟨h3, h3'⟩, h4, ⟨h5, h5'⟩, h6⟩

/-- The kind and width of a window show in the low bits of its register, and its address is a multiple of its size. -/
theorem layout_kind (i : Nat) (rs : List BarReg) (ws : List Window) (h : Layout i rs ws) :
    ∀ w ∈ ws, (rs.getD (w.idx - i) {}).val % 2 = w.io.toNat ∧
      (w.io = false → (rs.getD (w.idx - i) {}).val / 4 % 2 = w.wide.toNat) ∧ (w.io = true → w.wide = false) ∧
      2 ^ w.k ∣ w.base ∧ w.idx - i < rs.length := by
  induction h with
  | nil => simp
  | absent i r rs ws h0 hl ih =>
    have hidx := layout_idx _ _ _ hl
    intro w hw
    rw [getD_cons_sub _ _ _ _ (hidx w hw)]
    have := ih w hw
    have := hidx w hw
    simp only [List.length_cons]
    exact ⟨(ih w hw).1, (ih w hw).2.1, (ih w hw).2.2.1, (ih w hw).2.2.2.1, by omega⟩
  | mem32 i r rs ws b k hr hl ih =>
    have hidx := layout_idx _ _ _ hl
    intro w hw
    rcases List.mem_cons.1 hw with rfl | hw
    · obtain ⟨h4, h32, hal, hb, hv, hm⟩ := hr
      have := mod16_of_align b k h4 hal
      simp only [Nat.sub_self, List.getD_cons_zero, Bool.toNat_false, List.length_cons]
      exact ⟨by omega, fun _ => by omega, by simp, Nat.dvd_of_mod_eq_zero hal, by omega⟩
    · rw [getD_cons_sub _ _ _ _ (hidx w hw)]
      have := ih w hw
      have := hidx w hw
      simp only [List.length_cons]
      exact ⟨(ih w hw).1, (ih w hw).2.1, (ih w hw).2.2.1, (ih w hw).2.2.2.1, by omega⟩
  | io i r rs ws b k hr hl ih =>
    have hidx := layout_idx _ _ _ hl
    intro w hw
    rcases List.mem_cons.1 hw with rfl | hw
    · obtain ⟨h4, h32, hal, hb, hv, hm⟩ := hr
      have := mod4_of_align b k h4 hal
      simp only [Nat.sub_self, List.getD_cons_zero, Bool.toNat_true, List.length_cons]
      exact ⟨by omega, by simp, by simp, Nat.dvd_of_mod_eq_zero hal, by omega⟩
    · rw [getD_cons_sub _ _ _ _ (hidx w hw)]
      have := ih w hw
      have := hidx w hw
      simp only [List.length_cons]
      exact ⟨(ih w hw).1, (ih w hw).2.1, (ih w hw).2.2.1, (ih w hw).2.2.2.1, by omega⟩
  | mem64 i lo hi rs ws b k hr hl ih =>
    have hidx := layout_idx _ _ _ hl
    intro w hw
    rcases List.mem_cons.1 hw with rfl | hw
    · obtain ⟨h4, h64, hal, hb, hv, hvh, hm, hmh⟩ := hr
      have := mod16_of_align b k h4 hal
      simp only [Nat.sub_self, List.getD_cons_zero, Bool.toNat_false, Bool.toNat_true, List.length_cons]
      exact ⟨by omega, fun _ => by omega, by simp, Nat.dvd_of_mod_eq_zero hal, by omega⟩
    · have := hidx w hw
      rw [getD_cons_sub _ _ _ _ (by omega), getD_cons_sub _ _ _ _ (hidx w hw)]
      have := ih w hw
      simp only [List.length_cons]
      exact ⟨(ih w hw).1, (ih w hw).2.1, (ih w hw).2.2.1, (ih w hw).2.2.2.1, by omega⟩

theorem fnRegions_aligned {σ} {cnt : Nat} {f : Common σ} {ws : List Window} {r : Option (Nat × Nat)} (h : FnRes cnt f ws r) :
    ∀ x ∈ fnRegions f ws r, x.size ∣ x.base := by
  intro x hx
  rcases List.mem_append.1 hx with hx | hx
  · obtain ⟨w, hw, rfl⟩ := List.mem_map.1 hx
    exact (layout_kind 0 _ _ h.lay w hw).2.2.2.1
  · have hr := h.rom
    cases r with
    | none => simp [romRegions] at hx
    | some p =>
      obtain ⟨b, k⟩ := p
      simp only [romRegions, List.mem_singleton] at hx
      rw [hx]
      exact Nat.dvd_of_mod_eq_zero hr.2.2.1

theorem tree_aligned {σ} {P : Common σ → DevBars → List Window → Option (Nat × Nat) → Prop} {b : Bus σ} {rs : List Region}
    (h : Tree P b rs) : ∀ x ∈ rs, x.size ∣ x.base := by
  induction h with
  | nil => simp
  | ep f d ws r rest rs hf _ _ ih =>
    intro x hx
    rcases List.mem_append.1 hx with hx | hx
    · exact fnRegions_aligned hf x hx
    · exact ih x hx
  | br f d ws r child rest cs rs hf _ _ _ ihc ih =>
    intro x hx
    rcases List.mem_append.1 hx with hx | hx
    · exact fnRegions_aligned hf x hx
    · rcases List.mem_append.1 hx with hx | hx
      · exact ihc x hx
      · exact ih x hx

end Pcie
