import Verif.Spec.UsCq
import Verif.Lemmas.Bar
import Verif.Lemmas.Route
import Mathlib.Data.List.Forall2
namespace Pcie
open Spec

theorem bitLength_ones (k : Nat) : bitLength (2 ^ k - 1) = k := by
  refine Nat.le_antisymm ((bitLength_le _ _).2 (by have := Nat.two_pow_pos k; omega)) ?_
  rcases Nat.eq_zero_or_pos k with rfl | hk
  · exact Nat.zero_le _
  · refine Classical.byContradiction fun hne => ?_
    have h1 : bitLength (2 ^ k - 1) ≤ k - 1 := by omega
    have h2 := (bitLength_le _ _).1 h1
    obtain ⟨j, rfl⟩ : ∃ j, k = j + 1 := ⟨k - 1, by omega⟩
    simp only [Nat.add_sub_cancel] at h2
    have := Nat.two_pow_pos j
    rw [Nat.pow_succ] at h2
    omega

theorem andNot_ones (W k : Nat) (h : k ≤ W) : andNot (2 ^ W - 1) (2 ^ W - 2 ^ k) = 2 ^ k - 1 := by
  rw [andNot_top _ W k h (by have := Nat.two_pow_pos W; omega)]
  have h1 := himask_eq W k h
  have h2 : 2 ^ W - 1 = 2 ^ k * (2 ^ (W - k) - 1) + (2 ^ k - 1) := by
    rw [Nat.mul_comm, ← h1]
    have := Nat.two_pow_pos k
    have := Nat.pow_le_pow_right (n := 2) (by omega) h
    omega
  rw [h2, Nat.mul_add_mod]
  exact Nat.mod_eq_of_lt (by have := Nat.two_pow_pos k; omega)

namespace UsDev

theorem aperture_io {bars : List BarReg} {ws : List Window} {i : Nat} (h : Layout i bars ws) {w : Window} (hw : w ∈ ws) (hio : w.io = true) :
    i ≤ w.idx ∧ aperture32 bars (w.idx - i) = .ok w.k := by
  induction h with
  | nil => cases hw
  | absent i r rs ws hr h ih =>
    obtain ⟨h1, h2⟩ := ih hw
    refine ⟨by omega, ?_⟩
    obtain ⟨j, hj⟩ : ∃ j, w.idx - i = j + 1 := ⟨w.idx - i - 1, by omega⟩
    rw [hj]
    rw [show w.idx - (i + 1) = j by omega] at h2
    simpa [aperture32] using h2
  | mem32 i r rs ws base k hr h ih =>
    rcases List.mem_cons.1 hw with rfl | hw
    · cases hio
    · obtain ⟨h1, h2⟩ := ih hw
      refine ⟨by omega, ?_⟩
      obtain ⟨j, hj⟩ : ∃ j, w.idx - i = j + 1 := ⟨w.idx - i - 1, by omega⟩
      rw [hj]
      rw [show w.idx - (i + 1) = j by omega] at h2
      simpa [aperture32] using h2
  | io i r rs ws base k hr h ih =>
    rcases List.mem_cons.1 hw with rfl | hw
    · refine ⟨Nat.le_refl _, ?_⟩
      simp only [Nat.sub_self, aperture32, List.getElem?_cons_zero, hr.2.2.2.2.2]
      rw [show (0xffffffff : Nat) = 2 ^ 32 - 1 by rfl, andNot_ones 32 k (by have := hr.2.1; omega), bitLength_ones]
    · obtain ⟨h1, h2⟩ := ih hw
      refine ⟨by omega, ?_⟩
      obtain ⟨j, hj⟩ : ∃ j, w.idx - i = j + 1 := ⟨w.idx - i - 1, by omega⟩
      rw [hj]
      rw [show w.idx - (i + 1) = j by omega] at h2
      simpa [aperture32] using h2
  | mem64 i lo hi rs ws base k hr h ih =>
    rcases List.mem_cons.1 hw with rfl | hw
    · cases hio
    · obtain ⟨h1, h2⟩ := ih hw
      refine ⟨by omega, ?_⟩
      obtain ⟨j, hj⟩ : ∃ j, w.idx - i = j + 2 := ⟨w.idx - i - 2, by omega⟩
      rw [hj]
      rw [show w.idx - (i + 2) = j by omega] at h2
      simpa [aperture32] using h2

theorem and4_of_mod16 {v b : Nat} (hb : b % 16 = 0) (h : v = b ∨ v = b + 8) : v &&& 4 = 0 := by
  have : v % 16 = 0 ∨ v % 16 = 8 := by omega
  have h2 : v &&& 4 = (v % 16) &&& 4 := by
    rw [show (16 : Nat) = 2 ^ 4 by rfl, ← Nat.and_two_pow_sub_one_eq_mod, Nat.and_assoc]
    rfl
  rw [h2]
  rcases this with h | h <;> rw [h] <;> rfl

theorem and4_of_mod16' {v b : Nat} (hb : b % 16 = 0) (h : v = b + 4 ∨ v = b + 12) : v &&& 4 ≠ 0 := by
  have : v % 16 = 4 ∨ v % 16 = 12 := by omega
  have h2 : v &&& 4 = (v % 16) &&& 4 := by
    rw [show (16 : Nat) = 2 ^ 4 by rfl, ← Nat.and_two_pow_sub_one_eq_mod, Nat.and_assoc]
    rfl
  rw [h2]
  rcases this with h | h <;> rw [h] <;> decide

theorem aperture_mem {bars : List BarReg} {ws : List Window} {i : Nat} (h : Layout i bars ws) {w : Window} (hw : w ∈ ws) (hio : w.io = false) :
    i ≤ w.idx ∧ apertureMem bars (w.idx - i) = .ok w.k := by
  induction h with
  | nil => cases hw
  | absent i r rs ws hr h ih =>
    obtain ⟨h1, h2⟩ := ih hw
    refine ⟨by omega, ?_⟩
    obtain ⟨j, hj⟩ : ∃ j, w.idx - i = j + 1 := ⟨w.idx - i - 1, by omega⟩
    rw [hj]
    rw [show w.idx - (i + 1) = j by omega] at h2
    simpa [apertureMem] using h2
  | mem32 i r rs ws base k hr h ih =>
    rcases List.mem_cons.1 hw with rfl | hw
    · refine ⟨Nat.le_refl _, ?_⟩
      obtain ⟨a1, a2, a3, a4, a5, a6⟩ := hr
      simp only [Nat.sub_self, apertureMem, List.getElem?_cons_zero, a6, and4_of_mod16 (mod16_of_align base k a1 a3) a5]
      rw [show (0xffffffff : Nat) = 2 ^ 32 - 1 by rfl, andNot_ones 32 k (by omega), bitLength_ones]
      rfl
    · obtain ⟨h1, h2⟩ := ih hw
      refine ⟨by omega, ?_⟩
      obtain ⟨j, hj⟩ : ∃ j, w.idx - i = j + 1 := ⟨w.idx - i - 1, by omega⟩
      rw [hj]
      rw [show w.idx - (i + 1) = j by omega] at h2
      simpa [apertureMem] using h2
  | io i r rs ws base k hr h ih =>
    rcases List.mem_cons.1 hw with rfl | hw
    · cases hio
    · obtain ⟨h1, h2⟩ := ih hw
      refine ⟨by omega, ?_⟩
      obtain ⟨j, hj⟩ : ∃ j, w.idx - i = j + 1 := ⟨w.idx - i - 1, by omega⟩
      rw [hj]
      rw [show w.idx - (i + 1) = j by omega] at h2
      simpa [apertureMem] using h2
  | mem64 i lo hi rs ws base k hr h ih =>
    rcases List.mem_cons.1 hw with rfl | hw
    · refine ⟨Nat.le_refl _, ?_⟩
      obtain ⟨a1, a2, a3, a4, a5, a6, a7, a8⟩ := hr
      have hb16 : base % 2 ^ 32 % 16 = 0 := by
        have := mod16_of_align base k a1 a3
        omega
      have hm : lo.mask ||| hi.mask <<< 32 = 2 ^ 64 - 2 ^ k := by
        have hlt : lo.mask < 2 ^ 32 := by rw [a7]; exact Nat.mod_lt _ (by decide)
        rw [Nat.or_comm, ← Nat.shiftLeft_add_eq_or_of_lt hlt, Nat.shiftLeft_eq, a7, a8]
        omega
      simp only [Nat.sub_self, apertureMem, List.getElem?_cons_zero, List.getElem?_cons_succ, Nat.zero_add, and4_of_mod16' hb16 a5, hm,
        ne_eq, not_false_eq_true, if_true]
      rw [show (0xffffffffffffffff : Nat) = 2 ^ 64 - 1 by rfl, andNot_ones 64 k (by omega), bitLength_ones]
    · obtain ⟨h1, h2⟩ := ih hw
      refine ⟨by omega, ?_⟩
      obtain ⟨j, hj⟩ : ∃ j, w.idx - i = j + 2 := ⟨w.idx - i - 2, by omega⟩
      rw [hj]
      rw [show w.idx - (i + 2) = j by omega] at h2
      simpa [apertureMem] using h2

/-- The scan of the functions is the one of the specification. -/
theorem findBar_spec (io : Bool) (addr : Nat) {fns : List RFn} {wss : List (List Window)} (h : Windows fns wss) (ha : addr < 2 ^ 64)
    (hw : addr < 2 ^ 32 ∨ ∀ ws ∈ wss, ∀ w ∈ ws, w.wide = true) (k : Nat) :
    findBar io addr k fns = .ok ((claimant io addr wss).map fun x => (k + x.1, x.2.idx)) := by
  unfold Windows at h
  induction h generalizing k with
  | nil => rfl
  | @cons f ws fns wss hd tl ih =>
    unfold findBar claimant
    have := matchBarFrom_layout io addr 0 f.bars ws hd.1 hd.2 ha (hw.imp id fun h => h ws List.mem_cons_self)
    rw [show matchBar f.bars addr io = _ from this]
    cases hf : ws.find? fun w => w.io == io && w.contains addr with
    | some w => simp
    | none =>
      simp only [Option.map_none]
      rw [ih (hw.imp id fun h ws hws => h ws (List.mem_cons_of_mem _ hws))]
      cases claimant io addr wss with
      | none => rfl
      | some x => simp [Nat.add_assoc, Nat.add_comm 1]

theorem claimant_zero {io : Bool} {addr : Nat} {wss : List (List Window)} {w : Window} (h : claimant io addr wss = some (0, w)) :
    ∃ ws rest, wss = ws :: rest ∧ w ∈ ws ∧ w.io = io ∧ w.contains addr = true := by
  match wss, h with
  | ws :: rest, h =>
    unfold claimant at h
    cases hf : ws.find? fun w => w.io == io && w.contains addr with
    | some v =>
      rw [hf] at h
      cases h
      have h1 := List.find?_some hf
      simp only [Bool.and_eq_true, beq_iff_eq] at h1
      exact ⟨ws, rest, rfl, List.mem_of_find?_eq_some hf, h1.1, h1.2⟩
    | none =>
      rw [hf] at h
      cases hc : claimant io addr rest with
      | none => rw [hc] at h; cases h
      | some x => rw [hc] at h; simp at h

theorem findId_some {id : PcieId} : ∀ {fns : List RFn} {j k : Nat}, findId id j fns = some k →
    ∃ f, j ≤ k ∧ fns[k - j]? = some f ∧ f.id = id ∧ ∀ (i : Nat) (g : RFn), i < k - j → fns[i]? = some g → g.id ≠ id
  | [], _, _, h => by cases h
  | f :: fns, j, k, h => by
    unfold findId at h
    by_cases hf : f.id = id
    · rw [if_pos hf] at h
      cases h
      refine ⟨f, Nat.le_refl _, by simp, hf, fun i g hi => ?_⟩
      omega
    · rw [if_neg hf] at h
      obtain ⟨g, h1, h2, h3, h4⟩ := findId_some h
      obtain ⟨m, hm⟩ : ∃ m, k - j = m + 1 := ⟨k - j - 1, by omega⟩
      refine ⟨g, by omega, ?_, h3, fun i g' hi hg => ?_⟩
      · rw [hm, List.getElem?_cons_succ, ← show k - (j + 1) = m by omega]; exact h2
      · cases i with
        | zero => rw [List.getElem?_cons_zero] at hg; cases hg; exact hf
        | succ i => rw [List.getElem?_cons_succ] at hg; exact h4 i g' (by omega) hg

theorem findId_none {id : PcieId} : ∀ {fns : List RFn} {j : Nat}, findId id j fns = none → ∀ f ∈ fns, f.id ≠ id
  | [], _, _ => nofun
  | f :: fns, j, h => by
    unfold findId at h
    by_cases hf : f.id = id
    · rw [if_pos hf] at h; cases h
    · rw [if_neg hf] at h
      intro g hg
      rcases List.mem_cons.1 hg with rfl | hg
      · exact hf
      · exact findId_none h g hg

/-- After the bus number has been taken: the same functions, on this bus. -/
theorem setBus_fns (d : Dev) (b : Nat) (hb : ∀ f ∈ d.fns, f.id.bus = d.bus) :
    (d.setBus b).bus = b ∧ (d.setBus b).fns = d.fns.map fun f => { f with id := { f.id with bus := b } } := by
  unfold Dev.setBus
  by_cases h : d.bus = b
  · rw [if_neg (by simp [h])]
    refine ⟨h, ?_⟩
    conv => lhs; rw [← List.map_id d.fns]
    refine List.map_congr_left fun f hf => ?_
    have := hb f hf
    obtain ⟨⟨fb, fd, ff⟩, _, _, _, _, _, _, _⟩ := f
    simp only at this ⊢
    rw [← h, ← this]
    rfl
  · rw [if_pos h]
    exact ⟨rfl, rfl⟩

theorem fn_recv (f : RFn) {t : Tlp} {ty : TlpType} (ht : t.fmtType = some ty) (hc : t.check = .ok true) (hp : Prepared f.handlers ty t) :
    ∃ f' es, f.upstreamRecv t = .ok (f', es) ∧ f'.id = f.id ∧ Taken ty t es := by
  obtain ⟨es, he, htk⟩ := handleTlp_spec ht hp
  unfold RFn.upstreamRecv
  rw [assertCheck_ok hc]
  simp only
  have key : ∀ g : RFn, g.handlers = f.handlers → g.id = f.id →
      ∃ f' es, (match handleTlp g.handlers t with
        | .error e => (.error e : Py (RFn × List Eff))
        | .ok es => .ok (g, es)) = .ok (f', es) ∧ f'.id = f.id ∧ Taken ty t es := by
    intro g h1 h2
    rw [h1, he]
    exact ⟨g, es, rfl, h2, htk⟩
  apply key
  · repeat' split
    all_goals rfl
  · repeat' split
    all_goals rfl

end UsDev
end Pcie
