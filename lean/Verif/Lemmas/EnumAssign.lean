/-
Helper lemmas: BAR assignment.
-/
import Verif.Lemmas.EnumHdr
namespace Pcie
open Spec

def Limits.Le (a b : Limits) : Prop := a.io ≤ b.io ∧ a.mem ≤ b.mem ∧ a.pref ≤ b.pref

theorem Limits.Le.refl (a : Limits) : a.Le a := ⟨Nat.le_refl _, Nat.le_refl _, Nat.le_refl _⟩
theorem Limits.Le.trans {a b c : Limits} (h : a.Le b) (g : b.Le c) : a.Le c :=
  ⟨Nat.le_trans h.1 g.1, Nat.le_trans h.2.1 g.2.1, Nat.le_trans h.2.2 g.2.2⟩
theorem Limits.Le.lim {a b : Limits} (h : a.Le b) (p : Pool) : lim a p ≤ lim b p := by
  cases p
  · exact h.1
  · exact h.2.1
  · exact h.2.2

/-- Raise one limit. -/
def Limits.setTo (l : Limits) (p : Pool) (v : Nat) : Limits :=
  match p with
  | .io => { l with io := v }
  | .mem => { l with mem := v }
  | .pref => { l with pref := v }

theorem lim_setTo (l : Limits) (p q : Pool) (v : Nat) : lim (l.setTo p v) q = if q = p then v else lim l q := by
  cases p <;> cases q <;> rfl

theorem setTo_le (l : Limits) (p : Pool) (v : Nat) (h : lim l p ≤ v) : l.Le (l.setTo p v) := by
  cases p <;> simp only [lim] at h <;> simp only [Limits.Le, Limits.setTo] <;> omega

/-- The regions have been allocated one after the other, starting from `l` and ending at or before `l'`. -/
inductive Seq : Limits → List Region → Limits → Prop
  | done (l l' : Limits) : l.Le l' → Seq l [] l'
  | next (l l' : Limits) (r : Region) (rs : List Region) : lim l r.pool ≤ r.base →
      Seq (l.setTo r.pool (r.base + r.size)) rs l' → Seq l (r :: rs) l'

theorem Seq.le {l rs l'} (h : Seq l rs l') : l.Le l' := by
  induction h with
  | done l l' h => exact h
  | next l l' r rs h1 h2 ih => exact (setTo_le l r.pool _ (by omega)).trans ih

theorem Seq.weaken_left {l rs l'} (h : Seq l rs l') (l0 : Limits) (h0 : l0.Le l) : Seq l0 rs l' := by
  induction h generalizing l0 with
  | done l l' h => exact .done _ _ (h0.trans h)
  | next l l' r rs h1 h2 ih =>
    refine .next _ _ _ _ (Nat.le_trans (h0.lim r.pool) h1) (ih _ ?_)
    have := h0
    obtain ⟨a, b, c⟩ := h0
    cases hp : r.pool <;> simp only [Limits.Le, Limits.setTo] <;> omega

theorem Seq.append {l as l1 bs l2} (h : Seq l as l1) (g : Seq l1 bs l2) : Seq l (as ++ bs) l2 := by
  induction h with
  | done l l' h => exact g.weaken_left l h
  | next l l' r rs h1 h2 ih => exact .next _ _ _ _ h1 (ih g)

theorem Seq.weaken_right {l rs l'} (h : Seq l rs l') (l2 : Limits) (h2 : l'.Le l2) : Seq l rs l2 := by
  have := h.append (.done l' l2 h2); simpa using this

theorem Seq.within {l rs l'} (h : Seq l rs l') : ∀ r ∈ rs, lim l r.pool ≤ r.base ∧ r.base + r.size ≤ lim l' r.pool := by
  induction h with
  | done => simp
  | next l l' r rs h1 h2 ih =>
    intro q hq
    rcases List.mem_cons.1 hq with rfl | hq
    · refine ⟨h1, ?_⟩
      have := h2.le.lim q.pool
      rw [lim_setTo, if_pos rfl] at this
      exact this
    · obtain ⟨a, b⟩ := ih q hq
      refine ⟨Nat.le_trans ((setTo_le l r.pool _ (by omega)).lim q.pool) a, b⟩

theorem Seq.pairwise {l rs l'} (h : Seq l rs l') : rs.Pairwise Apart := by
  induction h with
  | done => exact List.Pairwise.nil
  | next l l' r rs h1 h2 ih =>
    refine List.Pairwise.cons (fun q hq => ?_) ih
    by_cases hp : r.pool = q.pool
    · right; left
      have := (h2.within q hq).1
      rw [lim_setTo, if_pos hp.symm] at this
      exact this
    · exact Or.inl hp

/-- What `read_bars` has found out. -/
structure Known (i : Nat) (rs : List BarReg) (ws : List Window) (d : DevBars) : Prop where
  info : ∀ w ∈ ws, ∃ raw, d.info w.idx = some ⟨raw, 2 ^ w.k⟩ ∧ raw % 2 ^ 32 = (rs.getD (w.idx - i) {}).val
  absent : ∀ j < rs.length, Unused ws (i + j) → d.info (i + j) = some ⟨0, 0⟩

theorem Known.tail1 {i r rs ws ws0 d d'} (h : Known i (r :: rs) ws0 d) (hl : Layout (i + 1) rs ws)
    (hsub : ∀ w ∈ ws, w ∈ ws0) (hun : ∀ j, i + 1 ≤ j → Unused ws j → Unused ws0 j)
    (hd : ∀ j, i + 1 ≤ j → d'.info j = d.info j) : Known (i + 1) rs ws d' := by
  have hidx := layout_idx _ _ _ hl
  refine ⟨?_, ?_⟩
  · intro w hw
    obtain ⟨raw, h1, h2⟩ := h.info w (hsub w hw)
    exact ⟨raw, by rw [hd _ (hidx w hw)]; exact h1, by rw [h2, getD_cons_sub _ _ _ _ (hidx w hw)]⟩
  · intro j hj hu
    rw [hd _ (by omega)]
    have := h.absent (j + 1) (by simpa using hj) (by
      rw [show i + (j + 1) = i + 1 + j by omega]; exact hun _ (by omega) hu)
    rwa [show i + (j + 1) = i + 1 + j by omega] at this

theorem Known.tail2 {i lo hi rs ws ws0 d d'} (h : Known i (lo :: hi :: rs) ws0 d) (hl : Layout (i + 2) rs ws)
    (hsub : ∀ w ∈ ws, w ∈ ws0) (hun : ∀ j, i + 2 ≤ j → Unused ws j → Unused ws0 j)
    (hd : ∀ j, i + 2 ≤ j → d'.info j = d.info j) : Known (i + 2) rs ws d' := by
  have hidx := layout_idx _ _ _ hl
  refine ⟨?_, ?_⟩
  · intro w hw
    obtain ⟨raw, h1, h2⟩ := h.info w (hsub w hw)
    have := hidx w hw
    exact ⟨raw, by rw [hd _ (hidx w hw)]; exact h1, by
      rw [h2, getD_cons_sub _ _ _ _ (by omega), getD_cons_sub _ _ _ _ (by omega)]⟩
  · intro j hj hu
    rw [hd _ (by omega)]
    have := h.absent (j + 2) (by simpa using hj) (by
      rw [show i + (j + 2) = i + 2 + j by omega]; exact hun _ (by omega) hu)
    rwa [show i + (j + 2) = i + 2 + j by omega] at this

theorem bmu_flags (old b fl k : Nat) (hk : k ≤ 32) (ho : old < 2 ^ 32) (hal : b % 2 ^ k = 0) (hfl : fl < 2 ^ k)
    (hb : b + fl < 2 ^ 32) :
    byteMaskUpdate old 0xf (b + fl) (some (2 ^ 32 - 2 ^ k)) = byteMaskUpdate old 0xf b (some (2 ^ 32 - 2 ^ k)) := by
  rw [byteMaskUpdate_top _ _ _ hk ho hb, byteMaskUpdate_top _ _ _ hk ho (by omega), div_mul_of_align _ _ hal]
  congr 1
  have h1 := Nat.div_add_mod (b + fl) (2 ^ k)
  rw [align_mod _ _ _ hal hfl, Nat.mul_comm] at h1
  omega

theorem raw_low (raw v m : Nat) (h : raw % 2 ^ 32 = v) (j : Nat) (hj : j ≤ 32) (hm : m = 2 ^ j - 1) : raw &&& m = v % 2 ^ j := by
  rw [hm, Nat.and_two_pow_sub_one_eq_mod, ← h, mod_pow_mod _ _ _ hj]

theorem align_dvd (v k : Nat) : align v (2 ^ k - 1) % 2 ^ k = 0 ∧ v ≤ align v (2 ^ k - 1) :=
  ⟨Nat.mod_eq_zero_of_dvd (C01_align_least_multiple v k).1, (C01_align_least_multiple v k).2.1⟩

theorem fl_or_align (fl a k : Nat) (hal : a % 2 ^ k = 0) (hfl : fl < 2 ^ k) : fl ||| a = a + fl := by
  have := or_mul_add fl (a / 2 ^ k) k hfl
  rw [div_mul_of_align _ _ hal] at this
  omega

end Pcie
