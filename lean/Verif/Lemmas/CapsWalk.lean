import Verif.Lemmas.Caps
import Verif.Lemmas.Field
namespace Pcie
namespace CapList
open Spec

/-! ### Histories -/

theorem inv_new {s : CapList} (h : New s) (g δ : Nat) (hg : g ∣ s.start ∧ ∀ k, g ∣ s.len k) : Inv g δ s := by
  have h0 : ∀ k, s.off k = 0 := fun k => by simp [off, h.offsets k]
  exact ⟨by simp [h.empty], by simp [h.empty], by simp [h.empty], h.lengths, h.start, by simp [h.empty],
    hg.1, fun k => ⟨by rw [h0]; exact Nat.dvd_zero _, hg.2 k⟩⟩

theorem run_inv {g δ : Nat} (hm : δ = 1 ∨ 1 < g) {s : CapList} (h : Inv g δ s) (op : CapOp)
    (ho : ∀ c v, op = .register c (some v) → g ∣ v) : Inv g δ (op.run s) := by
  cases op with
  | register c o =>
    refine (inv_register hm h c o ?_).1
    cases o with
    | none => exact Nat.dvd_zero _
    | some v => exact ho c v rfl
  | deregister c => exact (inv_deregister h c).1

theorem after_inv {g δ : Nat} (hm : δ = 1 ∨ 1 < g) (ops : List CapOp) : ∀ {s : CapList}, Inv g δ s → Aligned g ops →
    Inv g δ (after s ops) := by
  induction ops with
  | nil => intro s h _; exact h
  | cons op ops ih =>
    intro s h ha
    exact ih (run_inv hm h op fun c v e => ha c v (by simp [e])) (fun c v hm => ha c v (by simp [hm]))

/-- Every history keeps the weak invariant. -/
theorem after_weak {s : CapList} (h : New s) (ops : List CapOp) : Inv 1 1 (after s ops) :=
  after_inv (.inl rfl) ops (inv_new h 1 1 ⟨Nat.one_dvd _, fun _ => Nat.one_dvd _⟩) fun _ _ _ => Nat.one_dvd _

theorem mem_run {s : CapList} (h : Inv 1 1 s) (op : CapOp) (x : Nat) :
    x ∈ (op.run s).list ↔ match op with | .register c _ => x = c ∨ x ∈ s.list | .deregister c => x ∈ s.list ∧ x ≠ c := by
  cases op with
  | register c o => exact (inv_register (.inl rfl) h c o (Nat.one_dvd _)).2.1 x
  | deregister c => exact (inv_deregister h c).2 x

theorem mem_after (ops : List CapOp) : ∀ {s : CapList} (p : Nat → Prop), Inv 1 1 s → (∀ x, x ∈ s.list ↔ p x) → ∀ x,
    x ∈ (after s ops).list ↔ ops.foldl (fun p op => match op with
      | .register c' _ => fun x => x = c' ∨ p x
      | .deregister c' => fun x => p x ∧ x ≠ c') p x := by
  induction ops with
  | nil => intro s p _ h x; exact h x
  | cons op ops ih =>
    intro s p hi h x
    refine ih _ (run_inv (.inl rfl) hi op fun _ _ _ => Nat.one_dvd _) ?_ x
    intro y
    rw [mem_run hi]
    cases op <;> simp [h]

theorem mem_registered {s : CapList} (h : New s) (ops : List CapOp) (x : Nat) : x ∈ (after s ops).list ↔ Registered ops x :=
  mem_after ops _ (inv_new h 1 1 ⟨Nat.one_dvd _, fun _ => Nat.one_dvd _⟩) (by simp [h.empty]) x

theorem noShare_of {g : Nat} {s : CapList} (h : Inv g 0 s) : NoShare s := by
  intro a b reg ⟨ha, ha1, ha2⟩ ⟨hb, hb1, hb2⟩
  by_contra hne
  rcases h.sep a ha b hb hne with h' | h' <;> omega

theorem shareOne_of {g : Nat} {s : CapList} (h : Inv g 1 s) : ShareOne s := by
  intro a b r r' hne ⟨ha, ha1, ha2⟩ ⟨hb, hb1, hb2⟩ ⟨_, ha1', ha2'⟩ ⟨_, hb1', hb2'⟩
  rcases h.sep a ha b hb hne with h' | h' <;> omega

/-! ### Automatic placement only -/

theorem place_mem (s : CapList) (n : Nat) (l : List Nat) : ∀ o, place s n o l = o ∨ ∃ c ∈ l, place s n o l = s.off c + s.len c := by
  induction l with
  | nil => intro o; exact .inl rfl
  | cons c cs ih =>
    intro o
    rw [place]
    split
    · rcases ih (s.off c + s.len c) with h | ⟨d, hd, h⟩
      · exact .inr ⟨c, by simp, h⟩
      · exact .inr ⟨d, by simp [hd], h⟩
    · rcases ih o with h | ⟨d, hd, h⟩
      · exact .inl h
      · exact .inr ⟨d, by simp [hd], h⟩

/-- The registered capabilities fill the registers from the start of the list up to `T`. -/
structure Cover (s : CapList) (T : Nat) : Prop where
  within : ∀ c ∈ s.list, s.start ≤ s.off c ∧ s.off c + s.len c ≤ T
  full : ∀ r, s.start ≤ r → r < T → ∃ c ∈ s.list, s.off c ≤ r ∧ r < s.off c + s.len c
  le : s.start ≤ T
  fresh : ∀ k, k ∉ s.list → s.off k = 0

theorem registerAuto_start (s : CapList) (c : Nat) : (registerAuto s c).start = s.start := by
  simp only [registerAuto]
  rw [(build_same _).2.1]; rfl

theorem cover_register {s : CapList} {T : Nat} (h : Inv 1 0 s) (hT : Cover s T) (hl : ∀ k, 2 ≤ s.len k) (c : Nat) :
    ∃ T', Inv 1 0 (register s c none) ∧ Cover (register s c none) T' ∧ (∀ k, 2 ≤ (register s c none).len k) ∧
      (register s c none).start = s.start := by
  by_cases hc : c ∈ s.list
  · -- it stays where it is
    have hpos := h.pos c hc
    have hov : ∀ x ∈ s.list, x ≠ c → s.overlap x c = false := by
      intro x hx hxc
      have l1 := h.len x
      have l2 := h.len c
      have := h.sep x hx c hc hxc
      simp only [Sep] at this
      simp [overlap]
      omega
    have e1 : (s.list.filter (· ≠ c)).filter (fun x => s.overlap x c) = [] := by
      rw [List.filter_eq_nil_iff]
      intro x hx
      obtain ⟨hx1, hx2⟩ := List.mem_filter.1 hx
      simp [hov x hx1 (by simpa using hx2)]
    have er : register s c none = build { s with list := (s.list.filter (· ≠ c)).filter (fun x => ¬ s.overlap x c) ++ [c] } := by
      show (if s.off c ≠ 0 then
        ((s.list.filter (· ≠ c)).filter fun x => s.overlap x c).foldl rebump
          (build { s with list := (s.list.filter (· ≠ c)).filter (fun x => ¬ s.overlap x c) ++ [c] })
        else _) = _
      rw [if_pos (by omega), e1]; rfl
    have hm : ∀ x, x ∈ (s.list.filter (· ≠ c)).filter (fun x => ¬ s.overlap x c) ++ [c] ↔ x ∈ s.list := by
      intro x
      simp only [List.mem_append, List.mem_filter, List.mem_singleton]
      constructor
      · rintro (⟨⟨h1, _⟩, _⟩ | h1)
        · exact h1
        · rw [h1]; exact hc
      · intro hx
        by_cases hxc : x = c
        · exact .inr hxc
        · exact .inl ⟨⟨hx, by simpa using hxc⟩, by simp [hov x hx hxc]⟩
    have hm' : ∀ x, x ∈ (register s c none).list ↔ x ∈ s.list := by
      intro x; rw [er, (build_same _).1, mem_sort]; exact hm x
    have ho : ∀ k, (register s c none).off k = s.off k := by intro k; rw [er, build_off]; rfl
    have hlen : ∀ k, (register s c none).len k = s.len k := by intro k; rw [er, build_len]; rfl
    have hst : (register s c none).start = s.start := by rw [er, (build_same _).2.1]
    refine ⟨T, ?_, ⟨?_, ?_, ?_, ?_⟩, ?_, hst⟩
    · rw [er]
      refine inv_build ?_ ?_ h.len h.start ?_ h.dvd
      · exact nodup_append_one ((h.nodup.filter _).filter _) (by simp)
      · intro x hx; exact h.pos x ((hm x).1 hx)
      · intro a ha b hb hab; exact h.sep a ((hm a).1 ha) b ((hm b).1 hb) hab
    · intro x hx; rw [ho, hlen, hst]; exact hT.within x ((hm' x).1 hx)
    · intro r h1 h2
      rw [hst] at h1
      obtain ⟨x, hx, hx1⟩ := hT.full r h1 h2
      exact ⟨x, (hm' x).2 hx, by rw [ho, hlen]; exact hx1⟩
    · rw [hst]; exact hT.le
    · intro k hk; rw [ho]; exact hT.fresh k (fun hk' => hk ((hm' k).2 hk'))
    · intro k; rw [hlen]; exact hl k
  · have hc0 := hT.fresh c hc
    have e1 : s.list.filter (· ≠ c) = s.list := by
      rw [List.filter_eq_self]; intro x hx; simp; intro e; exact hc (e ▸ hx)
    have er : register s c none = registerAuto s c := by
      show (if s.off c ≠ 0 then _ else registerAuto { s with list := s.list.filter (· ≠ c) } c) = _
      rw [if_neg (by omega), e1]
    rw [er]
    have hlc := hl c
    have hge := auto_ge s c
    have hend : ∀ x ∈ s.list, s.off x + s.len x ≤ s.auto c := by
      intro x hx
      rcases auto_spec h c x hx with h1 | h1
      · exact h1
      · exfalso
        have hw := hT.within x hx
        have := hl x
        obtain ⟨d, hd, hd1, hd2⟩ := hT.full (s.auto c) hge (by omega)
        rcases auto_spec h c d hd with h2 | h2 <;> omega
    have hTe : s.auto c = T := by
      apply Nat.le_antisymm
      · rcases place_mem s (s.len c) s.list s.start with h1 | ⟨d, hd, h1⟩
        · show place s (s.len c) s.start s.list ≤ T
          rw [h1]; exact hT.le
        · show place s (s.len c) s.start s.list ≤ T
          rw [h1]; exact (hT.within d hd).2
      · by_contra hlt
        obtain ⟨d, hd, hd1, hd2⟩ := hT.full (s.auto c) hge (by omega)
        have := hend d hd
        omega
    have hoff : ∀ x ∈ s.list, (registerAuto s c).off x = s.off x := fun x hx => registerAuto_off s c x (fun e => hc (e ▸ hx))
    have hst := registerAuto_start s c
    refine ⟨T + s.len c, inv_auto_core h hc (fun x hx => .inl (by have := hend x hx; omega)), ⟨?_, ?_, ?_, ?_⟩, ?_, hst⟩
    · intro x hx
      rw [hst, registerAuto_len]
      rcases (registerAuto_list s c x).1 hx with e | e
      · subst e; rw [registerAuto_off_self, hTe]; have := hT.le; omega
      · rw [hoff x e]; have := hT.within x e; omega
    · intro r h1 h2
      rw [hst] at h1
      by_cases h3 : r < T
      · obtain ⟨x, hx, hx1⟩ := hT.full r h1 h3
        exact ⟨x, (registerAuto_list s c x).2 (.inr hx), by rw [hoff x hx, registerAuto_len]; exact hx1⟩
      · refine ⟨c, (registerAuto_list s c c).2 (.inl rfl), ?_⟩
        rw [registerAuto_off_self, registerAuto_len, hTe]; omega
    · rw [hst]; have := hT.le; omega
    · intro k hk
      rw [registerAuto_list, not_or] at hk
      rw [registerAuto_off s c k hk.1]; exact hT.fresh k hk.2
    · intro k; rw [registerAuto_len]; exact hl k

theorem cover_after (ops : List CapOp) : ∀ {s : CapList} {T : Nat}, Inv 1 0 s → Cover s T → (∀ k, 2 ≤ s.len k) → Automatic ops →
    ∃ T', Inv 1 0 (after s ops) ∧ Cover (after s ops) T' ∧ (after s ops).start = s.start := by
  induction ops with
  | nil => intro s T h hT _ _; exact ⟨T, h, hT, rfl⟩
  | cons op ops ih =>
    intro s T h hT hl ha
    obtain ⟨c, rfl⟩ := ha op (by simp)
    obtain ⟨T', h1, h2, h3, h4⟩ := cover_register h hT hl c
    obtain ⟨T'', h5, h6, h7⟩ := ih h1 h2 h3 (fun op hop => ha op (by simp [hop]))
    exact ⟨T'', h5, h6, h7.trans h4⟩

theorem cover_new {s : CapList} (h : New s) : Cover s s.start :=
  ⟨by simp [h.empty], fun r h1 h2 => absurd h1 (by omega), Nat.le_refl _, fun k _ => by simp [off, h.offsets k]⟩

/-! ### The pointers -/

/-- The pointers lead through the list. -/
def Chained (s : CapList) : List Nat → Prop
  | [] => True
  | [a] => (s.objs a).next = 0
  | a :: b :: rest => (s.objs a).next = s.off b * 4 ∧ Chained s (b :: rest)

theorem link_notMem (l : List Nat) : ∀ (s : CapList) (k : Nat), k ∉ l → (link s l).objs k = s.objs k := by
  induction l with
  | nil => intro s k _; rfl
  | cons a l ih =>
    cases l with
    | nil => intro s k _; rfl
    | cons b rest =>
      intro s k hk
      rw [link, ih _ _ (fun h => hk (by simp only [List.mem_cons] at h ⊢; exact .inr h))]
      simp only [List.mem_cons, not_or] at hk
      simp [set, hk.1, hk.2.1]

theorem link_chained (l : List Nat) : ∀ (s : CapList), l.Nodup → (∀ x, l = [x] → (s.objs x).next = 0) → Chained (link s l) l := by
  induction l with
  | nil => intro s _ _; trivial
  | cons a l ih =>
    cases l with
    | nil => intro s _ h; exact h a rfl
    | cons b rest =>
      intro s hn _
      obtain ⟨h1, h2⟩ := List.nodup_cons.1 hn
      have hab : a ≠ b := fun e => h1 (by simp [e])
      have hoff := link_off s (a :: b :: rest) b
      rw [link] at hoff ⊢
      refine ⟨?_, ih _ h2 ?_⟩
      · rw [hoff, link_notMem _ _ _ h1]
        simp [set, hab]
      · intro x hx
        have hx : b = x := (List.cons.inj hx).1
        subst hx
        simp [set]

/-- A state right after `_build_linked_list`. -/
def Built (s : CapList) : Prop := ∃ s0 : CapList, s = build s0

theorem built_chained {s : CapList} (h : Built s) (hn : s.list.Nodup) (hl : 2 ≤ s.list.length) : Chained s s.list := by
  obtain ⟨s0, rfl⟩ := h
  rw [(build_same s0).1] at hn hl ⊢
  refine link_chained _ _ hn ?_
  intro x hx
  rw [hx] at hl; simp at hl

theorem foldl_built (bump : List Nat) : ∀ {s : CapList}, Built s → Built (bump.foldl rebump s) := by
  induction bump with
  | nil => intro s h; exact h
  | cons c bump ih => intro s _; exact ih ⟨_, rfl⟩

theorem built_run (s : CapList) (op : CapOp) : Built (op.run s) := by
  cases op with
  | register c o =>
    cases o <;> simp only [CapOp.run, register] <;> split
    · exact foldl_built _ ⟨_, rfl⟩
    · exact ⟨_, rfl⟩
    · exact foldl_built _ ⟨_, rfl⟩
    · exact ⟨_, rfl⟩
  | deregister c => exact ⟨_, rfl⟩

theorem built_after (ops : List CapOp) : ∀ {s : CapList}, Built s → Built (after s ops) := by
  induction ops with
  | nil => intro s h; exact h
  | cons op ops ih => intro s _; exact ih (built_run s op)

theorem build_nil {s : CapList} (h : s.list = []) : Built s := by
  refine ⟨s, ?_⟩
  cases s; simp only at h; subst h; rfl

/-- With registrations only, no pointer is set while there is at most one capability. -/
def Clean (s : CapList) : Prop := s.list.length ≤ 1 → ∀ k, (s.objs k).next = 0

theorem build_short {s : CapList} (h : s.list.length ≤ 1) : (build s).objs = s.objs := by
  rw [build]
  match hl : s.list with
  | [] => rfl
  | [x] => rfl
  | _ :: _ :: _ => rw [hl] at h; simp at h

theorem length_insert (key : Nat → Nat) (x : Nat) (l : List Nat) : (insert key x l).length = l.length + 1 := by
  induction l with
  | nil => rfl
  | cons y l ih => simp only [insert]; split <;> simp [ih]

theorem length_sort (key : Nat → Nat) (l : List Nat) : (sort key l).length = l.length := by
  induction l with
  | nil => rfl
  | cons x l ih => simp [sort, length_insert, ih]

theorem length_registerAuto (s : CapList) (c : Nat) : (registerAuto s c).list.length = s.list.length + 1 := by
  simp only [registerAuto]
  rw [(build_same _).1, length_sort]; simp [set]

theorem length_bump (bump : List Nat) : ∀ s : CapList, (bump.foldl rebump s).list.length = s.list.length + bump.length := by
  induction bump with
  | nil => intro s; rfl
  | cons c bump ih =>
    intro s
    rw [List.foldl_cons, ih, rebump, length_registerAuto]
    simp [set]; omega

theorem set_offset_next (s : CapList) (c k : Nat) (o : Option Nat) : ((s.set c { s.objs c with offset := o }).objs k).next = (s.objs k).next := by
  simp only [set]; split <;> simp_all

theorem clean_auto {s : CapList} (h : Clean s) (c : Nat) : Clean (registerAuto s c) := by
  intro hlen k
  have hlen' := hlen
  rw [length_registerAuto] at hlen'
  have h0 : s.list.length ≤ 1 := by omega
  simp only [registerAuto]
  rw [build_short (by show (s.list ++ [c]).length ≤ 1; rw [List.length_append, List.length_singleton]; omega)]
  rw [set_offset_next]
  exact h h0 k

theorem filter_length_le_of_nodup {l : List Nat} (c : Nat) (hn : l.Nodup) : l.length ≤ (l.filter (· ≠ c)).length + 1 := by
  induction l with
  | nil => simp
  | cons x l ih =>
    obtain ⟨h1, h2⟩ := List.nodup_cons.1 hn
    have ih := ih h2
    by_cases hx : x = c
    · have : l.filter (· ≠ c) = l := by
        rw [List.filter_eq_self]; intro y hy; simp; intro e; exact h1 (hx ▸ e ▸ hy)
      simp only [List.filter_cons, hx]
      simp only [ne_eq, not_true_eq_false, decide_false, Bool.false_eq_true, if_false]
      rw [show l.filter (fun x => decide (¬x = c)) = l from this]
      simp
    · simp only [List.filter_cons]
      simp only [ne_eq, hx, not_false_eq_true, decide_true, if_true, List.length_cons]
      simp only [ne_eq] at ih
      omega

theorem clean_register {s : CapList} (hn : s.list.Nodup) (h : Clean s) (c : Nat) (o : Option Nat) : Clean (register s c o) := by
  -- for the state after the capability has been taken out and its offset set
  have key : ∀ s1 : CapList, s1.list = s.list.filter (· ≠ c) → (∀ k, (s1.objs k).next = (s.objs k).next) →
      Clean (if s1.off c ≠ 0 then
        (s1.list.filter fun x => s1.overlap x c).foldl rebump (build { s1 with list := s1.list.filter (fun x => ¬ s1.overlap x c) ++ [c] })
        else registerAuto s1 c) := by
    intro s1 hl hnx hlen k
    by_cases ho : s1.off c ≠ 0
    · rw [if_pos ho] at hlen ⊢
      rw [length_bump, (build_same _).1, length_sort] at hlen
      simp only [List.length_append, List.length_singleton] at hlen
      have hz : (s1.list.filter fun x => s1.overlap x c).length = 0 := by omega
      have hz2 : (s1.list.filter (fun x => ¬ s1.overlap x c)).length = 0 := by omega
      have hsum : s1.list.length = 0 := by
        rw [List.length_eq_zero_iff] at hz hz2 ⊢
        rw [List.filter_eq_nil_iff] at hz hz2
        cases hs : s1.list with
        | nil => rfl
        | cons x l =>
          have a1 := hz x (by simp [hs])
          have a2 := hz2 x (by simp [hs])
          simp [a1] at a2
      rw [List.length_eq_zero_iff] at hz
      rw [hz]
      show ((build _).objs k).next = 0
      rw [build_short (by simp only [List.length_append, List.length_singleton]; omega)]
      show (s1.objs k).next = 0
      rw [hnx]
      refine h ?_ k
      have := filter_length_le_of_nodup c hn
      rw [← hl] at this; omega
    · rw [if_neg ho] at hlen ⊢
      have hlen' := hlen
      rw [length_registerAuto] at hlen'
      refine clean_auto (s := s1) ?_ c hlen k
      intro _ k
      rw [hnx]
      refine h ?_ k
      have := filter_length_le_of_nodup c hn
      rw [← hl] at this; omega
  cases o with
  | none => exact key { s with list := s.list.filter (· ≠ c) } rfl (fun _ => rfl)
  | some v => exact key (CapList.set { s with list := s.list.filter (· ≠ c) } c _) rfl (fun k => set_offset_next _ c k _)

theorem clean_after (ops : List CapOp) : ∀ {s : CapList}, Inv 1 1 s → Clean s → RegisterOnly ops → Clean (after s ops) := by
  induction ops with
  | nil => intro s _ h _; exact h
  | cons op ops ih =>
    intro s hi h ho
    obtain ⟨c, o, rfl⟩ := ho op (by simp)
    exact ih (run_inv (.inl rfl) hi _ fun _ _ _ => Nat.one_dvd _) (clean_register hi.nodup h c o) (fun op hop => ho op (by simp [hop]))

theorem chained_of_clean {s : CapList} (hb : Built s) (hn : s.list.Nodup) (hc : Clean s) : Chained s s.list := by
  match hl : s.list with
  | [] => trivial
  | [x] => exact hc (by simp [hl]) x
  | a :: b :: r => rw [← hl]; exact built_chained hb hn (by simp [hl])

/-! ### Walking -/

theorem find_of_noShare {s : CapList} (h : NoShare s) {c : Nat} (hc : c ∈ s.list) {r : Nat}
    (h1 : s.off c ≤ r) (h2 : r < s.off c + s.len c) : s.findByReg r = some c := by
  rw [findByReg]
  cases hf : s.list.find? (fun c => s.off c ≤ r ∧ r < s.off c + s.len c) with
  | none =>
    rw [List.find?_eq_none] at hf
    exact absurd (hf c hc) (by simp [h1, h2])
  | some d =>
    have hd := List.find?_some hf
    have hm := List.mem_of_find?_eq_some hf
    simp at hd
    rw [h d c r ⟨hm, hd⟩ ⟨hc, h1, h2⟩]

theorem head_bits (v n i : Nat) (hn : n < 64) :
    (v &&& 0xffff0000 ||| (n * 4 &&& 0xff) <<< 8 ||| i &&& 0xff) &&& 0xff = i &&& 0xff ∧
    ((v &&& 0xffff0000 ||| (n * 4 &&& 0xff) <<< 8 ||| i &&& 0xff) >>> 8 &&& 0xff) &&& 0xfc = n * 4 := by
  have h1 : n * 4 &&& 0xff = n * 4 := by
    rw [show (0xff : Nat) = 2 ^ 8 - 1 from rfl, Nat.and_two_pow_sub_one_eq_mod]; omega
  have h2 : n * 4 &&& 0xfc = n * 4 := (by decide +kernel : ∀ n < 64, n * 4 &&& 0xfc = n * 4) n hn
  have h3 : (n * 4) <<< 8 &&& 0xff = 0 := by
    rw [show (0xff : Nat) = 2 ^ 8 - 1 from rfl, Nat.and_two_pow_sub_one_eq_mod, Nat.shiftLeft_eq]; omega
  rw [h1]
  constructor
  · rw [Nat.and_or_distrib_right, Nat.and_or_distrib_right, h3, Nat.and_assoc, Nat.and_assoc]
    simp
  · rw [Nat.shiftRight_or_distrib, Nat.shiftRight_or_distrib, Nat.shiftRight_and_distrib, Nat.shiftRight_and_distrib,
      Nat.and_or_distrib_right, Nat.and_or_distrib_right, Nat.and_assoc, Nat.and_assoc]
    simp [Nat.shiftLeft_shiftRight]
    rw [Nat.and_or_distrib_right, Nat.and_assoc, h2]; simp

theorem ext_bits (n w i : Nat) (hn : n < 1024) :
    ((n * 4 &&& 0xfff) <<< 20 ||| (w &&& 0xf) <<< 16 ||| i &&& 0xffff) &&& 0xffff = i &&& 0xffff ∧
    ((n * 4 &&& 0xfff) <<< 20 ||| (w &&& 0xf) <<< 16 ||| i &&& 0xffff) >>> 20 &&& 0xffc = n * 4 ∧
    ((n * 4 &&& 0xfff) <<< 20 ||| (w &&& 0xf) <<< 16 ||| i &&& 0xffff) >>> 20 = n * 4 := by
  have h1 : n * 4 &&& 0xfff = n * 4 := by
    rw [show (0xfff : Nat) = 2 ^ 12 - 1 from rfl, Nat.and_two_pow_sub_one_eq_mod]; omega
  have h2 : n * 4 &&& 0xffc = n * 4 := (by decide +kernel : ∀ n < 1024, n * 4 &&& 0xffc = n * 4) n hn
  have h3 : (n * 4) <<< 20 &&& 0xffff = 0 := by
    rw [show (0xffff : Nat) = 2 ^ 16 - 1 from rfl, Nat.and_two_pow_sub_one_eq_mod, Nat.shiftLeft_eq]; omega
  have h4 : (w &&& 0xf) <<< 16 &&& 0xffff = 0 := by
    rw [show (0xffff : Nat) = 2 ^ 16 - 1 from rfl, Nat.and_two_pow_sub_one_eq_mod, Nat.shiftLeft_eq]; omega
  have h5 : (w &&& 0xf) <<< 16 >>> 20 = 0 := by
    rw [show (0xf : Nat) = 2 ^ 4 - 1 from rfl, Nat.and_two_pow_sub_one_eq_mod, Nat.shiftLeft_eq, Nat.shiftRight_eq_div_pow]; omega
  have h6 : (i &&& 0xffff) >>> 20 = 0 := by
    rw [show (0xffff : Nat) = 2 ^ 16 - 1 from rfl, Nat.and_two_pow_sub_one_eq_mod, Nat.shiftRight_eq_div_pow]; omega
  rw [h1]
  refine ⟨?_, ?_, ?_⟩
  · rw [Nat.and_or_distrib_right, Nat.and_or_distrib_right, h3, h4, Nat.and_assoc]
    simp
  · rw [Nat.shiftRight_or_distrib, Nat.shiftRight_or_distrib, h5, h6]
    simp [Nat.shiftLeft_shiftRight, h2]
  · rw [Nat.shiftRight_or_distrib, Nat.shiftRight_or_distrib, h5, h6]
    simp [Nat.shiftLeft_shiftRight]

/-- The pointer to the head of a list. -/
def ptrTo (s : CapList) : List Nat → Nat
  | [] => 0
  | c :: _ => s.off c * 4

theorem chained_next {s : CapList} {a : Nat} {l : List Nat} (h : Chained s (a :: l)) : (s.objs a).next = ptrTo s l ∧ Chained s l := by
  cases l with
  | nil => exact ⟨h, trivial⟩
  | cons b l => exact ⟨h.1, h.2⟩

theorem ptrTo_lt {s : CapList} {N : Nat} (hN : 1 ≤ N) : ∀ {l : List Nat}, (∀ c ∈ l, 1 ≤ s.off c ∧ s.off c < N) →
    ∃ n, ptrTo s l = n * 4 ∧ n < N
  | [], _ => ⟨0, rfl, hN⟩
  | c :: _, h => ⟨s.off c, rfl, (h c (by simp)).2⟩

theorem walk_step (rd : Nat → Nat) (fuel ptr : Nat) (h : ptr ≠ 0) : walk rd (fuel + 1) ptr =
    (walk rd fuel ((rd (ptr / 4) >>> 8 &&& 0xff) &&& 0xfc)).map ((rd (ptr / 4) &&& 0xff, ptr) :: ·) := by
  rw [walk, if_neg h]

theorem walkExt_step (rd : Nat → Nat) (fuel ptr : Nat) (h : ptr ≠ 0) : walkExt rd (fuel + 1) ptr =
    if rd (ptr / 4) = 0 ∨ rd (ptr / 4) = 0xffffffff then some []
    else (walkExt rd fuel (rd (ptr / 4) >>> 20 &&& 0xffc)).map ((rd (ptr / 4) &&& 0xffff, ptr) :: ·) := by
  rw [walkExt, if_neg h]

theorem walk_chained {s : CapList} (l : List Nat) : ∀ {fuel : Nat}, (∀ c ∈ l, s.findByReg (s.off c) = some c) →
    (∀ c ∈ l, 1 ≤ s.off c ∧ s.off c < 64) → Chained s l → l.length ≤ fuel →
    walk s.read fuel (ptrTo s l) = some (l.map fun c => ((s.objs c).capId &&& 0xff, s.off c * 4)) := by
  induction l with
  | nil => intro fuel _ _ _ _; unfold walk; rfl
  | cons a l ih =>
    intro fuel hf ho hch hlen
    obtain ⟨hnx, hch⟩ := chained_next hch
    obtain ⟨n, hn, hn64⟩ := ptrTo_lt (s := s) (N := 64) (by decide) (l := l) (fun c hc => ho c (by simp [hc]))
    have hoa := ho a (by simp)
    cases fuel with
    | zero => simp at hlen
    | succ fuel =>
      have ih := @ih fuel (fun c hc => hf c (by simp [hc])) (fun c hc => ho c (by simp [hc])) hch (by simpa using hlen)
      simp only [ptrTo]
      rw [walk_step _ _ _ (by omega), Nat.mul_div_cancel _ (by decide : 0 < 4)]
      simp only [read, hf a (by simp), Nat.sub_self, if_true]
      have hb := head_bits ((s.objs a).regs 0) n (s.objs a).capId hn64
      rw [hnx, hn, hb.1, hb.2, ← hn, ih]
      rfl

theorem walkExt_chained {s : CapList} (l : List Nat) : ∀ {fuel : Nat}, (∀ c ∈ l, s.findByReg (s.off c) = some c) →
    (∀ c ∈ l, 1 ≤ s.off c ∧ s.off c < 1024) → (∀ c ∈ l, (s.objs c).capId &&& 0xffff ≠ 0) → Chained s l → l.length ≤ fuel →
    walkExt s.readExt fuel (ptrTo s l) = some (l.map fun c => ((s.objs c).capId &&& 0xffff, s.off c * 4)) := by
  induction l with
  | nil => intro fuel _ _ _ _ _; unfold walkExt; rfl
  | cons a l ih =>
    intro fuel hf ho hid hch hlen
    obtain ⟨hnx, hch⟩ := chained_next hch
    obtain ⟨n, hn, hn64⟩ := ptrTo_lt (s := s) (N := 1024) (by decide) (l := l) (fun c hc => ho c (by simp [hc]))
    have hoa := ho a (by simp)
    cases fuel with
    | zero => simp at hlen
    | succ fuel =>
      have ih := @ih fuel (fun c hc => hf c (by simp [hc])) (fun c hc => ho c (by simp [hc])) (fun c hc => hid c (by simp [hc])) hch
        (by simpa using hlen)
      simp only [ptrTo]
      rw [walkExt_step _ _ _ (by omega), Nat.mul_div_cancel _ (by decide : 0 < 4)]
      simp only [readExt, hf a (by simp), Nat.sub_self, if_true]
      have hb := ext_bits n (s.objs a).ver (s.objs a).capId hn64
      rw [hnx, hn]
      rw [if_neg, hb.1, hb.2.1, ← hn, ih]
      · rfl
      · rintro (h' | h')
        · have := hb.1
          rw [h'] at this
          exact hid a (by simp) (by rw [← this]; rfl)
        · have := hb.2.2
          rw [h'] at this
          simp at this
          omega

end CapList
end Pcie

namespace Pcie
namespace CapList
open Spec

/-! ### What the calls leave alone -/

/-- Identity, version, length and contents are the same. -/
def Keep (s s' : CapList) : Prop := s'.start = s.start ∧ ∀ k, (s'.objs k).capId = (s.objs k).capId ∧ (s'.objs k).ver = (s.objs k).ver ∧
  (s'.objs k).length = (s.objs k).length ∧ (s'.objs k).regs = (s.objs k).regs

theorem Keep.trans {a b c : CapList} (h : Keep a b) (h' : Keep b c) : Keep a c :=
  ⟨h'.1.trans h.1, fun k => ⟨(h'.2 k).1.trans (h.2 k).1, (h'.2 k).2.1.trans (h.2 k).2.1, (h'.2 k).2.2.1.trans (h.2 k).2.2.1,
    (h'.2 k).2.2.2.trans (h.2 k).2.2.2⟩⟩

theorem keep_build (s : CapList) : Keep s (build s) :=
  ⟨(build_same s).2.1, fun k => by
    have h := (build_same s).2.2 k
    exact ⟨h.capId, h.ver, h.length, h.regs⟩⟩

theorem keep_set (s : CapList) (c : Nat) (o : Option Nat) : Keep s (s.set c { s.objs c with offset := o }) := by
  refine ⟨rfl, fun k => ?_⟩
  simp only [set]; split <;> simp_all

theorem keep_auto (s : CapList) (c : Nat) : Keep s (registerAuto s c) := by
  have h1 := keep_set s c (some (place s (s.len c) s.start s.list))
  exact h1.trans (keep_build { s.set c { s.objs c with offset := some (place s (s.len c) s.start s.list) } with list := s.list ++ [c] })

theorem keep_bump (bump : List Nat) : ∀ s : CapList, Keep s (bump.foldl rebump s) := by
  induction bump with
  | nil => intro s; exact ⟨rfl, fun _ => ⟨rfl, rfl, rfl, rfl⟩⟩
  | cons c bump ih => intro s; exact ((keep_set s c none).trans (keep_auto _ c)).trans (ih _)

theorem keep_run (s : CapList) (op : CapOp) : Keep s (op.run s) := by
  cases op with
  | deregister c => exact keep_build { s with list := s.list.filter (· ≠ c) }
  | register c o =>
    have key : ∀ s1 : CapList, Keep s s1 → Keep s (if s1.off c ≠ 0 then
        (s1.list.filter fun x => s1.overlap x c).foldl rebump (build { s1 with list := s1.list.filter (fun x => ¬ s1.overlap x c) ++ [c] })
        else registerAuto s1 c) := by
      intro s1 h
      split
      · exact (h.trans (keep_build { s1 with list := s1.list.filter (fun x => ¬ s1.overlap x c) ++ [c] })).trans (keep_bump _ _)
      · exact h.trans (keep_auto s1 c)
    cases o with
    | none => exact key { s with list := s.list.filter (· ≠ c) } ⟨rfl, fun _ => ⟨rfl, rfl, rfl, rfl⟩⟩
    | some v => exact key (CapList.set { s with list := s.list.filter (· ≠ c) } c _) (keep_set { s with list := s.list.filter (· ≠ c) } c (some v))

theorem keep_after (ops : List CapOp) : ∀ s : CapList, Keep s (after s ops) := by
  induction ops with
  | nil => intro s; exact ⟨rfl, fun _ => ⟨rfl, rfl, rfl, rfl⟩⟩
  | cons op ops ih => intro s; exact (keep_run s op).trans (ih _)

/-- The list is ordered strictly if nothing is shared. -/
theorem complete_of {s : CapList} (h : New s) (ops : List CapOp) (hs : NoShare (after s ops)) :
    Complete (after s ops) ops (after s ops).list := by
  have hi := after_weak h ops
  refine ⟨mem_registered h ops, hi.nodup, ?_⟩
  have := hi.sorted.and hi.nodup
  refine List.Pairwise.imp_of_mem ?_ this
  intro a b ha hb hab
  have l1 := hi.len a
  have l2 := hi.len b
  rcases Nat.lt_or_eq_of_le hab.1 with h' | h'
  · exact h'
  · exact absurd (hs a b (CapList.off _ a) ⟨ha, Nat.le_refl _, by omega⟩ ⟨hb, by omega, by omega⟩) hab.2

theorem run_caps (f : FnCaps) (ops : List CapOp) : (ops.foldl FnCaps.run f).caps = after f.caps ops := by
  induction ops generalizing f with
  | nil => rfl
  | cons op ops ih =>
    rw [List.foldl_cons, ih]
    cases op <;> rfl

theorem run_ptr (ops : List CapOp) : ∀ (f : FnCaps), f.ptr = ptrTo f.caps f.caps.list → RegisterOnly ops →
    (ops.foldl FnCaps.run f).ptr = ptrTo (ops.foldl FnCaps.run f).caps (ops.foldl FnCaps.run f).caps.list := by
  induction ops with
  | nil => intro f h _; exact h
  | cons op ops ih =>
    intro f h ho
    obtain ⟨c, o, rfl⟩ := ho op (by simp)
    refine ih _ ?_ (fun op hop => ho op (by simp [hop]))
    simp only [FnCaps.run]
    cases (CapOp.run f.caps (.register c o)).list <;> rfl

end CapList
end Pcie
