import Mathlib.Tactic.Tauto
import Mathlib.Tactic.ByContra
import Verif.Spec.Caps
namespace Pcie
namespace CapList
open Spec

/-! ### Sorting -/

theorem mem_insert (key : Nat → Nat) (x y : Nat) (l : List Nat) : y ∈ insert key x l ↔ y = x ∨ y ∈ l := by
  induction l with
  | nil => simp [insert]
  | cons z l ih =>
    simp only [insert]
    split
    · simp
    · simp only [List.mem_cons, ih]; tauto

theorem mem_sort (key : Nat → Nat) (y : Nat) (l : List Nat) : y ∈ sort key l ↔ y ∈ l := by
  induction l with
  | nil => simp [sort]
  | cons x l ih => simp [sort, mem_insert, ih]

theorem sorted_insert (key : Nat → Nat) (x : Nat) {l : List Nat} (h : l.Pairwise fun a b => key a ≤ key b) :
    (insert key x l).Pairwise fun a b => key a ≤ key b := by
  induction l with
  | nil => simp [insert]
  | cons y l ih =>
    obtain ⟨h1, h2⟩ := List.pairwise_cons.1 h
    simp only [insert]
    split
    · rename_i hxy
      refine List.pairwise_cons.2 ⟨?_, h⟩
      intro z hz
      rcases List.mem_cons.1 hz with h' | h'
      · rw [h']; exact hxy
      · exact Nat.le_trans hxy (h1 z h')
    · rename_i hxy
      refine List.pairwise_cons.2 ⟨?_, ih h2⟩
      intro z hz
      rcases (mem_insert key x z l).1 hz with h' | h'
      · rw [h']; omega
      · exact h1 z h'

theorem sorted_sort (key : Nat → Nat) (l : List Nat) : (sort key l).Pairwise fun a b => key a ≤ key b := by
  induction l with
  | nil => simp [sort]
  | cons x l ih => exact sorted_insert key x ih

theorem nodup_insert (key : Nat → Nat) (x : Nat) {l : List Nat} (h : l.Nodup) (hx : x ∉ l) : (insert key x l).Nodup := by
  induction l with
  | nil => simp [insert]
  | cons y l ih =>
    obtain ⟨h1, h2⟩ := List.nodup_cons.1 h
    simp only [List.mem_cons, not_or] at hx
    simp only [insert]
    split
    · exact List.nodup_cons.2 ⟨by simp [hx], h⟩
    · refine List.nodup_cons.2 ⟨?_, ih h2 hx.2⟩
      rw [mem_insert]
      rintro (h' | h')
      · exact hx.1 h'.symm
      · exact h1 h'

theorem nodup_sort (key : Nat → Nat) {l : List Nat} (h : l.Nodup) : (sort key l).Nodup := by
  induction l with
  | nil => simp [sort]
  | cons x l ih =>
    obtain ⟨h1, h2⟩ := List.nodup_cons.1 h
    exact nodup_insert key x (ih h2) (by rw [mem_sort]; exact h1)

/-- A sorted list stays as it is. -/
theorem sort_sorted (key : Nat → Nat) {l : List Nat} (h : l.Pairwise fun a b => key a ≤ key b) : sort key l = l := by
  induction l with
  | nil => rfl
  | cons x l ih =>
    obtain ⟨h1, h2⟩ := List.pairwise_cons.1 h
    rw [sort, ih h2]
    cases l with
    | nil => rfl
    | cons y l => rw [insert, if_pos (h1 y (by simp))]

/-! ### Linking -/

/-- Two capability objects differ at most in the pointer to the next. -/
def SameCap (a b : CapObj) : Prop := { a with next := 0 } = { b with next := 0 }

theorem SameCap.rfl' (a : CapObj) : SameCap a a := rfl
theorem SameCap.trans {a b c : CapObj} (h : SameCap a b) (h' : SameCap b c) : SameCap a c := Eq.trans h h'
theorem SameCap.offset {a b : CapObj} (h : SameCap a b) : a.offset = b.offset := by have := congrArg CapObj.offset h; exact this
theorem SameCap.length {a b : CapObj} (h : SameCap a b) : a.length = b.length := by have := congrArg CapObj.length h; exact this
theorem SameCap.capId {a b : CapObj} (h : SameCap a b) : a.capId = b.capId := by have := congrArg CapObj.capId h; exact this
theorem SameCap.regs {a b : CapObj} (h : SameCap a b) : a.regs = b.regs := by have := congrArg CapObj.regs h; exact this
theorem SameCap.ver {a b : CapObj} (h : SameCap a b) : a.ver = b.ver := by have := congrArg CapObj.ver h; exact this

theorem set_next (s : CapList) (c n k : Nat) : SameCap ((s.set c { s.objs c with next := n }).objs k) (s.objs k) := by
  simp only [set]
  split
  · rename_i h; subst h; rfl
  · rfl

theorem link_same (l : List Nat) : ∀ (s : CapList), (link s l).list = s.list ∧ (link s l).start = s.start ∧
    ∀ k, SameCap ((link s l).objs k) (s.objs k) := by
  induction l with
  | nil => intro s; exact ⟨rfl, rfl, fun _ => rfl⟩
  | cons a l ih =>
    cases l with
    | nil => intro s; exact ⟨rfl, rfl, fun _ => rfl⟩
    | cons b rest =>
      intro s
      obtain ⟨h1, h2, h3⟩ := ih ((s.set a { s.objs a with next := s.off b * 4 }).set b
        { (s.set a { s.objs a with next := s.off b * 4 }).objs b with next := 0 })
      refine ⟨h1, h2, fun k => (h3 k).trans ((set_next _ b 0 k).trans (set_next s a _ k))⟩

theorem link_off (s : CapList) (l : List Nat) (k : Nat) : (link s l).off k = s.off k := by
  simp only [off, ((link_same l s).2.2 k).offset]

theorem link_len (s : CapList) (l : List Nat) (k : Nat) : (link s l).len k = s.len k := by
  simp only [len, ((link_same l s).2.2 k).length]

theorem build_same (s : CapList) : (build s).list = sort s.off s.list ∧ (build s).start = s.start ∧
    ∀ k, SameCap ((build s).objs k) (s.objs k) := by
  have := link_same (sort s.off s.list) { s with list := sort s.off s.list }
  exact this

theorem build_off (s : CapList) (k : Nat) : (build s).off k = s.off k := by simp only [off, ((build_same s).2.2 k).offset]
theorem build_len (s : CapList) (k : Nat) : (build s).len k = s.len k := by simp only [len, ((build_same s).2.2 k).length]
theorem build_off' (s : CapList) : (build s).off = s.off := funext (build_off s)

/-! ### Placement -/

theorem place_mono (s : CapList) (n : Nat) (l : List Nat) : ∀ o, o ≤ place s n o l := by
  induction l with
  | nil => intro o; exact Nat.le_refl _
  | cons c cs ih =>
    intro o
    rw [place]
    split
    · have := ih (s.off c + s.len c); omega
    · exact ih o

theorem place_stop (s : CapList) (n : Nat) {l : List Nat} {o : Nat} (h : ∀ c ∈ l, o + n ≤ s.off c + 1) : place s n o l = o := by
  induction l with
  | nil => rfl
  | cons c cs ih =>
    have := h c (by simp)
    rw [place, if_neg (by omega)]
    exact ih fun c hc => h c (by simp [hc])

theorem place_spec (s : CapList) (n : Nat) {l : List Nat} (hs : l.Pairwise fun a b => s.off a ≤ s.off b) (hl : ∀ c ∈ l, 1 ≤ s.len c) :
    ∀ o, ∀ c ∈ l, s.off c + s.len c ≤ place s n o l ∨ place s n o l + n ≤ s.off c + 1 := by
  induction l with
  | nil => intro o c hc; simp at hc
  | cons d cs ih =>
    intro o c hc
    obtain ⟨h1, h2⟩ := List.pairwise_cons.1 hs
    have hld := hl d (by simp)
    have ih := ih h2 (fun c hc => hl c (by simp [hc]))
    rw [place]
    split
    · rcases List.mem_cons.1 hc with h | h
      · subst h; exact .inl (place_mono s n cs _)
      · exact ih _ c h
    · rename_i hcond
      rcases List.mem_cons.1 hc with h | h
      · subst h
        by_cases h3 : s.off c + s.len c ≤ o
        · exact .inl (Nat.le_trans h3 (place_mono s n cs _))
        · have h4 : o + n ≤ s.off c + 1 := by omega
          rw [place_stop s n (fun c' hc' => by have := h1 c' hc'; omega)]
          exact .inr h4
      · exact ih _ c h

theorem place_dvd (s : CapList) (n g : Nat) {l : List Nat} (h : ∀ c ∈ l, g ∣ s.off c ∧ g ∣ s.len c) :
    ∀ o, g ∣ o → g ∣ place s n o l := by
  induction l with
  | nil => intro o ho; exact ho
  | cons c cs ih =>
    intro o ho
    have hc := h c (by simp)
    have ih := ih (fun c hc => h c (by simp [hc]))
    rw [place]
    split
    · exact ih _ (Nat.dvd_add hc.1 hc.2)
    · exact ih _ ho

/-! ### The invariant -/

/-- The registers of the two capabilities are apart, up to an overlap of `δ`. -/
def Sep (δ : Nat) (s : CapList) (a b : Nat) : Prop := s.off a + s.len a ≤ s.off b + δ ∨ s.off b + s.len b ≤ s.off a + δ

/-- What holds after every call; `δ` = 1 always, `δ` = 0 if all lengths and offsets are multiples of some `g` > 1. -/
structure Inv (g δ : Nat) (s : CapList) : Prop where
  nodup : s.list.Nodup
  sorted : s.list.Pairwise fun a b => s.off a ≤ s.off b
  pos : ∀ c ∈ s.list, 1 ≤ s.off c
  len : ∀ k, 1 ≤ s.len k
  start : 1 ≤ s.start
  sep : ∀ a ∈ s.list, ∀ b ∈ s.list, a ≠ b → Sep δ s a b
  dvd : g ∣ s.start ∧ ∀ k, g ∣ s.off k ∧ g ∣ s.len k

theorem set_off (s : CapList) (c o k : Nat) :
    (s.set c { s.objs c with offset := some o }).off k = if k = c then o else s.off k := by
  simp only [off, set]; split <;> simp_all
theorem set_len (s : CapList) (c k : Nat) (o : Option Nat) : (s.set c { s.objs c with offset := o }).len k = s.len k := by
  simp only [len, set]; split <;> simp_all
theorem set_none (s : CapList) (c k : Nat) :
    (s.set c { s.objs c with offset := none }).off k = if k = c then 0 else s.off k := by
  simp only [off, set]; split <;> simp_all

theorem inv_build {g δ : Nat} {s : CapList} (h1 : s.list.Nodup) (h2 : ∀ c ∈ s.list, 1 ≤ s.off c) (h3 : ∀ k, 1 ≤ s.len k)
    (h4 : 1 ≤ s.start) (h5 : ∀ a ∈ s.list, ∀ b ∈ s.list, a ≠ b → Sep δ s a b)
    (h6 : g ∣ s.start ∧ ∀ k, g ∣ s.off k ∧ g ∣ s.len k) : Inv g δ (build s) := by
  obtain ⟨b1, b2, _⟩ := build_same s
  constructor
  · rw [b1]; exact nodup_sort _ h1
  · rw [b1, build_off']; exact sorted_sort _ _
  · intro c hc; rw [b1, mem_sort] at hc; rw [build_off]; exact h2 c hc
  · intro k; rw [build_len]; exact h3 k
  · rw [b2]; exact h4
  · intro a ha b hb hab
    rw [b1, mem_sort] at ha hb
    simpa [Sep, build_off, build_len] using h5 a ha b hb hab
  · simpa [b2, build_off, build_len] using h6

theorem nodup_append_one {l : List Nat} {c : Nat} (h : l.Nodup) (hc : c ∉ l) : (l ++ [c]).Nodup := by
  rw [List.nodup_append]
  exact ⟨h, by simp, by intro a ha b hb; simp at hb; rw [hb]; intro e; exact hc (e ▸ ha)⟩

theorem registerAuto_list (s : CapList) (c : Nat) (x : Nat) : x ∈ (registerAuto s c).list ↔ x = c ∨ x ∈ s.list := by
  simp only [registerAuto]
  rw [(build_same _).1, mem_sort]
  simp only [List.mem_append, List.mem_singleton, set]; tauto

theorem registerAuto_off (s : CapList) (c k : Nat) (hk : k ≠ c) : (registerAuto s c).off k = s.off k := by
  simp only [registerAuto]
  rw [build_off]
  have := set_off s c (place s (s.len c) s.start s.list) k
  rw [if_neg hk] at this
  exact this

theorem registerAuto_len (s : CapList) (c k : Nat) : (registerAuto s c).len k = s.len k := by
  simp only [registerAuto]
  rw [build_len]
  exact set_len s c k _

/-- Where the automatic placement puts the capability. -/
def auto (s : CapList) (c : Nat) : Nat := place s (s.len c) s.start s.list

theorem auto_ge (s : CapList) (c : Nat) : s.start ≤ s.auto c := place_mono _ _ _ _

theorem auto_spec {g δ : Nat} {s : CapList} (h : Inv g δ s) (c : Nat) : ∀ x ∈ s.list, s.off x + s.len x ≤ s.auto c ∨ s.auto c + s.len c ≤ s.off x + 1 :=
  place_spec s (s.len c) h.sorted (fun c _ => h.len c) s.start

theorem registerAuto_off_self (s : CapList) (c : Nat) : (registerAuto s c).off c = s.auto c := by
  simp only [registerAuto]
  rw [build_off]
  have := set_off s c (place s (s.len c) s.start s.list) c
  rw [if_pos rfl] at this
  exact this

theorem inv_auto_core {g δ : Nat} {s : CapList} (h : Inv g δ s) {c : Nat} (hc : c ∉ s.list)
    (hnew : ∀ x ∈ s.list, s.off x + s.len x ≤ s.auto c + δ ∨ s.auto c + s.len c ≤ s.off x + δ) : Inv g δ (registerAuto s c) := by
  have hgo : g ∣ s.auto c := place_dvd s _ g (fun k _ => h.dvd.2 k) _ h.dvd.1
  have hpm := auto_ge s c
  have hst := h.start
  simp only [registerAuto]
  change Inv g δ (build { s.set c { s.objs c with offset := some (s.auto c) } with list := s.list ++ [c] })
  generalize s.auto c = o at hgo hpm hnew
  have hT : ∀ T : CapList, T.list = s.list ++ [c] → T.start = s.start → (∀ k, T.off k = if k = c then o else s.off k) →
      (∀ k, T.len k = s.len k) → Inv g δ (build T) := by
    intro T hl hs hset hlen
    apply inv_build
    · rw [hl]; exact nodup_append_one h.nodup hc
    · intro x hx
      rw [hset]
      split
      · omega
      · rename_i hne
        simp only [hl, List.mem_append, List.mem_singleton] at hx
        rcases hx with h' | h'
        · exact h.pos x h'
        · exact absurd h' hne
    · intro k; rw [hlen]; exact h.len k
    · rw [hs]; exact h.start
    · intro a ha b hb hab
      simp only [hl, List.mem_append, List.mem_singleton] at ha hb
      simp only [Sep, hset, hlen]
      rcases ha with ha | ha <;> rcases hb with hb | hb
      · have h1 : a ≠ c := fun e => hc (e ▸ ha)
        have h2 : b ≠ c := fun e => hc (e ▸ hb)
        rw [if_neg h1, if_neg h2]
        exact h.sep a ha b hb hab
      · have h1 : a ≠ c := fun e => hc (e ▸ ha)
        rw [if_neg h1, if_pos hb, hb]
        exact hnew a ha
      · have h2 : b ≠ c := fun e => hc (e ▸ hb)
        rw [if_neg h2, if_pos ha, ha]
        exact (hnew b hb).symm
      · exact absurd (ha.trans hb.symm) hab
    · rw [hs]
      refine ⟨h.dvd.1, fun k => ?_⟩
      rw [hset, hlen]
      split
      · exact ⟨hgo, (h.dvd.2 k).2⟩
      · exact h.dvd.2 k
  exact hT _ rfl rfl (set_off s c o) (fun k => set_len s c k _)

theorem inv_auto {g δ : Nat} (hm : δ = 1 ∨ 1 < g) {s : CapList} (h : Inv g δ s) {c : Nat} (hc : c ∉ s.list) :
    Inv g δ (registerAuto s c) := by
  refine inv_auto_core h hc ?_
  have hgo : g ∣ s.auto c := place_dvd s _ g (fun k _ => h.dvd.2 k) _ h.dvd.1
  intro x hx
  rcases auto_spec h c x hx with h1 | h1
  · left; omega
  · right
    rcases hm with h2 | h2
    · omega
    · obtain ⟨p, hp⟩ := (h.dvd.2 x).1
      obtain ⟨q, hq⟩ := Nat.dvd_add hgo (h.dvd.2 c).2
      rw [hp, hq] at h1 ⊢
      have : q ≤ p := by
        by_contra hcon
        have h3 : g * (p + 1) ≤ g * q := Nat.mul_le_mul_left g (by omega)
        rw [Nat.mul_add] at h3; omega
      have := Nat.mul_le_mul_left g this
      omega

theorem inv_sub {g δ : Nat} {s : CapList} (h : Inv g δ s) (p : Nat → Bool) : Inv g δ { s with list := s.list.filter p } := by
  constructor
  · exact h.nodup.filter _
  · exact h.sorted.filter _
  · intro c hc; exact h.pos c (List.mem_filter.1 hc).1
  · exact h.len
  · exact h.start
  · intro a ha b hb; exact h.sep a (List.mem_filter.1 ha).1 b (List.mem_filter.1 hb).1
  · exact h.dvd

/-- Assigning an offset to a capability that is not registered. -/
theorem inv_set {g δ : Nat} {s : CapList} (h : Inv g δ s) {c : Nat} (hc : c ∉ s.list) (o : Option Nat) (ho : g ∣ o.getD 0) :
    Inv g δ (s.set c { s.objs c with offset := o }) := by
  have hoff : ∀ k, (s.set c { s.objs c with offset := o }).off k = if k = c then o.getD 0 else s.off k := by
    intro k; simp only [off, set]; split <;> simp_all
  have hlen := fun k => set_len s c k o
  have hne : ∀ x ∈ s.list, x ≠ c := fun x hx e => hc (e ▸ hx)
  constructor
  · exact h.nodup
  · refine List.Pairwise.imp_of_mem ?_ h.sorted
    intro a b ha hb hab
    rw [hoff, hoff, if_neg (hne a ha), if_neg (hne b hb)]; exact hab
  · intro x hx; rw [hoff, if_neg (hne x hx)]; exact h.pos x hx
  · intro k; rw [hlen]; exact h.len k
  · exact h.start
  · intro a ha b hb hab
    simp only [Sep, hoff, hlen, if_neg (hne a ha), if_neg (hne b hb)]
    exact h.sep a ha b hb hab
  · refine ⟨h.dvd.1, fun k => ?_⟩
    rw [hoff, hlen]
    split
    · exact ⟨ho, (h.dvd.2 k).2⟩
    · exact h.dvd.2 k

theorem rebump_list (s : CapList) (c x : Nat) : x ∈ (rebump s c).list ↔ x = c ∨ x ∈ s.list := registerAuto_list _ c x

theorem rebump_off (s : CapList) (c k : Nat) (hk : k ≠ c) : (rebump s c).off k = s.off k := by
  rw [rebump, registerAuto_off _ _ _ hk, set_none, if_neg hk]

theorem rebump_len (s : CapList) (c k : Nat) : (rebump s c).len k = s.len k := by
  rw [rebump, registerAuto_len, set_len]

theorem inv_rebump {g δ : Nat} (hm : δ = 1 ∨ 1 < g) (bump : List Nat) : ∀ {s : CapList}, Inv g δ s → bump.Nodup → (∀ c ∈ bump, c ∉ s.list) →
    Inv g δ (bump.foldl rebump s) ∧ (∀ x, x ∈ (bump.foldl rebump s).list ↔ x ∈ bump ∨ x ∈ s.list) ∧
      (∀ k, k ∉ bump → (bump.foldl rebump s).off k = s.off k) ∧ ∀ k, (bump.foldl rebump s).len k = s.len k := by
  induction bump with
  | nil => intro s h _ _; exact ⟨h, by simp, by simp, by simp⟩
  | cons c bump ih =>
    intro s h hn hb
    obtain ⟨h1, h2⟩ := List.nodup_cons.1 hn
    have hcs := hb c (by simp)
    have hi : Inv g δ (rebump s c) := inv_auto hm (inv_set h hcs none (by simp)) hcs
    obtain ⟨i1, i2, i3, i4⟩ := ih hi h2 (fun x hx hx' => by
      rcases (rebump_list s c x).1 hx' with e | e
      · exact h1 (e ▸ hx)
      · exact hb x (by simp [hx]) e)
    refine ⟨i1, ?_, ?_, ?_⟩
    · intro x
      rw [List.foldl_cons, i2, rebump_list]; simp only [List.mem_cons]; tauto
    · intro k hk
      simp only [List.mem_cons, not_or] at hk
      rw [List.foldl_cons, i3 k hk.2, rebump_off s c k hk.1]
    · intro k; rw [List.foldl_cons, i4, rebump_len]

/-- One registration. -/
theorem inv_register {g δ : Nat} (hm : δ = 1 ∨ 1 < g) {s : CapList} (h : Inv g δ s) (c : Nat) (o : Option Nat) (ho : g ∣ o.getD 0) :
    Inv g δ (register s c o) ∧ (∀ x, x ∈ (register s c o).list ↔ x = c ∨ x ∈ s.list) ∧
      (∀ v, o = some v → v ≠ 0 → (register s c o).off c = v) ∧ (∀ k, (register s c o).len k = s.len k) := by
  -- the state before placement
  have hs0 : Inv g δ { s with list := s.list.filter (· ≠ c) } := inv_sub h _
  have hc0 : c ∉ s.list.filter (· ≠ c) := by simp
  have hmem0 : ∀ x, x ∈ s.list.filter (· ≠ c) ↔ x ∈ s.list ∧ x ≠ c := by intro x; simp
  have key : ∀ s1 : CapList, Inv g δ s1 → s1.list = s.list.filter (· ≠ c) → (∀ k, s1.len k = s.len k) →
      ∀ r, r = (if s1.off c ≠ 0 then
        (s1.list.filter fun x => s1.overlap x c).foldl rebump (build { s1 with list := s1.list.filter (fun x => ¬ s1.overlap x c) ++ [c] })
        else registerAuto s1 c) →
      Inv g δ r ∧ (∀ x, x ∈ r.list ↔ x = c ∨ x ∈ s.list) ∧ (s1.off c ≠ 0 → r.off c = s1.off c) ∧ (∀ k, r.len k = s.len k) := by
    intro s1 hi hl hlen r hr
    have hc1 : c ∉ s1.list := by rw [hl]; exact hc0
    by_cases ho1 : s1.off c ≠ 0
    · rw [if_pos ho1] at hr
      have hb : Inv g δ (build { s1 with list := s1.list.filter (fun x => ¬ s1.overlap x c) ++ [c] }) := by
        apply inv_build
        · exact nodup_append_one (hi.nodup.filter _) (fun hm => hc1 (List.mem_filter.1 hm).1)
        · intro x hx
          simp only [List.mem_append, List.mem_singleton] at hx
          rcases hx with hx | hx
          · exact hi.pos x (List.mem_filter.1 hx).1
          · subst hx; show 1 ≤ s1.off x; omega
        · exact hi.len
        · exact hi.start
        · have hcx : ∀ x ∈ s1.list.filter (fun x => ¬ s1.overlap x c),
              s1.off x + s1.len x ≤ s1.off c ∨ s1.off c + s1.len c ≤ s1.off x := by
            intro x hx
            obtain ⟨hx1, hx2⟩ := List.mem_filter.1 hx
            have l1 := hi.len x
            have l2 := hi.len c
            simp [overlap] at hx2
            omega
          intro a ha b hb hab
          simp only [List.mem_append, List.mem_singleton] at ha hb
          rcases ha with ha | ha <;> rcases hb with hb | hb
          · exact hi.sep a (List.mem_filter.1 ha).1 b (List.mem_filter.1 hb).1 hab
          · subst hb
            show s1.off a + s1.len a ≤ s1.off b + δ ∨ s1.off b + s1.len b ≤ s1.off a + δ
            have := hcx a ha; omega
          · subst ha
            show s1.off a + s1.len a ≤ s1.off b + δ ∨ s1.off b + s1.len b ≤ s1.off a + δ
            have := hcx b hb; omega
          · exact absurd (ha.trans hb.symm) hab
        · exact hi.dvd
      obtain ⟨i1, i2, i3, i4⟩ := inv_rebump hm (s1.list.filter fun x => s1.overlap x c) hb (hi.nodup.filter _) (by
        intro x hx hx'
        rw [(build_same _).1, mem_sort] at hx'
        simp only [List.mem_append, List.mem_singleton, List.mem_filter] at hx hx'
        rcases hx' with hx' | hx'
        · simp [hx.2] at hx'
        · exact hc1 (hx' ▸ hx.1))
      subst hr
      refine ⟨i1, ?_, ?_, ?_⟩
      · intro x
        rw [i2, (build_same _).1, mem_sort]
        simp only [List.mem_append, List.mem_singleton, List.mem_filter]
        rw [hl]
        simp only [hmem0]
        by_cases hx : x = c
        · simp [hx]
        · cases hov : s1.overlap x c <;> simp [hx]
      · intro _
        rw [i3 c (fun hm => hc1 (List.mem_filter.1 hm).1), build_off]; rfl
      · intro k; rw [i4, build_len]; exact hlen k
    · rw [if_neg ho1] at hr
      subst hr
      refine ⟨inv_auto hm hi hc1, ?_, fun h' => absurd h' ho1, ?_⟩
      · intro x
        rw [registerAuto_list, hl, hmem0]
        by_cases hx : x = c <;> simp [hx]
      · intro k; rw [registerAuto_len]; exact hlen k
  cases o with
  | none =>
    obtain ⟨k1, k2, _, k4⟩ := key _ hs0 rfl (fun _ => rfl) _ rfl
    exact ⟨k1, k2, by simp, k4⟩
  | some v =>
    have hi := inv_set hs0 hc0 (some v) (by simpa using ho)
    obtain ⟨k1, k2, k3, k4⟩ := key _ hi rfl (fun k => set_len _ c k _) _ rfl
    refine ⟨k1, k2, ?_, k4⟩
    intro w hw hw0
    cases hw
    have e := set_off { s with list := s.list.filter (· ≠ c) } c v c
    rw [if_pos rfl] at e
    have := k3 (by rw [e]; exact hw0)
    exact this.trans e

theorem inv_deregister {g δ : Nat} {s : CapList} (h : Inv g δ s) (c : Nat) :
    Inv g δ (deregister s c) ∧ (∀ x, x ∈ (deregister s c).list ↔ x ∈ s.list ∧ x ≠ c) := by
  have hi : Inv g δ { s with list := s.list.filter (· ≠ c) } := inv_sub h _
  refine ⟨inv_build hi.nodup hi.pos hi.len hi.start hi.sep hi.dvd, ?_⟩
  intro x
  rw [deregister, (build_same _).1, mem_sort]; simp

end CapList
end Pcie
