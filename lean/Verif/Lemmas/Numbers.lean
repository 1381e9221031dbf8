import Verif.Spec.Numbers
import Verif.Lemmas.EnumBridge
/- Lemmas for C38. -/
namespace Pcie
open Spec

theorem ins_perm {α : Type} (le : α → α → Bool) (a : α) : ∀ l : List α, (insSort.ins le a l).Perm (a :: l)
  | [] => .refl _
  | b :: r => by
    unfold insSort.ins
    split
    · exact .refl _
    · exact ((ins_perm le a r).cons b).trans (.swap a b r)

theorem insSort_perm {α : Type} (le : α → α → Bool) : ∀ l : List α, (insSort le l).Perm l
  | [] => .refl _
  | a :: r => (ins_perm le a _).trans ((insSort_perm le r).cons a)

theorem insSort_pairwise {α : Type} {le : α → α → Bool} (ht : ∀ a b c, le a b = true → le b c = true → le a c = true)
    (hl : ∀ a b, le a b = true ∨ le b a = true) : ∀ l : List α, (insSort le l).Pairwise fun a b => le a b = true
  | [] => .nil
  | a :: r => by
    have hins : ∀ l : List α, (l.Pairwise fun a b => le a b = true) → (insSort.ins le a l).Pairwise fun a b => le a b = true := by
      intro l
      induction l with
      | nil => intro _; simp [insSort.ins]
      | cons b l ih =>
        intro h
        rw [List.pairwise_cons] at h
        unfold insSort.ins
        split
        · rename_i hab
          rw [List.pairwise_cons, List.pairwise_cons]
          refine ⟨fun c hc => ?_, h⟩
          rcases List.mem_cons.mp hc with rfl | hc
          · exact hab
          · exact ht _ _ _ hab (h.1 c hc)
        · rename_i hab
          rw [List.pairwise_cons]
          refine ⟨fun c hc => ?_, ih h.2⟩
          rw [(ins_perm le a l).mem_iff] at hc
          rcases List.mem_cons.mp hc with rfl | hc
          · exact (hl c b).resolve_left hab
          · exact h.1 c hc
    exact hins _ (insSort_pairwise ht hl r)

namespace DevNums

theorem sorted_perm (l : List DevFn) : (sorted l).Perm l := insSort_perm _ l

theorem sorted_pairwise (l : List DevFn) : (sorted l).Pairwise fun a b => a.id.function ≤ b.id.function := by
  have := insSort_pairwise (le := fun a b : DevFn => decide (a.id.function ≤ b.id.function))
    (fun a b c h1 h2 => by simp only [decide_eq_true_eq] at *; omega)
    (fun a b => by simp only [decide_eq_true_eq]; omega) l
  simpa [sorted] using this

theorem mem_sorted {l : List DevFn} {f : DevFn} : f ∈ sorted l ↔ f ∈ l := (sorted_perm l).mem_iff

/-- The search for a gap in a strictly increasing list. -/
theorem gap_some : ∀ (l : List DevFn) (x y : Nat), l.Pairwise (fun a b => a.id.function < b.id.function) →
    (∀ f ∈ l, x ≤ f.id.function) → gap l x = some y →
    x ≤ y ∧ (∃ f ∈ l, y < f.id.function) ∧ (∀ f ∈ l, f.id.function ≠ y) ∧ ∀ j, x ≤ j → j < y → ∃ f ∈ l, f.id.function = j
  | [], _, _, _, _, h => by cases h
  | f :: r, x, y, hp, hge, h => by
    rw [List.pairwise_cons] at hp
    have hf := hge f (by simp)
    unfold gap at h
    split at h
    · rename_i hx
      cases h
      refine ⟨Nat.le_refl _, ⟨f, by simp, by omega⟩, ?_, fun j h1 h2 => by omega⟩
      intro g hg
      rcases List.mem_cons.mp hg with rfl | hg
      · exact hx
      · have := hp.1 g hg; omega
    · rename_i hx
      have hx : f.id.function = x := by simpa using hx
      obtain ⟨h1, ⟨g, hg, h2⟩, h3, h4⟩ := gap_some r (x + 1) y hp.2 (fun g hg => by have := hp.1 g hg; omega) h
      refine ⟨by omega, ⟨g, by simp [hg], h2⟩, ?_, ?_⟩
      · intro g hg
        rcases List.mem_cons.mp hg with rfl | hg
        · omega
        · exact h3 g hg
      · intro j h5 h6
        by_cases hj : j = x
        · exact ⟨f, by simp, by omega⟩
        · obtain ⟨g, hg, h7⟩ := h4 j (by omega) h6
          exact ⟨g, by simp [hg], h7⟩

theorem gap_none : ∀ (l : List DevFn) (x : Nat), gap l x = none →
    ∀ j, (∃ f ∈ l, f.id.function = j) ↔ x ≤ j ∧ j < x + l.length
  | [], x, _, j => by simp
  | f :: r, x, h, j => by
    unfold gap at h
    split at h
    · cases h
    · rename_i hx
      have hx : f.id.function = x := by simpa using hx
      have ih := gap_none r (x + 1) h j
      simp only [List.mem_cons, exists_eq_or_imp, ih, List.length_cons]
      omega

/-- Distinct function numbers, none above 7. -/
structure Inv (d : DevNums) : Prop where
  nodup : (d.fns.map (·.id.function)).Nodup
  le : ∀ f ∈ d.fns, f.id.function ≤ 7
  multi : 2 ≤ d.fns.length → ∀ f ∈ d.fns, f.multi = true

theorem sorted_strict {l : List DevFn} (h : (l.map (·.id.function)).Nodup) :
    (sorted l).Pairwise fun a b => a.id.function < b.id.function := by
  have h1 := sorted_pairwise l
  have h2 : (sorted l).Pairwise fun a b => a.id.function ≠ b.id.function := by
    have : ((sorted l).map (·.id.function)).Nodup := ((sorted_perm l).map _).nodup_iff.mpr h
    exact List.pairwise_map.mp this
  exact (h1.and h2).imp fun ⟨a, b⟩ => by omega

theorem nextFree_spec {d : DevNums} (hi : d.Inv) : match nextFree d.fns with
    | some k => LowestFree (HasFn d) 0 7 k
    | none => Full (HasFn d) 0 7 := by
  have hs := sorted_strict hi.nodup
  have hm : ∀ j, (∃ f ∈ sorted d.fns, f.id.function = j) ↔ HasFn d j := fun j => by simp only [mem_sorted, HasFn]
  simp only [nextFree]
  by_cases he : (sorted d.fns).isEmpty
  · simp only [he, if_true]
    refine ⟨by omega, by omega, ?_, fun j _ h => by omega⟩
    intro h
    obtain ⟨f, hf, -⟩ := (hm 0).mpr h
    rw [List.isEmpty_iff] at he
    rw [he] at hf; cases hf
  · simp only [he, Bool.false_eq_true, if_false]
    cases hg : gap (sorted d.fns) 0 with
    | some y =>
      obtain ⟨h1, ⟨f, hf, h2⟩, h3, h4⟩ := gap_some _ 0 y hs (fun f _ => by omega) hg
      refine ⟨by omega, ?_, ?_, fun j _ hj => (hm j).mp (h4 j (by omega) hj)⟩
      · have := hi.le f (mem_sorted.mp hf); omega
      · intro h
        obtain ⟨g, hg, h5⟩ := (hm y).mpr h
        exact h3 g hg h5
    | none =>
      have hn := gap_none _ 0 hg
      simp only
      split
      · rename_i k hk
        split at hk
        · cases hk
          refine ⟨by omega, by omega, ?_, fun j _ hj => (hm j).mp ((hn j).mpr ⟨by omega, by omega⟩)⟩
          intro h
          have := (hn _).mp ((hm _).mpr h); omega
        · cases hk
      · rename_i hk
        split at hk
        · cases hk
        · intro j _ hj
          exact (hm j).mp ((hn j).mpr ⟨by omega, by omega⟩)

theorem hasFn_any {d : DevNums} {k : Nat} : d.fns.any (fun g => g.id.function == k) = true ↔ HasFn d k := by
  simp [HasFn]

theorem add_used {d : DevNums} {f : DevFn} (h : HasFn d f.id.function) : d.add f = .error "Function number already in use" := by
  rw [add, if_pos (hasFn_any.mpr h)]

theorem add_new {d : DevNums} {f : DevFn} (h : ¬ HasFn d f.id.function) : ∃ d', d.add f = .ok d' ∧ d'.bus = d.bus ∧
    (d'.fns.map (·.id)).Perm (d.fns.map (·.id) ++ [f.id]) ∧ (2 ≤ d'.fns.length → ∀ g ∈ d'.fns, g.multi = true) := by
  refine ⟨⟨d.bus, if (sorted (d.fns ++ [f])).length > 1 then (sorted (d.fns ++ [f])).map ({ · with multi := true })
      else sorted (d.fns ++ [f])⟩, by rw [add, if_neg (fun hc => h (hasFn_any.mp hc))], rfl, ?_, ?_⟩
  · have : ((sorted (d.fns ++ [f])).map (·.id)).Perm (d.fns.map (·.id) ++ [f.id]) := by
      have := (sorted_perm (d.fns ++ [f])).map (·.id)
      simpa using this
    simp only
    split
    · rw [List.map_map]; exact this
    · exact this
  · simp only
    split
    · intro _ g hg
      obtain ⟨g', -, rfl⟩ := List.mem_map.mp hg
      rfl
    · intro h; omega

theorem inv_ids {d d' : DevNums} {i : PcieId} (h : (d'.fns.map (·.id)).Perm (d.fns.map (·.id) ++ [i])) (hi : d.Inv)
    (hle : i.function ≤ 7) (hn : ¬ HasFn d i.function) (hm : 2 ≤ d'.fns.length → ∀ g ∈ d'.fns, g.multi = true) :
    d'.Inv ∧ ∀ j, HasFn d' j ↔ HasFn d j ∨ j = i.function := by
  have hp : (d'.fns.map (·.id.function)).Perm (d.fns.map (·.id.function) ++ [i.function]) := by
    have := h.map PcieId.function
    simpa [List.map_map, Function.comp_def] using this
  have hmem : ∀ j, HasFn d' j ↔ HasFn d j ∨ j = i.function := fun j => by
    have := hp.mem_iff (a := j)
    simp only [List.mem_map, List.mem_append, List.mem_singleton] at this
    exact this
  refine ⟨⟨?_, ?_, hm⟩, hmem⟩
  · rw [hp.nodup_iff, List.nodup_append]
    refine ⟨hi.nodup, by simp, ?_⟩
    intro a ha b hb
    rw [List.mem_singleton] at hb
    subst hb
    rintro rfl
    exact hn (by simpa [HasFn] using ha)
  · intro f hf
    rcases (hmem f.id.function).mp ⟨f, hf, rfl⟩ with ⟨g, hg, e⟩ | e
    · have := hi.le g hg; omega
    · omega

theorem append_some {d : DevNums} (f : DevFn) {k : Nat} (hi : d.Inv) (hk : nextFree d.fns = some k) :
    ∃ d', d.append f = .ok d' ∧ d'.Inv ∧ ∀ j, HasFn d' j ↔ HasFn d j ∨ j = k := by
  have hs := nextFree_spec hi
  rw [hk] at hs
  have hm : ∀ j, HasFn { d with fns := sorted d.fns } j ↔ HasFn d j := fun j => by simp only [mem_sorted, HasFn]
  have hi' : DevNums.Inv { d with fns := sorted d.fns } := by
    refine ⟨((sorted_perm _).map _).nodup_iff.mpr hi.nodup, fun g hg => hi.le g (mem_sorted.mp hg), ?_⟩
    intro h2 g hg
    exact hi.multi (by rw [(sorted_perm d.fns).length_eq] at h2; exact h2) g (mem_sorted.mp hg)
  obtain ⟨d', h1, -, h2, h3⟩ := add_new (d := { d with fns := sorted d.fns }) (f := { f with id := ⟨d.bus, 0, k⟩ })
    (by rw [hm]; exact hs.2.2.1)
  obtain ⟨h4, h5⟩ := inv_ids h2 hi' hs.2.1 (by rw [hm]; exact hs.2.2.1) h3
  refine ⟨d', by simp only [append, hk]; exact h1, h4, fun j => ?_⟩
  rw [h5, hm]

theorem append_none {d : DevNums} (f : DevFn) (hk : nextFree d.fns = none) : d.append f = .error "TypeError" := by
  simp only [append, hk]

theorem inv_run {d d' : DevNums} (hi : d.Inv) {op : DevCall} (hop : ∀ f, op = .add f → f.id.function ≤ 7) (h : d.run op = .ok d') :
    d'.Inv := by
  have happ : ∀ f, d.append f = .ok d' → d'.Inv := fun f h => by
    cases hk : nextFree d.fns with
    | none => rw [append_none f hk] at h; cases h
    | some k =>
      obtain ⟨e, h1, h2, -⟩ := append_some f hi hk
      rw [h1] at h; cases h; exact h2
  cases op with
  | add f =>
    simp only [run] at h
    by_cases hu : HasFn d f.id.function
    · rw [add_used hu] at h; cases h
    · obtain ⟨e, h1, -, h2, h3⟩ := add_new hu
      rw [h1] at h; cases h
      exact (inv_ids h2 hi (hop f rfl) hu h3).1
  | append f => exact happ f h
  | make => exact happ {} h
  | setBus v =>
    simp only [run, setBus] at h
    split at h
    · cases h
    · cases h
      split
      · refine ⟨?_, ?_, ?_⟩
        · have := hi.nodup
          simpa [List.map_map, Function.comp_def] using this
        · intro f hf
          obtain ⟨g, hg, rfl⟩ := List.mem_map.mp hf
          exact hi.le g hg
        · intro h2 f hf
          rw [List.length_map] at h2
          obtain ⟨g, hg, rfl⟩ := List.mem_map.mp hf
          exact hi.multi h2 g hg
      · exact hi

theorem inv_all : ∀ (ops : List DevCall) {d d' : DevNums}, d.Inv → FnIds ops → ops.foldlM DevNums.run d = .ok d' → d'.Inv
  | [], _, _, hi, _, h => by cases h; exact hi
  | op :: r, d, d', hi, ho, h => by
    rw [List.foldlM_cons] at h
    cases h1 : d.run op with
    | error e => rw [h1] at h; cases h
    | ok e =>
      rw [h1] at h
      exact inv_all r (inv_run hi (fun f hf => ho f (by simp [hf])) h1) (fun f hf => ho f (by simp [hf])) h

theorem inv_empty : Inv {} := ⟨List.nodup_nil, by simp, by simp⟩

end DevNums

namespace PortNums

theorem sorted_perm (l : List PcieId) : (sorted l).Perm l := insSort_perm _ l

theorem sorted_pairwise (l : List PcieId) : (sorted l).Pairwise fun a b => a.device ≤ b.device := by
  have := insSort_pairwise
    (le := fun a b : PcieId => decide (a.device < b.device ∨ (a.device = b.device ∧ a.function ≤ b.function)))
    (fun a b c h1 h2 => by simp only [decide_eq_true_eq] at *; omega)
    (fun a b => by simp only [decide_eq_true_eq]; omega) l
  refine List.Pairwise.imp ?_ this
  intro a b h
  simp only [decide_eq_true_eq] at h
  omega

theorem mem_sorted {l : List PcieId} {e : PcieId} : e ∈ sorted l ↔ e ∈ l := (sorted_perm l).mem_iff

theorem gap_spec : ∀ (l : List PcieId) (d : Nat), l.Pairwise (fun a b => a.device ≤ b.device) → (∀ e ∈ l, d ≤ e.device + 1) →
    (∀ e ∈ l, e.device ≤ 31) → match gap l d with
    | some k => d ≤ k ∧ k ≤ 31 ∧ (∀ e ∈ l, e.device ≠ k ∨ k < d) ∧ ∀ j, d ≤ j → j < k → ∃ e ∈ l, e.device = j
    | none => ∀ j, d ≤ j → j ≤ 31 → ∃ e ∈ l, e.device = j
  | [], d, _, _, _ => by
    unfold gap
    by_cases h : d < 32
    · rw [if_pos h]; exact ⟨Nat.le_refl _, by omega, by simp, fun j h1 h2 => by omega⟩
    · rw [if_neg h]; intro j h1 h2; omega
  | e :: r, d, hp, hge, hle => by
    rw [List.pairwise_cons] at hp
    have he := hge e (by simp)
    have hl := hle e (by simp)
    unfold gap
    by_cases hd : e.device > d
    · rw [if_pos hd]
      refine ⟨Nat.le_refl _, by omega, ?_, fun j h1 h2 => by omega⟩
      intro g hg
      rcases List.mem_cons.mp hg with rfl | hg
      · exact .inl (by omega)
      · have := hp.1 g hg; exact .inl (by omega)
    · rw [if_neg hd]
      have ih := gap_spec r (e.device + 1) hp.2 (fun g hg => by have := hp.1 g hg; omega) (fun g hg => hle g (by simp [hg]))
      cases hg : gap r (e.device + 1) with
      | some k =>
        rw [hg] at ih
        obtain ⟨h1, h2, h3, h4⟩ := ih
        refine ⟨by omega, h2, ?_, ?_⟩
        · intro g hg
          rcases List.mem_cons.mp hg with rfl | hg
          · exact .inl (by omega)
          · rcases h3 g hg with h | h
            · exact .inl h
            · omega
        · intro j h5 h6
          by_cases hj : j = e.device
          · exact ⟨e, by simp, hj.symm⟩
          · obtain ⟨g, hg, h7⟩ := h4 j (by omega) h6
            exact ⟨g, by simp [hg], h7⟩
      | none =>
        rw [hg] at ih
        intro j h1 h2
        by_cases hj : j = e.device
        · exact ⟨e, by simp, hj.symm⟩
        · obtain ⟨g, hg, h3⟩ := ih j (by omega) h2
          exact ⟨g, by simp [hg], h3⟩

theorem nextFree_spec {s : PortNums} (h1 : s.minDev = 1) (h31 : ∀ e ∈ s.eps, e.device ≤ 31) : match s.nextFree with
    | some k => LowestFree (HasPort s) 1 31 k
    | none => Full (HasPort s) 1 31 := by
  have hm : ∀ j, (∃ e ∈ sorted s.eps, e.device = j) ↔ HasPort s j := fun j => by simp only [mem_sorted, HasPort]
  simp only [nextFree, h1]
  by_cases he : (sorted s.eps).isEmpty
  · simp only [he, if_true]
    refine ⟨by omega, by omega, ?_, fun j _ h => by omega⟩
    intro h
    obtain ⟨f, hf, -⟩ := (hm 1).mpr h
    rw [List.isEmpty_iff] at he
    rw [he] at hf; cases hf
  · simp only [he, Bool.false_eq_true, if_false]
    have hg := gap_spec (sorted s.eps) 1 (sorted_pairwise _) (fun e _ => by omega) (fun e h => h31 e (mem_sorted.mp h))
    cases hk : gap (sorted s.eps) 1 with
    | some k =>
      rw [hk] at hg
      refine ⟨hg.1, hg.2.1, ?_, fun j h2 h3 => (hm j).mp (hg.2.2.2 j h2 h3)⟩
      intro h
      obtain ⟨e, h4, h5⟩ := (hm k).mpr h
      rcases hg.2.2.1 e h4 with h6 | h6
      · exact h6 h5
      · have := hg.1; omega
    | none =>
      rw [hk] at hg
      exact fun j h2 h3 => (hm j).mp (hg j h2 h3)

theorem append_perm (s : PortNums) (e : PcieId) : (s.append e).eps.Perm (s.eps ++ [e]) := sorted_perm _

theorem append_has (s : PortNums) (e : PcieId) (j : Nat) : HasPort (s.append e) j ↔ HasPort s j ∨ j = e.device := by
  simp only [HasPort, (append_perm s e).mem_iff, List.mem_append, List.mem_singleton, or_and_right, exists_or, exists_eq_left]
  exact or_congr Iff.rfl eq_comm

theorem add_some {s : PortNums} {k : Nat} (h : s.nextFree = some k) : ∃ s', s.add = .ok s' ∧ s'.minDev = s.minDev ∧
    s'.eps.Perm (s.eps ++ [⟨0, k, 0⟩]) ∧ ∀ j, HasPort s' j ↔ HasPort s j ∨ j = k := by
  refine ⟨PortNums.append { s with eps := sorted s.eps } ⟨0, k, 0⟩, by simp only [add, h], rfl, ?_, ?_⟩
  · exact (append_perm _ _).trans ((sorted_perm s.eps).append_right _)
  · intro j
    rw [append_has]
    simp only [HasPort, mem_sorted]

structure Inv (s : PortNums) : Prop where
  min : s.minDev = 1
  le : ∀ e ∈ s.eps, e.device ≤ 31

theorem inv_run {s s' : PortNums} (hi : s.Inv) {op : PortCall} (hop : ∀ e, op = .append e → e.device ≤ 31) (h : s.run op = .ok s') :
    s'.Inv := by
  cases op with
  | add =>
    have hs := nextFree_spec hi.min hi.le
    simp only [run] at h
    cases hk : s.nextFree with
    | none => simp only [add, hk] at h; cases h
    | some k =>
      rw [hk] at hs
      obtain ⟨t, h1, h2, h3, -⟩ := add_some hk
      rw [h1] at h; cases h
      refine ⟨by rw [h2]; exact hi.min, fun e he => ?_⟩
      rw [h3.mem_iff] at he
      rcases List.mem_append.mp he with he | he
      · exact hi.le e he
      · rw [List.mem_singleton] at he; subst he; exact hs.2.1
  | append e =>
    cases h
    refine ⟨hi.min, fun g hg => ?_⟩
    rw [(append_perm s e).mem_iff] at hg
    rcases List.mem_append.mp hg with hg | hg
    · exact hi.le g hg
    · rw [List.mem_singleton] at hg; subst hg; exact hop g rfl

theorem inv_all : ∀ (ops : List PortCall) {s s' : PortNums}, s.Inv → PortIds ops → ops.foldlM PortNums.run s = .ok s' → s'.Inv
  | [], _, _, hi, _, h => by cases h; exact hi
  | op :: r, s, s', hi, ho, h => by
    rw [List.foldlM_cons] at h
    cases h1 : s.run op with
    | error e => rw [h1] at h; cases h
    | ok e =>
      rw [h1] at h
      exact inv_all r (inv_run hi (fun f hf => ho f (by simp [hf])) h1) (fun f hf => ho f (by simp [hf])) h

theorem inv_empty : Inv {} := ⟨rfl, by simp⟩

theorem nodup_snoc {s s' : PortNums} {i : PcieId} (h : s'.eps.Perm (s.eps ++ [i])) (hn : (s.eps.map (·.device)).Nodup)
    (hi : ¬ HasPort s i.device) : (s'.eps.map (·.device)).Nodup := by
  have hp : (s'.eps.map (·.device)).Perm (s.eps.map (·.device) ++ [i.device]) := by
    have := h.map PcieId.device
    simpa using this
  rw [hp.nodup_iff, List.nodup_append]
  refine ⟨hn, by simp, ?_⟩
  intro a ha b hb
  rw [List.mem_singleton] at hb
  subst hb
  rintro rfl
  exact hi (by simpa [HasPort] using ha)

end PortNums

end Pcie
