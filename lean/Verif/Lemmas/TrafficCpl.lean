import Verif.Lemmas.TrafficOrder
/-
The completions of one request go on their first link in the order in which the completer made them.
-/
namespace Pcie
open Pcie.Spec

/-- All of them are of the kind. -/
theorem kind_all {I : Nat → Bool} : ∀ {l : List TPkt}, (∀ c ∈ l, I c.id = true) → kind I l = l.map (·.id)
  | [], _ => rfl
  | c :: l, h => by rw [kind_cons_pos (h c (by simp)), kind_all fun x hx => h x (by simp [hx]), List.map_cons]

theorem delivered_append (s : TState) (l : List TPkt) (t : TState) (ht : t.done = s.done ++ l) (x : Nat) : delivered t x = delivered s x + (l.filter fun p => p.id = x).length := by
  simp [delivered, ht]

/-- Where the completions of `q` are that have not been sent. -/
structure CplInv (N : TNet) (I : Nat → Bool) (q : Nat) (E : List Nat) (s : TState) : Prop where
  tasks : ∀ m, ∀ p ∈ s.tasks m, I p.id = false
  before : delivered s q = 0 → E = [] ∧ ∀ m, kind I (s.busy m) = []
  after : delivered s q = 1 → ∃ m₀, E ++ kind I (s.busy m₀) = (N.answer q).map (·.id) ∧ ∀ m, m ≠ m₀ → kind I (s.busy m) = []

theorem CplInv.init (N : TNet) (I : Nat → Bool) (q : Nat) : CplInv N I q [] TState.init :=
  ⟨fun _ _ h => (by cases h), fun _ => ⟨rfl, fun _ => rfl⟩, fun h => (by cases h)⟩

theorem TState.step_delivered {N : TNet} {s s' : TState} {e : TEv} (hs : s.step N e = some s') (q : Nat) : delivered s q ≤ delivered s' q := by
  have key : ∀ l, s'.done = s.done ++ l → delivered s q ≤ delivered s' q := fun l hl => by rw [delivered_append s l s' hl]; omega
  cases e with
  | start m p => simp only [TState.step, Option.some.injEq] at hs; subst hs; exact Nat.le_refl _
  | send m i =>
    simp only [TState.step] at hs
    split at hs
    · cases hs
    · split at hs
      · cases hs; exact Nat.le_refl _
      · cases hs
  | recv m =>
    simp only [TState.step] at hs
    split at hs
    · cases hs
    · split at hs
      · cases hs
      · split at hs
        · cases hs; exact key _ rfl
        · cases hs; exact Nat.le_refl _
  | take m i =>
    simp only [TState.step] at hs
    split at hs
    · cases hs
    · split at hs
      · cases hs
      · split at hs
        · cases hs
        · split at hs
          · cases hs; exact Nat.le_refl _
          · cases hs
  | pass m =>
    simp only [TState.step] at hs
    split at hs
    · cases hs
    · split at hs
      · cases hs; exact Nat.le_refl _
      · cases hs
  | reply m =>
    simp only [TState.step] at hs
    split at hs
    · cases hs
    · split at hs
      · cases hs; exact Nat.le_refl _
      · cases hs

theorem TState.run_delivered {N : TNet} (q : Nat) : ∀ (es : List TEv) (s s' : TState), s.run N es = some s' → delivered s q ≤ delivered s' q
  | [], s, s', hr => by
    simp only [TState.run, Option.some.injEq] at hr
    rw [hr]
    exact Nat.le_refl _
  | e :: es, s, s', hr => by
    rw [TState.run, Option.bind_eq_some_iff] at hr
    obtain ⟨t, ht, hr⟩ := hr
    exact Nat.le_trans (TState.step_delivered ht q) (TState.run_delivered q es t s' hr)

theorem CplInv.step {N : TNet} {I : Nat → Bool} {q : Nat} {E : List Nat} (hown : ∀ x, x ≠ q → ∀ c ∈ N.answer x, I c.id = false) (hall : ∀ c ∈ N.answer q, I c.id = true)
    {s s' : TState} {e : TEv} (h : CplInv N I q E s) (hs : s.step N e = some s') (hst : ∀ m p, e = .start m p → I p.id = false) (hone : delivered s' q ≤ 1) :
    CplInv N I q (E ++ (enters s e).filter I) s' := by
  obtain ⟨ht, hb, ha⟩ := h
  cases e with
  | start m p =>
    simp only [TState.step, Option.some.injEq] at hs
    subst hs
    refine ⟨setAt_forall (P := fun _ (l : List TPkt) => ∀ p ∈ l, I p.id = false) ht ?_, by simpa [enters, delivered] using hb, by simpa [enters, delivered] using ha⟩
    intro x hx'
    rcases List.mem_append.1 hx' with h | h
    · exact ht m x h
    · rw [List.mem_singleton.1 h]; exact hst m p rfl
  | send m i =>
    simp only [TState.step] at hs
    split at hs
    · cases hs
    · next p hp =>
      have he : (enters s (.send m i)).filter I = [] := by
        rw [show enters s (.send m i) = [p.id] by simp [enters, hp]]
        exact filter_single_neg (ht m p (List.mem_of_getElem? hp))
      rw [he, List.append_nil]
      split at hs
      · cases hs
        exact ⟨setAt_forall (P := fun _ (l : List TPkt) => ∀ p ∈ l, I p.id = false) ht fun x hx' => ht m x (List.mem_of_mem_eraseIdx hx'), hb, ha⟩
      · cases hs
  | recv m =>
    simp only [TState.step] at hs
    have he : (enters s (.recv m)).filter I = [] := rfl
    rw [he, List.append_nil]
    split at hs
    · cases hs
    · next hbusy =>
      split at hs
      · cases hs
      · next p r hr =>
        split at hs
        · cases hs
          by_cases hpq : p.id = q
          · have hd : delivered { s with rx := setAt s.rx m r, busy := setAt s.busy m (N.answer p.id), done := s.done ++ [p] } q = delivered s q + 1 := by
              rw [delivered_append s [p] _ rfl]
              simp [hpq]
            rw [hd] at hone
            have h0 : delivered s q = 0 := by omega
            obtain ⟨hE, hbz⟩ := hb h0
            refine ⟨ht, fun h => by omega, fun _ => ⟨m, ?_, fun k hk => ?_⟩⟩
            · simp only [setAt_same, hE, List.nil_append, hpq]
              exact kind_all hall
            · simp only [setAt_other hk]
              exact hbz k
          · have hd : delivered { s with rx := setAt s.rx m r, busy := setAt s.busy m (N.answer p.id), done := s.done ++ [p] } q = delivered s q := by
              rw [delivered_append s [p] _ rfl]
              simp [hpq]
            have hk : ∀ k, kind I (setAt s.busy m (N.answer p.id) k) = kind I (s.busy k) := by
              intro k
              by_cases e : k = m
              · subst e
                rw [setAt_same, hbusy, kind_eq_nil (hown p.id hpq), kind_nil]
              · rw [setAt_other e]
            refine ⟨ht, fun h => ?_, fun h => ?_⟩
            · obtain ⟨hE, hbz⟩ := hb (by omega)
              exact ⟨hE, fun k => (hk k).trans (hbz k)⟩
            · obtain ⟨m₀, h1, h2⟩ := ha (by omega)
              exact ⟨m₀, by simp only [hk]; exact h1, fun k e => (hk k).trans (h2 k e)⟩
        · cases hs
          exact ⟨ht, hb, ha⟩
  | take m i =>
    have he : (enters s (.take m i)).filter I = [] := rfl
    rw [he, List.append_nil]
    simp only [TState.step] at hs
    split at hs
    · cases hs
    · split at hs
      · cases hs
      · split at hs
        · cases hs
        · split at hs
          · cases hs; exact ⟨ht, hb, ha⟩
          · cases hs
  | pass m =>
    have he : (enters s (.pass m)).filter I = [] := rfl
    rw [he, List.append_nil]
    simp only [TState.step] at hs
    split at hs
    · cases hs
    · split at hs
      · cases hs; exact ⟨ht, hb, ha⟩
      · cases hs
  | reply m =>
    simp only [TState.step] at hs
    split at hs
    · cases hs
    · next c cs hc =>
      rw [show enters s (.reply m) = [c.id] by simp [enters, hc]]
      split at hs
      · cases hs
        cases hI : I c.id with
        | false =>
          rw [filter_single_neg hI, List.append_nil]
          have hk : ∀ k, kind I (setAt s.busy m cs k) = kind I (s.busy k) := by
            intro k
            by_cases e : k = m
            · subst e
              rw [setAt_same, hc, kind_cons_neg hI]
            · rw [setAt_other e]
          refine ⟨ht, fun h => ?_, fun h => ?_⟩
          · obtain ⟨hE, hbz⟩ := hb h
            exact ⟨hE, fun k => (hk k).trans (hbz k)⟩
          · obtain ⟨m₀, h1, h2⟩ := ha h
            exact ⟨m₀, by simp only [hk]; exact h1, fun k e => (hk k).trans (h2 k e)⟩
        | true =>
          rw [filter_single_pos hI]
          have hm : kind I (s.busy m) = c.id :: kind I cs := by rw [hc, kind_cons_pos hI]
          refine ⟨ht, fun h => ?_, fun h => ?_⟩
          · rw [(hb h).2 m] at hm
            cases hm
          · obtain ⟨m₀, h1, h2⟩ := ha h
            by_cases e : m = m₀
            · subst e
              refine ⟨m, ?_, fun k e => ?_⟩
              · simp only [setAt_same]
                rw [← h1, hm]
                simp
              · simp only [setAt_other e]
                exact h2 k e
            · rw [h2 m e] at hm
              cases hm
      · cases hs

theorem CplInv.run {N : TNet} {I : Nat → Bool} {q : Nat} (hown : ∀ x, x ≠ q → ∀ c ∈ N.answer x, I c.id = false) (hall : ∀ c ∈ N.answer q, I c.id = true) :
    ∀ (es : List TEv) (s s' : TState) (E : List Nat), CplInv N I q E s → s.run N es = some s' → (∀ x ∈ started es, I x.2.id = false) → delivered s' q ≤ 1 →
      CplInv N I q (E ++ (entered N s es).filter I) s'
  | [], s, s', E, h, hr, _, _ => by
    simp only [TState.run, Option.some.injEq] at hr
    subst hr
    simpa [entered] using h
  | e :: es, s, s', E, h, hr, hst, hone => by
    rw [TState.run, Option.bind_eq_some_iff] at hr
    obtain ⟨t, ht, hr⟩ := hr
    have h1 := h.step hown hall ht (fun m p he => hst (m, p) (by subst he; simp [started])) (Nat.le_trans (TState.run_delivered q es t s' hr) hone)
    have h2 := CplInv.run hown hall es t s' _ h1 hr (fun x hx => hst x (by cases e <;> simp [started, hx])) hone
    rw [entered, ht, List.filter_append, ← List.append_assoc]
    exact h2

theorem CplInv.prefix {N : TNet} {I : Nat → Bool} {q : Nat} {E : List Nat} {s : TState} (h : CplInv N I q E s) (hone : delivered s q ≤ 1) : E <+: (N.answer q).map (·.id) := by
  by_cases h0 : delivered s q = 0
  · rw [(h.before h0).1]
    exact List.nil_prefix
  · obtain ⟨m₀, h1, _⟩ := h.after (by omega)
    exact ⟨_, h1⟩

/-- When the receive tasks have nothing left to send, all of them are on their way. -/
theorem CplInv.all {N : TNet} {I : Nat → Bool} {q : Nat} {E : List Nat} {s : TState} (h : CplInv N I q E s) (hone : delivered s q = 1) (hc : ∀ m, s.busy m = []) : E = (N.answer q).map (·.id) := by
  obtain ⟨m₀, h1, _⟩ := h.after hone
  rw [hc m₀, kind_nil, List.append_nil] at h1
  exact h1

end Pcie
