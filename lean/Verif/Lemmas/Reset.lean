import Verif.Spec.Reset
/-
The reset of the hard IP models: invariants.
-/
namespace Pcie
namespace Rst
open Spec
variable {c : Conf}

theorem run_snoc : ∀ (es : List Ev) (e : Ev) (s s' : St), s.run c (es ++ [e]) = some s' → ∃ s0, s.run c es = some s0 ∧ s0.step c e = some s'
  | [], e, s, s', h => by
    simp only [List.nil_append, St.run] at h
    split at h
    · cases h
    · rename_i h1; cases h; exact ⟨s, rfl, h1⟩
  | x :: es, e, s, s', h => by
    simp only [List.cons_append, St.run] at h ⊢
    split at h
    · cases h
    · exact run_snoc es e _ s' h

theorem run_append : ∀ (es es' : List Ev) (s s' : St), s.run c (es ++ es') = some s' → ∃ s0, s.run c es = some s0 ∧ s0.run c es' = some s'
  | [], es', s, s', h => ⟨s, rfl, h⟩
  | x :: es, es', s, s', h => by
    simp only [List.cons_append, St.run] at h ⊢
    split at h
    · cases h
    · exact run_append es es' _ s' h

theorem highSince_snoc : ∀ (es : List Ev) (e : Ev) (t : Nat) (o : Option Nat), highSince t o (es ++ [e]) = highSince (t + rstTime es) (highSince t o es) [e]
  | [], e, t, o => by simp [highSince, rstTime]
  | x :: es, e, t, o => by
    cases x with
    | pass d => simp only [List.cons_append, highSince, rstTime, highSince_snoc es e, Nat.add_assoc]
    | _ => simp only [List.cons_append, highSince, rstTime, highSince_snoc es e]

theorem rstTime_snoc : ∀ (es : List Ev) (e : Ev), rstTime (es ++ [e]) = rstTime es + rstTime [e]
  | [], e => by simp [rstTime]
  | x :: es, e => by
    cases x with
    | pass d => simp only [List.cons_append, rstTime, rstTime_snoc es e, Nat.add_assoc]
    | _ => simp only [List.cons_append, rstTime, rstTime_snoc es e]

/-- What is known in each phase. `hi`: since when the input has been high; `low`: it is active, without a clock edge yet. -/
def Good (c : Conf) (s : St) (hi : Option Nat) (low : Prop) : Prop :=
  match s.phase with
  | .timer due => s.reset = true ∧ s.now ≤ due ∧ (c.hasSys = true → ∃ t, hi = some t ∧ t + c.hundred ≤ due)
  | .last => s.reset = true ∧ (c.hasSys = true → (∃ t, hi = some t ∧ t + c.hundred ≤ s.now) ∨ (s.sys = false ∧ low))
  | .high => s.reset = true ∧ s.sys = false
  | .out => s.reset = false ∧ s.sys = true ∧ c.hasSys = true
  | .over => s.reset = false ∧ c.hasSys = false
  | _ => True

structure Inv (c : Conf) (sys : Bool) (es : List Ev) (s : St) : Prop where
  now : s.now = rstTime es
  inp : c.hasSys = true → s.sys = (highSince 0 (if sys then some 0 else none) es).isSome
  good : Good c s (highSince 0 (if sys then some 0 else none) es) (∃ pre mid, es = pre ++ .fall :: mid ∧ .clk ∉ mid ∧ .rise ∉ mid)

theorem high_le : ∀ (es : List Ev) (t : Nat) (o : Option Nat), (∀ x, o = some x → x ≤ t) → ∀ x, highSince t o es = some x → x ≤ t + rstTime es
  | [], t, o, h, x, hx => by have := h x hx; simp only [rstTime]; omega
  | e :: es, t, o, h, x, hx => by
    cases e with
    | pass d =>
      have := high_le es (t + d) o (fun y hy => by have := h y hy; omega) x hx
      simp only [rstTime]; omega
    | rise => exact high_le es t (some t) (fun y hy => by cases hy; omega) x hx
    | fall => exact high_le es t none (fun y hy => by cases hy) x hx
    | clk => exact high_le es t o h x hx
    | timer => exact high_le es t o h x hx
    | setEn b => exact high_le es t o h x hx

theorem status_same (s : St) : (s.status c).phase = s.phase ∧ (s.status c).now = s.now ∧ (s.status c).sys = s.sys ∧ (s.status c).reset = s.reset := by
  unfold St.status; split <;> exact ⟨rfl, rfl, rfl, rfl⟩

theorem inv_step {sys : Bool} {es : List Ev} {e : Ev} {s s' : St} (h : Inv c sys es s) (hl : LongPulses (es ++ [e])) (hs : s.step c e = some s') :
    Inv c sys (es ++ [e]) s' := by
  obtain ⟨h1, h2, h3⟩ := h
  have hle := high_le es 0 (if sys then some 0 else none) (by intro x hx; split at hx <;> cases hx; omega)
  have hext : ∀ x : Ev, x ≠ .clk → x ≠ .rise → (∃ pre mid, es = pre ++ .fall :: mid ∧ .clk ∉ mid ∧ .rise ∉ mid) →
      ∃ pre mid, es ++ [x] = pre ++ .fall :: mid ∧ .clk ∉ mid ∧ .rise ∉ mid := by
    rintro x x1 x2 ⟨pre, mid, rfl, m1, m2⟩
    exact ⟨pre, mid ++ [x], by simp, by simp [m1, Ne.symm x1], by simp [m2, Ne.symm x2]⟩
  have hH := highSince_snoc es e 0 (if sys then some 0 else none)
  have hT := rstTime_snoc es e
  generalize hi : highSince 0 (if sys then some 0 else none) es = H at h2 h3 hH hle
  cases e with
  | pass d =>
    simp only [highSince] at hH
    simp only [rstTime, Nat.add_zero] at hT
    simp only [St.step] at hs
    split at hs
    · rename_i due hp
      split at hs
      · rename_i hd
        cases hs
        refine ⟨by simp only [hT, h1], by rw [hH]; exact h2, ?_⟩
        rw [hH]
        simp only [Good, hp] at h3 ⊢
        exact ⟨h3.1, hd, h3.2.2⟩
      · cases hs
    · rename_i hp
      cases hs
      refine ⟨by simp only [hT, h1], by rw [hH]; exact h2, ?_⟩
      rw [hH]
      simp only [Good] at h3 ⊢
      cases hq : s.phase with
      | timer due => exact absurd hq (hp due)
      | last =>
        rw [hq] at h3
        refine ⟨h3.1, fun hc => ?_⟩
        rcases h3.2 hc with ⟨t, ht, hle⟩ | ⟨h4, h5⟩
        · exact .inl ⟨t, ht, Nat.le_trans hle (Nat.le_add_right _ _)⟩
        · exact .inr ⟨h4, hext _ (by simp) (by simp) h5⟩
      | _ => simpa [hq] using h3
  | clk =>
    simp only [highSince] at hH
    simp only [rstTime, Nat.add_zero] at hT
    obtain ⟨q1, q2, q3, q4⟩ := status_same (c := c) s
    simp only [St.step, q1] at hs
    cases hq : s.phase with
    | first =>
      rw [hq] at hs; cases hs
      exact ⟨by simp only [hT, q2, h1], by rw [hH]; simpa only [q3] using h2, trivial⟩
    | second =>
      rw [hq] at hs
      simp only [Option.some.injEq] at hs
      subst hs
      refine ⟨by simp only [hT, St.assert, q2, h1], by rw [hH]; simpa only [St.assert, q3] using h2, ?_⟩
      rw [hH]
      simp only [Good, St.assert, q3, q2]
      cases hc : c.hasSys with
      | false => simp
      | true =>
        cases hsys : s.sys with
        | false => simp
        | true =>
          have h2' := h2 hc
          rw [hsys] at h2'
          obtain ⟨t, ht⟩ := Option.isSome_iff_exists.mp h2'.symm
          have := hle t ht
          simp only [Bool.not_true, Bool.and_false, Bool.false_eq_true, if_false]
          exact ⟨trivial, by omega, fun _ => ⟨t, ht, by omega⟩⟩
    | last =>
      rw [hq] at hs
      simp only [Option.some.injEq] at hs
      subst hs
      simp only [Good, hq] at h3
      refine ⟨?_, ?_, ?_⟩
      · simp only [St.finish, q3]; split <;> simp only [q2, h1, hT]
      · rw [hH]; simp only [St.finish, q3]; split <;> simpa only [q3] using h2
      · rw [hH]
        simp only [Good, St.finish, q3]
        cases hc : c.hasSys with
        | false => simp
        | true =>
          cases hsys : s.sys with
          | false => simp
          | true => simp [q3, hsys]
    | timer due =>
      rw [hq] at hs; cases hs
      refine ⟨by simp only [hT, q2, h1], by rw [hH, q3]; exact h2, ?_⟩
      rw [hH]
      simp only [Good, q1, hq, q4, q2] at h3 ⊢
      exact h3
    | high =>
      rw [hq] at hs; cases hs
      refine ⟨by simp only [hT, q2, h1], by rw [hH, q3]; exact h2, ?_⟩
      rw [hH]
      simp only [Good, q1, hq, q4, q3] at h3 ⊢
      exact h3
    | out =>
      rw [hq] at hs; cases hs
      refine ⟨by simp only [hT, q2, h1], by rw [hH, q3]; exact h2, ?_⟩
      rw [hH]
      simp only [Good, q1, hq, q4, q3] at h3 ⊢
      exact h3
    | over =>
      rw [hq] at hs; cases hs
      refine ⟨by simp only [hT, q2, h1], by rw [hH, q3]; exact h2, ?_⟩
      rw [hH]
      simp only [Good, q1, hq, q4] at h3 ⊢
      exact h3
  | rise =>
    simp only [highSince, Nat.zero_add] at hH
    simp only [rstTime, Nat.add_zero] at hT
    simp only [St.step] at hs
    split at hs
    · rename_i hcs
      simp only [Bool.and_eq_true, Bool.not_eq_true'] at hcs
      cases hq : s.phase with
      | high =>
        simp only [hq, Option.some.injEq] at hs
        subst hs
        refine ⟨by simp only [hT, h1], by rw [hH]; simp, ?_⟩
        rw [hH]
        simp only [Good, hq] at h3 ⊢
        exact ⟨h3.1, by omega, fun _ => ⟨rstTime es, rfl, by omega⟩⟩
      | timer due =>
        simp only [Good, hq] at h3
        obtain ⟨t, ht, _⟩ := h3.2.2 hcs.1
        have := h2 hcs.1
        rw [hcs.2, ht] at this
        cases this
      | last =>
        simp only [Good, hq] at h3
        rcases h3.2 hcs.1 with ⟨t, ht, _⟩ | ⟨_, pre, mid, he, m1, m2⟩
        · have := h2 hcs.1
          rw [hcs.2, ht] at this
          cases this
        · exact absurd (hl pre mid [] (by rw [he]) m2) m1
      | first =>
        simp only [hq, Option.some.injEq] at hs
        subst hs
        exact ⟨by simp only [hT, h1], by rw [hH]; simp, by simp [Good, hq]⟩
      | second =>
        simp only [hq, Option.some.injEq] at hs
        subst hs
        exact ⟨by simp only [hT, h1], by rw [hH]; simp, by simp [Good, hq]⟩
      | out =>
        simp only [Good, hq] at h3
        rw [hcs.2] at h3
        cases h3.2.1
      | over =>
        simp only [Good, hq] at h3
        rw [hcs.1] at h3
        cases h3.2
    · cases hs
  | fall =>
    simp only [highSince] at hH
    simp only [rstTime, Nat.add_zero] at hT
    simp only [St.step] at hs
    split at hs
    · rename_i hcs
      simp only [Bool.and_eq_true] at hcs
      cases hq : s.phase with
      | timer due =>
        simp only [hq, Option.some.injEq] at hs
        subst hs
        refine ⟨by simp only [hT, h1], by rw [hH]; simp, ?_⟩
        simp only [Good, hq] at h3 ⊢
        exact ⟨h3.1, fun _ => .inr ⟨trivial, es, [], by simp, by simp, by simp⟩⟩
      | last =>
        simp only [hq, Option.some.injEq, St.finish, hcs.1, Bool.not_false, Bool.and_self, if_true] at hs
        subst hs
        exact ⟨by simp only [hT, h1], by rw [hH]; simp, by simp [Good]⟩
      | out =>
        simp only [hq, Option.some.injEq] at hs
        subst hs
        exact ⟨by simp only [hT, h1], by rw [hH]; simp, by simp [Good]⟩
      | high =>
        simp only [Good, hq] at h3
        rw [hcs.2] at h3
        cases h3.2
      | first =>
        simp only [hq, Option.some.injEq] at hs
        subst hs
        exact ⟨by simp only [hT, h1], by rw [hH]; simp, by simp [Good, hq]⟩
      | second =>
        simp only [hq, Option.some.injEq] at hs
        subst hs
        exact ⟨by simp only [hT, h1], by rw [hH]; simp, by simp [Good, hq]⟩
      | over =>
        simp only [Good, hq] at h3
        rw [hcs.1] at h3
        cases h3.2
    · cases hs
  | timer =>
    simp only [highSince] at hH
    simp only [rstTime, Nat.add_zero] at hT
    simp only [St.step] at hs
    split at hs
    · rename_i due hp
      split at hs
      · rename_i hd
        cases hs
        refine ⟨by simp only [hT, h1], by rw [hH]; exact h2, ?_⟩
        rw [hH]
        simp only [Good, hp] at h3 ⊢
        refine ⟨h3.1, fun hc => .inl ?_⟩
        obtain ⟨t, ht, hle⟩ := h3.2.2 hc
        exact ⟨t, ht, by omega⟩
      · cases hs
    · cases hs
  | setEn b =>
    simp only [highSince] at hH
    simp only [rstTime, Nat.add_zero] at hT
    cases hs
    refine ⟨by simp only [hT, h1], by rw [hH]; exact h2, ?_⟩
    rw [hH]
    simp only [Good] at h3 ⊢
    cases hq : s.phase with
    | last =>
      rw [hq] at h3
      refine ⟨h3.1, fun hc => ?_⟩
      rcases h3.2 hc with h | ⟨h4, h5⟩
      · exact .inl h
      · exact .inr ⟨h4, hext _ (by simp) (by simp) h5⟩
    | _ => simpa [hq] using h3

theorem long_init {es : List Ev} {e : Ev} (h : LongPulses (es ++ [e])) : LongPulses es := by
  intro pre mid post he hm
  exact h pre mid (post ++ [e]) (by rw [he]; simp) hm

theorem inv_run {sys : Bool} : ∀ (n : Nat) (es : List Ev) (s : St), es.length = n → LongPulses es → (St.init c sys).run c es = some s → Inv c sys es s := by
  intro n
  induction n with
  | zero =>
    intro es s hn _ hr
    have := List.length_eq_zero_iff.mp hn
    subst this
    cases hr
    refine ⟨rfl, fun _ => ?_, trivial⟩
    cases sys <;> rfl
  | succ n ih =>
    intro es s hn hl hr
    have hne : es ≠ [] := by intro h; rw [h] at hn; cases hn
    rw [← List.dropLast_concat_getLast hne] at hr hl ⊢
    obtain ⟨s0, r0, hs⟩ := run_snoc _ _ _ _ hr
    exact inv_step (ih _ s0 (by rw [List.length_dropLast, hn]; rfl) (long_init hl) r0) hl hs

/-- Without `LongPulses`. -/
def Weak (c : Conf) (s : St) : Prop :=
  match s.phase with
  | .timer _ => s.reset = true ∧ (c.hasSys = true → s.sys = true)
  | .last => s.reset = true
  | .high => s.reset = true ∧ s.sys = false ∧ c.hasSys = true
  | .out => s.reset = false ∧ s.sys = true ∧ c.hasSys = true
  | .over => s.reset = false ∧ c.hasSys = false
  | _ => True

theorem weak_step {e : Ev} {s s' : St} (h : Weak c s) (hs : s.step c e = some s') : Weak c s' := by
  obtain ⟨q1, q2, q3, q4⟩ := status_same (c := c) s
  cases e with
  | pass d =>
    simp only [St.step] at hs
    split at hs
    · split at hs <;> cases hs
      exact h
    · cases hs; exact h
  | clk =>
    simp only [St.step, q1] at hs
    simp only [Weak] at h
    cases hq : s.phase <;> rw [hq] at hs h <;> simp only [Option.some.injEq] at hs <;> subst hs <;> simp only [Weak, St.assert, St.finish, q1, q3, q4, hq]
    · cases hc : c.hasSys <;> cases hy : s.sys <;> simp
    · exact h
    · exact h
    · cases hc : c.hasSys <;> cases hy : s.sys <;> simp [q3, hy]
    · exact h
    · exact h
  | rise =>
    simp only [St.step] at hs
    split at hs
    · rename_i hcs
      simp only [Bool.and_eq_true, Bool.not_eq_true'] at hcs
      simp only [Weak] at h
      cases hq : s.phase <;> rw [hq] at hs h <;> simp only [Option.some.injEq] at hs <;> subst hs <;> simp_all [Weak]
    · cases hs
  | fall =>
    simp only [St.step] at hs
    split at hs
    · rename_i hcs
      simp only [Bool.and_eq_true] at hcs
      simp only [Weak] at h
      cases hq : s.phase <;> rw [hq] at hs h <;> simp only [Option.some.injEq] at hs <;> subst hs <;> simp_all [Weak, St.finish]
    · cases hs
  | timer =>
    simp only [St.step] at hs
    split at hs
    · rename_i hp
      split at hs <;> cases hs
      simp only [Weak, hp] at h ⊢
      exact h.1
    · cases hs
  | setEn b => cases hs; exact h

theorem weak_run : ∀ (es : List Ev) (s s' : St), Weak c s → s.run c es = some s' → Weak c s'
  | [], s, s', h, hr => by cases hr; exact h
  | e :: es, s, s', h, hr => by
    simp only [St.run] at hr
    split at hr
    · cases hr
    · rename_i h1
      exact weak_run es _ s' (weak_step h h1) hr

theorem weak_init (sys : Bool) : Weak c (St.init c sys) := trivial

/-- The time and the input as the user counts them. -/
structure Seen (c : Conf) (sys : Bool) (es : List Ev) (s : St) : Prop where
  now : s.now = rstTime es
  inp : c.hasSys = true → s.sys = (highSince 0 (if sys then some 0 else none) es).isSome
  en : s.enIn = lastEn es

theorem step_now {e : Ev} {s s' : St} (hs : s.step c e = some s') : s'.now = s.now + rstTime [e] := by
  obtain ⟨q1, q2, q3, q4⟩ := status_same (c := c) s
  cases e with
  | pass d => simp only [St.step] at hs; split at hs; · split at hs <;> cases hs; rfl
              · cases hs; rfl
  | clk => simp only [St.step, q1] at hs; split at hs <;> cases hs <;> simp only [St.assert, St.finish, rstTime, Nat.add_zero] <;> (try split) <;> exact q2
  | rise => simp only [St.step] at hs; split at hs; · split at hs <;> cases hs <;> rfl
            · cases hs
  | fall => simp only [St.step] at hs; split at hs; · split at hs <;> cases hs <;> (try rfl) <;> simp only [St.finish] <;> split <;> rfl
            · cases hs
  | timer => simp only [St.step] at hs; split at hs; · split at hs <;> cases hs; rfl
             · cases hs
  | setEn b => cases hs; rfl

theorem run_now : ∀ (es : List Ev) (s s' : St), s.run c es = some s' → s'.now = s.now + rstTime es
  | [], s, s', h => by cases h; rfl
  | e :: es, s, s', h => by
    simp only [St.run] at h
    split at h
    · cases h
    · rename_i s1 h1
      have a := step_now h1
      have b := run_now es s1 s' h
      have d : rstTime (e :: es) = rstTime [e] + rstTime es := by cases e <;> simp [rstTime]
      omega

theorem step_sys {e : Ev} {s s' : St} (hs : s.step c e = some s') : s'.sys = match e with | .rise => true | .fall => false | _ => s.sys := by
  obtain ⟨q1, q2, q3, q4⟩ := status_same (c := c) s
  cases e with
  | pass d => simp only [St.step] at hs; split at hs; · split at hs <;> cases hs; rfl
              · cases hs; rfl
  | clk => simp only [St.step, q1] at hs; split at hs <;> cases hs <;> simp only [St.assert, St.finish] <;> (try split) <;> exact q3
  | rise => simp only [St.step] at hs; split at hs; · split at hs <;> cases hs <;> rfl
            · cases hs
  | fall => simp only [St.step] at hs; split at hs; · split at hs <;> cases hs <;> (try rfl) <;> simp only [St.finish] <;> split <;> rfl
            · cases hs
  | timer => simp only [St.step] at hs; split at hs; · split at hs <;> cases hs; rfl
             · cases hs
  | setEn b => cases hs; rfl

theorem step_en {e : Ev} {s s' : St} (hs : s.step c e = some s') : s'.enIn = match e with | .setEn b => b | _ => s.enIn := by
  have q : (s.status c).enIn = s.enIn := by unfold St.status; split <;> rfl
  cases e with
  | pass d => simp only [St.step] at hs; split at hs; · split at hs <;> cases hs; rfl
              · cases hs; rfl
  | clk => simp only [St.step] at hs; split at hs <;> cases hs <;> simp only [St.assert, St.finish] <;> (try split) <;> exact q
  | rise => simp only [St.step] at hs; split at hs; · split at hs <;> cases hs <;> rfl
            · cases hs
  | fall => simp only [St.step] at hs; split at hs; · split at hs <;> cases hs <;> (try rfl) <;> simp only [St.finish] <;> split <;> rfl
            · cases hs
  | timer => simp only [St.step] at hs; split at hs; · split at hs <;> cases hs; rfl
             · cases hs
  | setEn b => cases hs; rfl

theorem step_out {e : Ev} {s s' : St} (hs : s.step c e = some s') (he : e ≠ .clk) : s'.enable = s.enable ∧ s'.linkUp = s.linkUp := by
  cases e with
  | pass d => simp only [St.step] at hs; split at hs; · split at hs <;> cases hs; exact ⟨rfl, rfl⟩
              · cases hs; exact ⟨rfl, rfl⟩
  | clk => exact absurd rfl he
  | rise => simp only [St.step] at hs; split at hs; · split at hs <;> cases hs <;> exact ⟨rfl, rfl⟩
            · cases hs
  | fall => simp only [St.step] at hs; split at hs; · split at hs <;> cases hs <;> (try exact ⟨rfl, rfl⟩) <;> simp only [St.finish] <;> split <;> exact ⟨rfl, rfl⟩
            · cases hs
  | timer => simp only [St.step] at hs; split at hs; · split at hs <;> cases hs; exact ⟨rfl, rfl⟩
             · cases hs
  | setEn b => cases hs; exact ⟨rfl, rfl⟩

theorem run_out : ∀ (es : List Ev) (s s' : St), .clk ∉ es → s.run c es = some s' → s'.enable = s.enable ∧ s'.linkUp = s.linkUp
  | [], s, s', _, h => by cases h; exact ⟨rfl, rfl⟩
  | e :: es, s, s', hn, h => by
    simp only [St.run] at h
    simp only [List.mem_cons, not_or] at hn
    split at h
    · cases h
    · rename_i s1 h1
      have a := step_out h1 (Ne.symm hn.1)
      have b := run_out es s1 s' hn.2 h
      exact ⟨b.1.trans a.1, b.2.trans a.2⟩

theorem clk_out {s s' : St} (hs : s.step c .clk = some s') : s'.enable = (s.status c).enable ∧ s'.linkUp = (s.status c).linkUp := by
  simp only [St.step] at hs
  split at hs <;> cases hs <;> simp only [St.assert, St.finish] <;> (try split) <;> first | exact ⟨rfl, rfl⟩ | simp

theorem lastEn_snoc (es : List Ev) (e : Ev) : lastEn (es ++ [e]) = match e with | .setEn b => b | _ => lastEn es := by
  unfold lastEn
  rw [List.foldl_append]
  cases e <;> rfl

theorem seen_run {sys : Bool} : ∀ (n : Nat) (es : List Ev) (s : St), es.length = n → (St.init c sys).run c es = some s → Seen c sys es s := by
  intro n
  induction n with
  | zero =>
    intro es s hn hr
    have := List.length_eq_zero_iff.mp hn
    subst this
    cases hr
    refine ⟨rfl, fun _ => ?_, rfl⟩
    cases sys <;> rfl
  | succ n ih =>
    intro es s hn hr
    have hne : es ≠ [] := by intro h; rw [h] at hn; cases hn
    rw [← List.dropLast_concat_getLast hne] at hr ⊢
    obtain ⟨s0, r0, hs⟩ := run_snoc _ _ _ _ hr
    obtain ⟨a1, a2, a3⟩ := ih _ s0 (by rw [List.length_dropLast, hn]; rfl) r0
    generalize es.getLast hne = e at hs
    refine ⟨by rw [rstTime_snoc, step_now hs, a1], fun hc => ?_, ?_⟩
    · have k := step_sys hs
      rw [highSince_snoc, k]
      cases e <;> simp only [highSince, Option.isSome_some, Option.isSome_none] <;> exact a2 hc
    · have k := step_en hs
      rw [lastEn_snoc, k]
      cases e <;> simp only [a3]

/-- A low input and no rising edge: how many clock edges until the output is active. -/
def need (s : St) : Nat :=
  if s.reset then 0 else match s.phase with
    | .first => 2
    | .second => 1
    | _ => 0

theorem need_step {e : Ev} {s s' : St} (hw : Weak c s) (hc : c.hasSys = true) (hy : s.sys = false) (he : e ≠ .rise) (hs : s.step c e = some s') :
    need s' ≤ need s - [e].count .clk := by
  obtain ⟨q1, q2, q3, q4⟩ := status_same (c := c) s
  cases e with
  | pass d => simp only [St.step] at hs; split at hs; · split at hs <;> cases hs; exact Nat.le_refl _
              · cases hs; exact Nat.le_refl _
  | clk =>
    simp only [St.step, q1] at hs
    simp only [Weak] at hw
    cases hq : s.phase <;> rw [hq] at hs hw <;> simp only [Option.some.injEq] at hs <;> subst hs <;> cases hr : s.reset <;> simp_all [need, St.assert, St.finish]
  | rise => exact absurd rfl he
  | fall => simp [St.step, hy] at hs
  | timer =>
    simp only [St.step] at hs
    split at hs
    · rename_i hp
      simp only [Weak, hp] at hw
      have := hw.2 hc
      rw [hy] at this
      cases this
    · cases hs
  | setEn b => cases hs; exact Nat.le_refl _

theorem need_run : ∀ (es : List Ev) (s s' : St), Weak c s → c.hasSys = true → s.sys = false → .rise ∉ es → s.run c es = some s' → need s' ≤ need s - rstClocks es
  | [], s, s', _, _, _, _, h => by cases h; exact Nat.le_refl _
  | e :: es, s, s', hw, hc, hy, hn, h => by
    simp only [St.run] at h
    simp only [List.mem_cons, not_or] at hn
    split at h
    · cases h
    · rename_i s1 h1
      have a := need_step hw hc hy (Ne.symm hn.1) h1
      have y1 : s1.sys = false := by rw [step_sys h1]; cases e <;> simp_all
      have b := need_run es s1 s' (weak_step hw h1) hc y1 hn.2 h
      have d : rstClocks (e :: es) = [e].count .clk + rstClocks es := by
        unfold rstClocks
        rw [← List.count_append]
        rfl
      omega

theorem run_sys_low : ∀ (es : List Ev) (s s' : St), s.sys = false → .rise ∉ es → s.run c es = some s' → s'.sys = false
  | [], s, s', hy, _, h => by cases h; exact hy
  | e :: es, s, s', hy, hn, h => by
    simp only [St.run] at h
    simp only [List.mem_cons, not_or] at hn
    split at h
    · cases h
    · rename_i s1 h1
      exact run_sys_low es s1 s' (by rw [step_sys h1]; cases e <;> simp_all) hn.2 h

/-- A high input: how far the release is. -/
def toGo (s : St) : Nat := match s.phase with
  | .first => 2
  | .second => 1
  | _ => 0

/-- The input is high (or there is none), and the timer is not longer than 100 ns. -/
structure Up (c : Conf) (s : St) : Prop where
  weak : Weak c s
  sys : c.hasSys = true → s.sys = true
  due : ∀ due, s.phase = .timer due → due ≤ s.now + c.hundred ∧ s.now ≤ due

theorem due_step {e : Ev} {s s' : St} (h : ∀ due, s.phase = .timer due → due ≤ s.now + c.hundred ∧ s.now ≤ due) (hs : s.step c e = some s') :
    ∀ due, s'.phase = .timer due → due ≤ s'.now + c.hundred ∧ s'.now ≤ due := by
  obtain ⟨q1, q2, q3, q4⟩ := status_same (c := c) s
  intro due hd
  cases e with
  | pass d =>
    simp only [St.step] at hs
    split at hs
    · rename_i hp
      split at hs
      · cases hs
        have := h due hd
        have h2 : s.phase = .timer due := hd
        rw [hp] at h2
        cases h2
        simp only
        omega
      · cases hs
    · rename_i hp
      cases hs
      exact absurd hd (hp due)
  | clk =>
    simp only [St.step, q1] at hs
    split at hs <;> simp only [Option.some.injEq] at hs <;> subst hs
    · cases hd
    · simp only [St.assert] at hd ⊢
      split at hd
      · cases hd
      · cases hd; omega
    · simp only [St.finish] at hd
      split at hd
      · cases hd
      · simp only at hd; split at hd <;> cases hd
    · rw [q1] at hd; rw [q2]; exact h due hd
  | rise =>
    simp only [St.step] at hs
    split at hs
    · split at hs <;> cases hs
      · cases hd; simp only; omega
      · exact h due hd
    · cases hs
  | fall =>
    simp only [St.step] at hs
    split at hs
    · split at hs <;> cases hs
      · cases hd
      · simp only [St.finish] at hd
        split at hd
        · cases hd
        · simp only at hd; split at hd <;> cases hd
      · cases hd
      · exact h due hd
    · cases hs
  | timer =>
    simp only [St.step] at hs
    split at hs
    · split at hs <;> cases hs
      cases hd
    · cases hs
  | setEn b => cases hs; exact h due hd

theorem due_run : ∀ (es : List Ev) (s s' : St), (∀ due, s.phase = .timer due → due ≤ s.now + c.hundred ∧ s.now ≤ due) → s.run c es = some s' →
    ∀ due, s'.phase = .timer due → due ≤ s'.now + c.hundred ∧ s'.now ≤ due
  | [], s, s', h, hr => by cases hr; exact h
  | e :: es, s, s', h, hr => by
    simp only [St.run] at hr
    split at hr
    · cases hr
    · rename_i h1
      exact due_run es _ s' (due_step h h1) hr

theorem up_step {e : Ev} {s s' : St} (h : Up c s) (he : e ≠ .fall) (hs : s.step c e = some s') : Up c s' := by
  refine ⟨weak_step h.weak hs, fun hc => ?_, due_step h.due hs⟩
  have := h.sys hc
  rw [step_sys hs]
  cases e <;> simp_all

/-- Once past a point, always past it. -/
def stage (s : St) : Nat := match s.phase with
  | .first => 0
  | .second => 1
  | .high => 2
  | .timer _ => 2
  | .last => 3
  | .out => 4
  | .over => 4

theorem stage_step {e : Ev} {s s' : St} (h : Up c s) (he : e ≠ .fall) (hs : s.step c e = some s') :
    stage s ≤ stage s' ∧ (e = .clk → stage s ≠ 2 → stage s ≠ 4 → stage s < stage s') ∧ (stage s = 2 → stage s' = 2 → s'.phase = s.phase) := by
  obtain ⟨q1, q2, q3, q4⟩ := status_same (c := c) s
  have hw := h.weak
  have hy := h.sys
  cases e with
  | pass d =>
    simp only [St.step] at hs
    split at hs
    · split at hs <;> cases hs
      exact ⟨Nat.le_refl _, by simp, fun _ _ => rfl⟩
    · cases hs; exact ⟨Nat.le_refl _, by simp, fun _ _ => rfl⟩
  | clk =>
    simp only [St.step, q1] at hs
    simp only [Weak] at hw
    cases hc : c.hasSys <;> cases hq : s.phase <;> rw [hq] at hs hw <;> simp only [Option.some.injEq] at hs <;> subst hs <;>
      simp_all [stage, St.assert, St.finish]
  | rise =>
    simp only [St.step] at hs
    split at hs
    · rename_i hcs
      simp only [Bool.and_eq_true, Bool.not_eq_true'] at hcs
      have := hy hcs.1
      rw [hcs.2] at this
      cases this
    · cases hs
  | fall => exact absurd rfl he
  | timer =>
    simp only [St.step] at hs
    split at hs
    · rename_i hp
      split at hs <;> cases hs
      simp [stage, hp]
    · cases hs
  | setEn b => cases hs; exact ⟨Nat.le_refl _, by simp, fun _ _ => rfl⟩

theorem up_run : ∀ (es : List Ev) (s s' : St), Up c s → .fall ∉ es → s.run c es = some s' → Up c s' ∧ stage s ≤ stage s' ∧
    (2 ≤ stage s ∨ stage s + rstClocks es ≤ stage s' ∨ 2 ≤ stage s') ∧ (stage s = 2 → stage s' = 2 → s'.phase = s.phase) ∧ (3 ≤ stage s → .clk ∈ es → stage s' = 4)
  | [], s, s', hu, _, h => by cases h; exact ⟨hu, Nat.le_refl _, .inr (.inl (Nat.le_refl _)), fun _ _ => rfl, by simp⟩
  | e :: es, s, s', hu, hn, h => by
    simp only [St.run] at h
    simp only [List.mem_cons, not_or] at hn
    split at h
    · cases h
    · rename_i s1 h1
      have u1 := up_step hu (Ne.symm hn.1) h1
      obtain ⟨a1, a2, a3⟩ := stage_step hu (Ne.symm hn.1) h1
      obtain ⟨b1, b2, b3, b4, b5⟩ := up_run es s1 s' u1 hn.2 h
      have m : ∀ x : St, stage x ≤ 4 := by intro x; unfold stage; split <;> omega
      have m' := m s'
      refine ⟨b1, Nat.le_trans a1 b2, ?_, ?_, ?_⟩
      · by_cases k : e = .clk
        · subst k
          have d : rstClocks (.clk :: es) = rstClocks es + 1 := by simp [rstClocks]
          have := a2 rfl
          omega
        · have d : rstClocks (e :: es) = rstClocks es := by
            unfold rstClocks
            exact List.count_cons_of_ne k
          omega
      · intro c1 c2
        have : stage s1 = 2 := by omega
        exact (b4 this c2).trans (a3 c1 this)
      · intro c1 c2
        simp only [List.mem_cons] at c2
        rcases c2 with c2 | c2
        · have := a2 c2.symm
          omega
        · exact b5 (by omega) c2

/-- Without a reset input. -/
def Once (c : Conf) (es : List Ev) (s : St) : Prop :=
  match s.phase with
  | .first => s.reset = false ∧ rstClocks es = 0
  | .second => s.reset = false ∧ rstClocks es = 1
  | .timer due => s.reset = true ∧ ∃ es1 es2, es = es1 ++ .clk :: es2 ∧ rstClocks es1 = 1 ∧ due = rstTime es1 + c.hundred
  | .last => s.reset = true ∧ ∃ es1 es2, es = es1 ++ .clk :: es2 ∧ rstClocks es1 = 1 ∧ rstTime es1 + c.hundred ≤ rstTime es
  | .over => s.reset = false ∧ ∃ es1 es2, es = es1 ++ .clk :: es2 ∧ rstClocks es1 = 1 ∧ rstTime es1 + c.hundred ≤ rstTime es
  | _ => False

theorem clocks_snoc (es : List Ev) (e : Ev) : rstClocks (es ++ [e]) = rstClocks es + if e = .clk then 1 else 0 := by
  unfold rstClocks
  rw [List.count_append]
  by_cases h : e = .clk
  · subst h; simp
  · rw [List.count_cons_of_ne h, if_neg h]; rfl

theorem once_step (hc : c.hasSys = false) {es : List Ev} {e : Ev} {s s' : St} (hn : s.now = rstTime es) (h : Once c es s) (hs : s.step c e = some s') : Once c (es ++ [e]) s' := by
  obtain ⟨q1, q2, q3, q4⟩ := status_same (c := c) s
  have ex : ∀ P : List Ev → Prop, (∃ es1 es2, es = es1 ++ .clk :: es2 ∧ rstClocks es1 = 1 ∧ P es1) → ∃ es1 es2, es ++ [e] = es1 ++ .clk :: es2 ∧ rstClocks es1 = 1 ∧ P es1 := by
    rintro P ⟨es1, es2, h1, h2, h3⟩
    exact ⟨es1, es2 ++ [e], by rw [h1]; simp, h2, h3⟩
  have ext : (∃ es1 es2, es = es1 ++ .clk :: es2 ∧ rstClocks es1 = 1 ∧ rstTime es1 + c.hundred ≤ rstTime es) →
      ∃ es1 es2, es ++ [e] = es1 ++ .clk :: es2 ∧ rstClocks es1 = 1 ∧ rstTime es1 + c.hundred ≤ rstTime (es ++ [e]) := by
    intro h
    obtain ⟨es1, es2, h1, h2, h3⟩ := ex _ h
    exact ⟨es1, es2, h1, h2, by rw [rstTime_snoc]; omega⟩
  have keep : e ≠ .clk → s'.phase = s.phase → s'.reset = s.reset → Once c (es ++ [e]) s' := by
    intro k1 k2 k3
    have k4 := clocks_snoc es e
    rw [if_neg k1] at k4
    simp only [Once, k2, k3] at h ⊢
    cases hq : s.phase <;> rw [hq] at h <;> simp only at h ⊢
    · exact ⟨h.1, k4.trans h.2⟩
    · exact ⟨h.1, k4.trans h.2⟩
    · exact ⟨h.1, ex _ h.2⟩
    · exact ⟨h.1, ext h.2⟩
    · exact ⟨h.1, ext h.2⟩
  cases e with
  | pass d =>
    simp only [St.step] at hs
    split at hs
    · split at hs <;> cases hs
      exact keep (by simp) rfl rfl
    · cases hs; exact keep (by simp) rfl rfl
  | clk =>
    have k4 := clocks_snoc es .clk
    rw [if_pos rfl] at k4
    simp only [St.step, q1] at hs
    simp only [Once] at h
    cases hq : s.phase <;> rw [hq] at hs h <;> simp only [Option.some.injEq] at hs <;> subst hs <;> simp only at h
    · exact ⟨by rw [q4]; exact h.1, by omega⟩
    · simp only [Once, St.assert, hc, Bool.false_and, Bool.false_eq_true, if_false, q2]
      exact ⟨trivial, es, [], rfl, h.2, by omega⟩
    · simp only [Once, q1, hq, q4]
      exact ⟨h.1, ex _ h.2⟩
    · simp only [Once, St.finish, hc, Bool.false_and, Bool.false_eq_true, if_false]
      exact ⟨trivial, ext h.2⟩
    · simp only [Once, q1, hq, q4]
      exact ⟨h.1, ext h.2⟩
  | rise => simp [St.step, hc] at hs
  | fall => simp [St.step, hc] at hs
  | timer =>
    simp only [St.step] at hs
    split at hs
    · rename_i hp
      split at hs <;> cases hs
      rename_i hd
      simp only [Once, hp] at h ⊢
      obtain ⟨h1, es1, es2, h2, h3, h4⟩ := h
      exact ⟨h1, ext ⟨es1, es2, h2, h3, by omega⟩⟩
    · cases hs
  | setEn b => cases hs; exact keep (by simp) rfl rfl

theorem once_run {sys : Bool} (hc : c.hasSys = false) : ∀ (n : Nat) (es : List Ev) (s : St), es.length = n → (St.init c sys).run c es = some s → Once c es s := by
  intro n
  induction n with
  | zero =>
    intro es s hn hr
    have := List.length_eq_zero_iff.mp hn
    subst this
    cases hr
    exact ⟨rfl, rfl⟩
  | succ n ih =>
    intro es s hn hr
    have hne : es ≠ [] := by intro h; rw [h] at hn; cases hn
    rw [← List.dropLast_concat_getLast hne] at hr ⊢
    obtain ⟨s0, r0, hs⟩ := run_snoc _ _ _ _ hr
    exact once_step hc (seen_run _ _ s0 rfl r0).now (ih _ s0 (by rw [List.length_dropLast, hn]; rfl) r0) hs

theorem over_run : ∀ (es : List Ev) (s s' : St), c.hasSys = false → s.phase = .over → s.reset = false → s.run c es = some s' → s'.reset = false
  | [], s, s', _, _, hr, h => by cases h; exact hr
  | e :: es, s, s', hc, hp, hr, h => by
    obtain ⟨q1, q2, q3, q4⟩ := status_same (c := c) s
    simp only [St.run] at h
    split at h
    · cases h
    · rename_i s1 h1
      have k : s1.phase = .over ∧ s1.reset = false := by
        cases e <;> simp only [St.step, hp, q1, hc, Bool.false_and, Bool.false_eq_true, if_false] at h1 <;> cases h1
        · exact ⟨rfl, hr⟩
        · exact ⟨q1.trans hp, q4.trans hr⟩
        · exact ⟨rfl, hr⟩
      exact over_run es s1 s' hc k.1 k.2 h

/-- The two outputs of the P-Tile. -/
def Comp (es : List Ev) (s : St) : Prop := s.resetN = !s.reset ∨ (s.phase = .first ∧ rstClocks es = 0) ∨ (s.phase = .second ∧ rstClocks es = 1)

theorem comp_step {es : List Ev} {e : Ev} {s s' : St} (h : Comp es s) (hs : s.step c e = some s') : Comp (es ++ [e]) s' := by
  obtain ⟨q1, q2, q3, q4⟩ := status_same (c := c) s
  have q5 : (s.status c).resetN = s.resetN := by unfold St.status; split <;> rfl
  have k4 := clocks_snoc es e
  unfold Comp at h ⊢
  rw [k4]
  cases e with
  | pass d =>
    simp only [St.step] at hs
    split at hs
    · split at hs <;> cases hs
      simpa using h
    · cases hs; simpa using h
  | clk =>
    simp only [St.step, q1] at hs
    rcases h with h | ⟨h, h'⟩ | ⟨h, h'⟩
    · left
      split at hs <;> simp only [Option.some.injEq] at hs <;> subst hs
      · simp only [q4, q5, h]
      · rfl
      · simp only [St.finish]; split
        · simp only [q4, q5, h]
        · rfl
      · rw [q4, q5, h]
    · rw [h] at hs; cases hs
      right; right
      exact ⟨rfl, by simp [h']⟩
    · rw [h] at hs; cases hs
      left; rfl
  | rise =>
    simp only [St.step] at hs
    split at hs
    · split at hs <;> cases hs <;> simp_all
    · cases hs
  | fall =>
    simp only [St.step] at hs
    split at hs
    · split at hs <;> cases hs <;> simp_all [St.finish]
    · cases hs
  | timer =>
    simp only [St.step] at hs
    split at hs
    · split at hs <;> cases hs
      simp_all
    · cases hs
  | setEn b => cases hs; simpa using h

theorem comp_run {sys : Bool} : ∀ (n : Nat) (es : List Ev) (s : St), es.length = n → (St.init c sys).run c es = some s → Comp es s := by
  intro n
  induction n with
  | zero =>
    intro es s hn hr
    have := List.length_eq_zero_iff.mp hn
    subst this
    cases hr
    exact .inr (.inl ⟨rfl, rfl⟩)
  | succ n ih =>
    intro es s hn hr
    have hne : es ≠ [] := by intro h; rw [h] at hn; cases hn
    rw [← List.dropLast_concat_getLast hne] at hr ⊢
    obtain ⟨s0, r0, hs⟩ := run_snoc _ _ _ _ hr
    exact comp_step (ih _ s0 (by rw [List.length_dropLast, hn]; rfl) r0) hs

theorem released {e : Ev} {s s' : St} (hs : s.step c e = some s') (h1 : s.reset = true) (h2 : s'.reset = false) :
    e = .clk ∧ s.phase = .last ∧ (c.hasSys = true → s.sys = true) := by
  obtain ⟨q1, q2, q3, q4⟩ := status_same (c := c) s
  cases e with
  | pass d =>
    simp only [St.step] at hs
    split at hs
    · split at hs <;> cases hs
      simp_all
    · cases hs; simp_all
  | clk =>
    simp only [St.step, q1] at hs
    cases hq : s.phase <;> rw [hq] at hs <;> simp only [Option.some.injEq] at hs <;> subst hs
    case last =>
      refine ⟨rfl, rfl, fun hc => ?_⟩
      cases hy : s.sys
      · simp [St.finish, hc, q3, hy, q4, h1] at h2
      · rfl
    all_goals simp_all [St.assert]
  | rise =>
    simp only [St.step] at hs
    split at hs
    · split at hs <;> cases hs <;> simp_all
    · cases hs
  | fall =>
    simp only [St.step] at hs
    split at hs
    · split at hs <;> cases hs <;> simp_all [St.finish]
    · cases hs
  | timer =>
    simp only [St.step] at hs
    split at hs
    · split at hs <;> cases hs
      simp_all
    · cases hs
  | setEn b => cases hs; simp_all

end Rst
end Pcie
