/-
C49: the queues of a switch neither strand nor reorder TLPs.
-/
import Verif.Model.SwitchArb
namespace Pcie
namespace Arb
variable {α : Type}

/-- The TLPs of one queue in a history. -/
def ofQueue (k : Nat) (l : List (Nat × α)) : List α := (l.filter fun e => e.1 = k).map Prod.snd

theorem ofQueue_append (k : Nat) (l l' : List (Nat × α)) : ofQueue k (l ++ l') = ofQueue k l ++ ofQueue k l' := by
  simp [ofQueue]

theorem ofQueue_one (k j : Nat) (x : α) : ofQueue k [(j, x)] = if j = k then [x] else [] := by
  unfold ofQueue
  by_cases h : j = k <;> simp [h]

/-- The invariant. -/
structure Inv (s : St α) : Prop where
  /-- when nobody put anything since, everything the current pass went by is empty -/
  quiet : s.event = false → match s.pc with
    | .waiting => ∀ q ∈ s.queues, q = []
    | .scan k ok => ok = false → ∀ j < k, ∀ q, s.queues[j]? = some q → q = []
    | .sending _ => True
  fifo : ∀ k, ofQueue k s.put = ofQueue k s.out ++ s.queues.getD k []

theorem getD_of_some {l : List (List α)} {k : Nat} {q : List α} (h : l[k]? = some q) : l.getD k [] = q := by
  rw [List.getD_eq_getElem?_getD, h]; rfl

theorem getD_set (l : List (List α)) (k j : Nat) (q : List α) (h : k < l.length) :
    (l.set k q).getD j [] = if k = j then q else l.getD j [] := by
  simp only [List.getD_eq_getElem?_getD, List.getElem?_set]
  by_cases e : k = j
  · subst e; simp [h]
  · simp [e]

theorem inv {s : St α} (h : Reach s) : Inv s := by
  induction h with
  | init => exact ⟨fun _ => by simp, fun k => by simp [ofQueue]⟩
  | @addPort s _ ih =>
    refine ⟨fun he => ?_, fun k => ?_⟩
    · have := ih.quiet he
      unfold addPort
      cases hp : s.pc with
      | waiting =>
        rw [hp] at this
        intro q hq
        rcases List.mem_append.1 hq with h | h
        · exact this q h
        · simpa using h
      | scan k ok =>
        rw [hp] at this
        intro hok j hj q hq
        rw [List.getElem?_append] at hq
        split at hq
        · exact this hok j hj q hq
        · cases hn : j - s.queues.length with
          | zero => rw [hn] at hq; cases hq; rfl
          | succ n => rw [hn] at hq; cases hq
      | sending k => trivial
    · have : (s.queues ++ [[]]).getD k [] = s.queues.getD k [] := by
        simp only [List.getD_eq_getElem?_getD, List.getElem?_append]
        split
        · rfl
        · rename_i hk
          rw [List.getElem?_eq_none (Nat.le_of_not_lt hk)]
          cases hn : k - s.queues.length <;> rfl
      show ofQueue k s.put = ofQueue k s.out ++ (s.queues ++ [[]]).getD k []
      rw [this]; exact ih.fifo k
  | @put s k x _ ih =>
    unfold putTlp
    cases hq : s.queues[k]? with
    | none => exact ih
    | some q =>
      refine ⟨fun he => (by cases he), fun j => ?_⟩
      have hk : k < s.queues.length := (List.getElem?_eq_some_iff.1 hq).1
      have := ih.fifo j
      simp only [ofQueue_append, ofQueue_one, getD_set _ _ _ _ hk]
      by_cases e : k = j
      · subst e
        rw [getD_of_some hq] at this
        simp [this]
      · simp [e, this]
  | @step s s' _ hs ih =>
    unfold step at hs
    cases hp : s.pc with
    | waiting =>
      rw [hp] at hs
      simp only at hs
      split at hs
      · cases hs
        exact ⟨fun _ => by intro _ j hj; omega, ih.fifo⟩
      · cases hs
    | scan k ok =>
      rw [hp] at hs
      simp only at hs
      cases hq : s.queues[k]? with
      | none =>
        rw [hq] at hs; cases hs
        refine ⟨fun he => ?_, ih.fifo⟩
        have h1 := ih.quiet he
        rw [hp] at h1
        cases ok
        · simp only [Bool.false_eq_true, if_false]
          intro q hq2
          obtain ⟨j, hj⟩ := List.getElem?_of_mem hq2
          have : j < k := by
            have := (List.getElem?_eq_some_iff.1 hj).1
            have := List.getElem?_eq_none_iff.1 hq
            omega
          exact h1 rfl j this q hj
        · simp only [if_true]
          intro _ j hj; omega
      | some q =>
        rw [hq] at hs
        cases q with
        | nil =>
          cases hs
          refine ⟨fun he => ?_, ih.fifo⟩
          have h1 := ih.quiet he
          rw [hp] at h1
          intro hok j hj q hjq
          by_cases e : j = k
          · subst e; rw [hq] at hjq; cases hjq; rfl
          · exact h1 hok j (by omega) q hjq
        | cons x q =>
          cases hs
          have hk : k < s.queues.length := (List.getElem?_eq_some_iff.1 hq).1
          refine ⟨fun _ => trivial, fun j => ?_⟩
          have := ih.fifo j
          simp only [ofQueue_append, ofQueue_one, getD_set _ _ _ _ hk]
          by_cases e : k = j
          · subst e
            rw [getD_of_some hq] at this
            simp [this]
          · simp [e, this]
    | sending k =>
      rw [hp] at hs
      cases hs
      exact ⟨fun _ h => (by cases h), ih.fifo⟩

/-- C49: whenever the arbitration task of a port sleeps, every queue to the port is empty: no TLP is left behind, whatever
the interleaving with the tasks that put TLPs there. -/
theorem C49_never_stranded {s : St α} (h : Reach s) (hs : step s = none) : ∀ q ∈ s.queues, q = [] := by
  unfold step at hs
  cases hp : s.pc with
  | waiting =>
    rw [hp] at hs
    simp only at hs
    split at hs
    · cases hs
    · rename_i he
      have := (inv h).quiet (by simpa using he)
      rw [hp] at this
      exact this
  | scan k ok =>
    rw [hp] at hs; simp only at hs
    split at hs <;> cases hs
  | sending k => rw [hp] at hs; cases hs

/-- C49: the TLPs from each ingress port leave in the order in which they were put into the queue, without loss or
duplication. -/
theorem C49_fifo {s : St α} (h : Reach s) (k : Nat) :
    ∃ rest, ofQueue k s.put = ofQueue k s.out ++ rest ∧ s.queues.getD k [] = rest :=
  ⟨_, (inv h).fifo k, rfl⟩

/-! Progress. -/

theorem sum_set (l : List (List α)) (k : Nat) (x : α) (q : List α) (h : l[k]? = some (x :: q)) :
    ((l.set k q).map List.length).sum + 1 = (l.map List.length).sum := by
  induction l generalizing k with
  | nil => cases h
  | cons a l ih =>
    cases k with
    | zero => simp at h; subst h; simp; omega
    | succ k => simp at h; have := ih k h; simp only [List.set_cons_succ, List.map_cons, List.sum_cons]; omega

/-- A bound for the number of steps until the task sleeps. -/
def bound (s : St α) : Nat :=
  (2 * s.queues.length + 6) * (s.queues.map List.length).sum + (if s.event then s.queues.length + 2 else 0) +
    match s.pc with
    | .waiting => 0
    | .scan k ok => (if ok then s.queues.length + 2 else 0) + (s.queues.length - k) + 1
    | .sending k => s.queues.length + 2 + (s.queues.length - k) + 2

theorem step_bound {s s' : St α} (h : step s = some s') : bound s' < bound s := by
  unfold step at h
  cases hp : s.pc with
  | waiting =>
    rw [hp] at h
    simp only at h
    split at h
    · rename_i he
      cases h
      unfold bound
      simp only [hp, he, if_true, Bool.false_eq_true, if_false]
      omega
    · cases h
  | scan k ok =>
    rw [hp] at h
    simp only at h
    cases hq : s.queues[k]? with
    | none =>
      rw [hq] at h; cases h
      unfold bound
      simp only [hp]
      cases ok <;> simp only [Bool.false_eq_true, if_false, if_true] <;> omega
    | some q =>
      rw [hq] at h
      have hk : k < s.queues.length := (List.getElem?_eq_some_iff.1 hq).1
      cases q with
      | nil =>
        cases h
        unfold bound
        simp only [hp]
        omega
      | cons x q =>
        cases h
        unfold bound
        simp only [hp, List.length_set, ← sum_set _ _ _ _ hq]
        rw [Nat.mul_add]
        omega
  | sending k =>
    rw [hp] at h
    cases h
    unfold bound
    simp only [hp, if_true]
    omega

/-- C49: if every `tx_handler` call returns, everything that is in the queues is passed on: after finitely many steps the
task sleeps, all queues are empty, and each ingress port's TLPs have all left in order. -/
theorem C49_drains {s : St α} (h : Reach s) : ∃ n, Reach (run n s) ∧ (∀ q ∈ (run n s).queues, q = []) ∧
    (run n s).put = s.put ∧ ∀ k, ofQueue k (run n s).out = ofQueue k s.put := by
  have key : ∀ (b : Nat) (s : St α), bound s ≤ b → Reach s → ∃ n, Reach (run n s) ∧ step (run n s) = none ∧ (run n s).put = s.put := by
    intro b
    induction b with
    | zero =>
      intro s hb hr
      refine ⟨0, hr, ?_, rfl⟩
      cases hs : step s with
      | none => exact hs
      | some s' => have := step_bound hs; omega
    | succ b ih =>
      intro s hb hr
      cases hs : step s with
      | none => exact ⟨0, hr, hs, rfl⟩
      | some s' =>
        have := step_bound hs
        obtain ⟨n, h1, h2, h3⟩ := ih s' (by omega) (.step hr hs)
        have e : run (n + 1) s = run n s' := by simp [run, hs]
        have hput : s'.put = s.put := by
          unfold step at hs
          split at hs
          · split at hs
            · cases hs; rfl
            · cases hs
          · split at hs <;> cases hs <;> rfl
          · cases hs; rfl
        exact ⟨n + 1, by rw [e]; exact h1, by rw [e]; exact h2, by rw [e, h3, hput]⟩
  obtain ⟨n, h1, h2, h3⟩ := key _ s (Nat.le_refl _) h
  have h4 := C49_never_stranded h1 h2
  refine ⟨n, h1, h4, h3, fun k => ?_⟩
  have := (inv h1).fifo k
  rw [h3] at this
  rw [this]
  have : (run n s).queues.getD k [] = [] := by
    rw [List.getD_eq_getElem?_getD]
    cases hq : (run n s).queues[k]? with
    | none => rfl
    | some q => rw [h4 q (List.mem_of_getElem? hq)]; rfl
  rw [this, List.append_nil]

/-- Three ports; TLPs arrive while others are sent; the task passes on all of them and sleeps. -/
def exRun : St Nat :=
  run 20 (putTlp (putTlp (run 3 (putTlp (putTlp (addPort (addPort (addPort {}))) 1 10) 1 11)) 0 20) 2 30)

example : exRun.out = [(1, 10), (2, 30), (0, 20), (1, 11)] ∧ step exRun = none ∧ exRun.queues = [[], [], []] := by decide

end Arb
end Pcie
