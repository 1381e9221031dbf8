import Verif.Spec.IntelRx
/-
C44 for the Intel hard IP models.
-/
namespace Pcie
open Spec
namespace IntelRx

theorem cplCredits_append (a b : List Tlp) : cplCredits (a ++ b) = cplCredits a + cplCredits b := by simp [cplCredits]

/-- The counters are never too large. -/
structure RxInv (s : IntelRx) : Prop where
  cplh : s.cplh ≤ (heldCpls s).length
  cpld : s.cpld ≤ cplCredits (heldCpls s)

theorem step_inv {p : RxLimits} {s s' : IntelRx} {a : RxAct} (hi : RxInv s) (h : step p s a = some s') : RxInv s' := by
  cases a with
  | recv t =>
    simp only [step] at h
    split at h
    · next hc =>
      split at h
      · cases h
        have hb : heldCpls { s with cplh := s.cplh + 1, cpld := s.cpld + t.dataCredits, queue := s.queue ++ [t] } = heldCpls s ++ [t] := by
          simp [heldCpls, pendingRx, hc, ← List.append_assoc]
        have := hi.cplh
        have := hi.cpld
        constructor
        · rw [hb]; simp only [List.length_append, List.length_singleton]; omega
        · rw [hb, cplCredits_append]; simp only [cplCredits, List.map_cons, List.map_nil, List.sum_cons, List.sum_nil] at *; omega
      · cases h; exact ⟨hi.cplh, hi.cpld⟩
    · next hc =>
      cases h
      have hb : heldCpls { s with queue := s.queue ++ [t] } = heldCpls s := by simp [heldCpls, pendingRx, hc, ← List.append_assoc]
      exact ⟨by rw [hb]; exact hi.cplh, by rw [hb]; exact hi.cpld⟩
  | get =>
    simp only [step] at h
    split at h
    · next t rest h1 h2 =>
      cases h
      have hb : heldCpls { s with sending := some t, queue := rest } = heldCpls s := by simp [heldCpls, pendingRx, h1, h2]
      exact ⟨by rw [hb]; exact hi.cplh, by rw [hb]; exact hi.cpld⟩
    · cases h
  | done =>
    simp only [step] at h
    split at h
    · next t h1 =>
      cases h
      have h2 := hi.cplh
      have h3 := hi.cpld
      have hb : heldCpls s = (if t.isCompletion then [t] else []) ++ heldCpls { s with sending := none } := by
        cases hc : t.isCompletion <;> simp [heldCpls, pendingRx, h1, hc]
      have hb' : heldCpls { s with sending := none, cplh := s.cplh - 1, cpld := s.cpld - t.dataCredits, got := s.got ++ [t] } = heldCpls { s with sending := none } := rfl
      rw [hb, List.length_append] at h2
      rw [hb, cplCredits_append] at h3
      constructor
      · rw [hb']
        simp only
        split at h2 <;> simp only [List.length_cons, List.length_nil] at h2 <;> omega
      · rw [hb']
        simp only
        split at h3 <;> simp only [cplCredits, List.map_cons, List.map_nil, List.sum_cons, List.sum_nil] at h3 ⊢ <;> omega
    · cases h

theorem run_inv {p : RxLimits} : ∀ (as : List RxAct) (s s' : IntelRx), RxInv s → run p s as = some s' → RxInv s'
  | [], s, s', hi, h => by cases h; exact hi
  | a :: as, s, s', hi, h => by
    simp only [run, Option.bind_eq_some_iff] at h
    obtain ⟨s1, h1, h2⟩ := h
    exact run_inv as s1 s' (step_inv hi h1) h2

/-- Exact as long as the queue holds completions only. -/
structure Exact (p : RxLimits) (s : IntelRx) : Prop where
  only : ∀ t ∈ pendingRx s, t.isCompletion = true
  cplh : s.cplh = (heldCpls s).length
  cpld : s.cpld = cplCredits (heldCpls s)
  fits : s.cplh ≤ p.cplh ∧ s.cpld ≤ p.cpld

theorem step_exact {p : RxLimits} {s s' : IntelRx} {a : RxAct} (hi : Exact p s) (ha : ∀ t, a = .recv t → t.isCompletion = true) (h : step p s a = some s') : Exact p s' := by
  cases a with
  | recv t =>
    have hc := ha t rfl
    simp only [step] at h
    rw [if_pos hc] at h
    split at h
    · next hf =>
      cases h
      have hb : heldCpls { s with cplh := s.cplh + 1, cpld := s.cpld + t.dataCredits, queue := s.queue ++ [t] } = heldCpls s ++ [t] := by
        simp [heldCpls, pendingRx, hc, ← List.append_assoc]
      refine ⟨?_, ?_, ?_, hf⟩
      · intro x hx
        rcases List.mem_append.mp (show x ∈ pendingRx s ++ [t] from by simpa [pendingRx, or_assoc] using hx) with hx | hx
        · exact hi.only x hx
        · rw [List.mem_singleton.mp hx]; exact hc
      · rw [hb, List.length_append, ← hi.cplh]; rfl
      · rw [hb, cplCredits_append, ← hi.cpld]; simp [cplCredits]
    · cases h; exact ⟨hi.only, hi.cplh, hi.cpld, hi.fits⟩
  | get =>
    simp only [step] at h
    split at h
    · next t rest h1 h2 =>
      cases h
      have hp : pendingRx { s with sending := some t, queue := rest } = pendingRx s := by simp [pendingRx, h1, h2]
      have hb : heldCpls { s with sending := some t, queue := rest } = heldCpls s := by rw [heldCpls, hp]; rfl
      exact ⟨by rw [hp]; exact hi.only, by rw [hb]; exact hi.cplh, by rw [hb]; exact hi.cpld, hi.fits⟩
    · cases h
  | done =>
    simp only [step] at h
    split at h
    · next t h1 =>
      cases h
      have hc : t.isCompletion = true := hi.only t (by simp [pendingRx, h1])
      have hb : heldCpls s = t :: heldCpls { s with sending := none } := by simp [heldCpls, pendingRx, h1, hc]
      have h2 := hi.cplh
      have h3 := hi.cpld
      rw [hb] at h2 h3
      have hf := hi.fits
      refine ⟨fun x hx => hi.only x (by simp only [pendingRx, h1]; exact List.mem_cons_of_mem _ hx), ?_, ?_, ?_⟩
      · show s.cplh - 1 = (heldCpls { s with sending := none }).length
        rw [h2]; rfl
      · show s.cpld - t.dataCredits = cplCredits (heldCpls { s with sending := none })
        have h4 : s.cpld = t.dataCredits + cplCredits (heldCpls { s with sending := none }) := h3
        omega
      · exact ⟨by show s.cplh - 1 ≤ _; omega, by show s.cpld - _ ≤ _; omega⟩
    · cases h

theorem run_exact {p : RxLimits} : ∀ (as : List RxAct) (s s' : IntelRx), Exact p s → (∀ t, .recv t ∈ as → t.isCompletion = true) → run p s as = some s' → Exact p s'
  | [], s, s', hi, _, h => by cases h; exact hi
  | a :: as, s, s', hi, ha, h => by
    simp only [run, Option.bind_eq_some_iff] at h
    obtain ⟨s1, h1, h2⟩ := h
    exact run_exact as s1 s' (step_exact hi (fun t ht => ha t (by rw [ht]; exact List.mem_cons_self)) h1) (fun t ht => ha t (List.mem_cons_of_mem _ ht)) h2

theorem run_append {p : RxLimits} {s s1 : IntelRx} {a b : List RxAct} (h : run p s a = some s1) : run p s (a ++ b) = run p s1 b := by
  induction a generalizing s with
  | nil => cases h; rfl
  | cons e a ih =>
    simp only [List.cons_append, run, Option.bind_eq_some_iff] at h ⊢
    obtain ⟨s2, h1, h2⟩ := h
    rw [h1]
    exact ih h2

end IntelRx
open IntelRx

/-! ### C44 -/

/-- Part: the counters never exceed what is really in the buffer. Missing: that they are equal, and the limit (`C44_intel_violated`). -/
theorem C44_intel_occupancy_partial (p : RxLimits) (as : List RxAct) (s : IntelRx) (h : run p {} as = some s) :
    s.cplh ≤ (heldCpls s).length ∧ s.cpld ≤ cplCredits (heldCpls s) := by
  have := run_inv as _ _ ⟨Nat.zero_le _, Nat.zero_le _⟩ h
  exact ⟨this.cplh, this.cpld⟩

/-- A completion is dropped only if it does not fit. -/
theorem C44_intel_drop (p : RxLimits) (as : List RxAct) (s s' : IntelRx) (h : run p {} as = some s) (t : Tlp) (hs : step p s (.recv t) = some s')
    (hf : (heldCpls s).length < p.cplh ∧ cplCredits (heldCpls s) + t.dataCredits ≤ p.cpld) : pendingRx s' = pendingRx s ++ [t] ∧ s'.lost = s.lost := by
  obtain ⟨h1, h2⟩ := C44_intel_occupancy_partial p as s h
  simp only [step] at hs
  split at hs
  · rw [if_pos ⟨by omega, by omega⟩] at hs
    cases hs
    simp [pendingRx]
  · cases hs
    simp [pendingRx]

/-- Part: if only completions arrive, the counters are exact and the limits are kept. -/
theorem C44_intel_exact_partial (p : RxLimits) (as : List RxAct) (ha : ∀ t, .recv t ∈ as → t.isCompletion = true) (s : IntelRx) (h : run p {} as = some s) :
    s.cplh = (heldCpls s).length ∧ s.cpld = cplCredits (heldCpls s) ∧ (heldCpls s).length ≤ p.cplh ∧ cplCredits (heldCpls s) ≤ p.cpld := by
  have := run_exact as _ _ ⟨by simp [pendingRx], rfl, rfl, ⟨Nat.zero_le _, Nat.zero_le _⟩⟩ ha h
  exact ⟨this.cplh, this.cpld, by rw [← this.cplh]; exact this.fits.1, by rw [← this.cpld]; exact this.fits.2⟩

/-- In order: what was delivered and what is in the queue is what was received, without what was dropped. -/
theorem C44_intel_in_order (p : RxLimits) (as : List RxAct) (s : IntelRx) (h : run p {} as = some s) :
    (s.got ++ pendingRx s).Sublist (as.filterMap fun | .recv t => some t | _ => none) ∧
      (s.got ++ pendingRx s).length + s.lost.length = (as.filterMap fun | RxAct.recv t => some t | _ => none).length := by
  have key : ∀ (as : List RxAct) (s0 s : IntelRx) (pre : List Tlp), (s0.got ++ pendingRx s0).Sublist pre → (s0.got ++ pendingRx s0).length + s0.lost.length = pre.length →
      run p s0 as = some s → (s.got ++ pendingRx s).Sublist (pre ++ as.filterMap fun | .recv t => some t | _ => none) ∧
        (s.got ++ pendingRx s).length + s.lost.length = (pre ++ as.filterMap fun | RxAct.recv t => some t | _ => none).length := by
    intro as
    induction as with
    | nil => intro s0 s pre h1 h2 h; cases h; simpa using ⟨h1, by simpa using h2⟩
    | cons a as ih =>
      intro s0 s pre h1 h2 h
      simp only [run, Option.bind_eq_some_iff] at h
      obtain ⟨s1, hs1, hr⟩ := h
      cases a with
      | recv t =>
        have step1 : (s1.got ++ pendingRx s1).Sublist (pre ++ [t]) ∧ (s1.got ++ pendingRx s1).length + s1.lost.length = (pre ++ [t]).length := by
          have hin : s1 = { s1 with queue := s0.queue ++ [t], sending := s0.sending, got := s0.got, lost := s0.lost } →
              (s1.got ++ pendingRx s1).Sublist (pre ++ [t]) ∧ (s1.got ++ pendingRx s1).length + s1.lost.length = (pre ++ [t]).length := by
            intro he
            have hp : s1.got ++ pendingRx s1 = (s0.got ++ pendingRx s0) ++ [t] := by rw [he]; simp [pendingRx]
            have hl : s1.lost = s0.lost := by rw [he]
            rw [hp, hl]
            exact ⟨h1.append (List.Sublist.refl _), by simp only [List.length_append, List.length_singleton] at h2 ⊢; omega⟩
          simp only [step] at hs1
          split at hs1
          · split at hs1
            · cases hs1; exact hin rfl
            · cases hs1
              exact ⟨h1.trans (List.sublist_append_left _ _), by simp only [List.length_append, List.length_singleton, pendingRx] at h2 ⊢; omega⟩
          · cases hs1; exact hin rfl
        have := ih s1 s (pre ++ [t]) step1.1 step1.2 hr
        simpa using this
      | get =>
        simp only [step] at hs1
        split at hs1
        · next t rest e1 e2 =>
          cases hs1
          have hp : pendingRx { s0 with sending := some t, queue := rest } = pendingRx s0 := by simp [pendingRx, e1, e2]
          exact ih _ s pre (by rw [hp]; exact h1) (by rw [hp]; exact h2) hr
        · cases hs1
      | done =>
        simp only [step] at hs1
        split at hs1
        · next t e1 =>
          cases hs1
          have hp : s0.got ++ [t] ++ pendingRx { s0 with sending := none } = s0.got ++ pendingRx s0 := by simp [pendingRx, e1]
          refine ih { s0 with sending := none, cplh := s0.cplh - 1, cpld := s0.cpld - t.dataCredits, got := s0.got ++ [t] } s pre ?_ ?_ hr
          · exact hp.symm ▸ h1
          · exact (congrArg List.length hp).symm ▸ h2
        · cases hs1
  have := key as {} s [] (by simp [pendingRx]) (by simp [pendingRx]) h
  simpa using this

/-- A memory write with one dword, and a completion with one. -/
def rxWrite : Tlp := { fmt := 2, type := 0, length := 1, first_be := 15, data := [1, 2, 3, 4] }
@[inherit_doc rxWrite] def rxCpl : Tlp := { fmt := 2, type := 0x0a, length := 1, byte_count := 4, data := [1, 2, 3, 4] }

/-- As many writes as the buffer has space for completions, then as many completions; then the writes are delivered, and as many completions arrive again. -/
def rxOver (n : Nat) : List RxAct :=
  List.replicate n (.recv rxWrite) ++ List.replicate n (.recv rxCpl) ++ (List.replicate n [.get, .done]).flatten ++ List.replicate n (.recv rxCpl)

theorem rx_writes (p : RxLimits) (s : IntelRx) : ∀ n, run p s (List.replicate n (.recv rxWrite)) = some { s with queue := s.queue ++ List.replicate n rxWrite }
  | 0 => by simp [run]
  | n + 1 => by
    rw [List.replicate_succ', IntelRx.run_append (rx_writes p s n)]
    simp only [run, step, show rxWrite.isCompletion = false from by decide]
    simp [List.replicate_succ']

theorem rx_cpls (p : RxLimits) (s : IntelRx) : ∀ n, s.cplh + n ≤ p.cplh → s.cpld + n ≤ p.cpld →
    run p s (List.replicate n (.recv rxCpl)) = some { s with queue := s.queue ++ List.replicate n rxCpl, cplh := s.cplh + n, cpld := s.cpld + n }
  | 0, _, _ => by simp [run]
  | n + 1, h1, h2 => by
    rw [List.replicate_succ', IntelRx.run_append (rx_cpls p s n (by omega) (by omega))]
    simp only [run, step, show rxCpl.isCompletion = true from by decide, show rxCpl.dataCredits = 1 from by decide]
    rw [if_pos trivial, if_pos ⟨by omega, by omega⟩]
    simp [List.replicate_succ', Nat.add_assoc]

theorem rx_drain (p : RxLimits) (q : List Tlp) : ∀ (n : Nat) (s : IntelRx), s.sending = none → s.queue = List.replicate n rxWrite ++ q →
    run p s (List.replicate n [.get, .done]).flatten = some { s with queue := q, cplh := s.cplh - n, cpld := s.cpld - n, got := s.got ++ List.replicate n rxWrite }
  | 0, s, h1, h2 => by simp only [List.replicate_zero, List.nil_append] at h2; simp [run, ← h2]
  | n + 1, s, h1, h2 => by
    rw [List.replicate_succ, List.flatten_cons, IntelRx.run_append (s1 := { s with queue := List.replicate n rxWrite ++ q, cplh := s.cplh - 1, cpld := s.cpld - 1, got := s.got ++ [rxWrite] })]
    · rw [rx_drain p q n { s with queue := List.replicate n rxWrite ++ q, cplh := s.cplh - 1, cpld := s.cpld - 1, got := s.got ++ [rxWrite] } h1 rfl]
      simp [List.replicate_succ, Nat.sub_sub, Nat.add_comm 1]
    · have hd : rxWrite.dataCredits = 1 := by decide
      simp only [run, step, h1, h2, List.replicate_succ, List.cons_append, Option.bind_some]
      rw [hd]

/-- The property fails: `_run_rx_logic` frees completion space for every packet that it delivers, also for requests. After writes and completions the buffer for completions
can hold twice as many completions as it has space for, the counters showing half of them. -/
theorem C44_intel_violated (p : RxLimits) (h : p.cplh ≤ p.cpld) : ∃ s, run p {} (rxOver p.cplh) = some s ∧ (heldCpls s).length = 2 * p.cplh ∧ s.cplh = p.cplh := by
  have key : run p {} (rxOver p.cplh) = some { queue := List.replicate p.cplh rxCpl ++ List.replicate p.cplh rxCpl, cplh := p.cplh, cpld := p.cplh, got := List.replicate p.cplh rxWrite } := by
    unfold rxOver
    rw [List.append_assoc, List.append_assoc, IntelRx.run_append (rx_writes p {} p.cplh), IntelRx.run_append (rx_cpls p _ p.cplh (by simp) (by simpa using h)),
      IntelRx.run_append (rx_drain p (List.replicate p.cplh rxCpl) p.cplh _ rfl rfl), rx_cpls p _ p.cplh (by simp) (by simpa using h)]
    simp
  refine ⟨_, key, ?_, rfl⟩
  have : rxCpl.isCompletion = true := by decide
  simp [heldCpls, pendingRx, this]; omega

/-- The limits of all devices allow it. -/
example : ∀ p ∈ [({} : RxLimits), { cplh := 1144, cpld := 2888 }, { cplh := 572, cpld := 1444 }, { cplh := 286, cpld := 722 }], p.cplh ≤ p.cpld := by simp

/-- A small run for the other theorems: three completions, two places. -/
example : ((run { cplh := 2, cpld := 10 } {} [.recv rxCpl, .recv rxCpl, .recv rxCpl, .get, .done, .recv rxCpl]).map fun s => (s.cplh, s.lost.length, s.got.length)) =
    some (2, 1, 1) := by decide +kernel

end Pcie
