import Verif.Lemmas.Reset
/-
C83: the reset of the hard IP models.
-/
namespace Pcie
open Rst Spec

/-- If every pulse of the reset input lasts for a clock edge, the reset output is released only at a clock edge, when the input has been inactive for 100 ns without interruption. Partial: with
shorter pulses it is not so (`C83_released_violated`). -/
theorem C83_released_partial (c : Conf) (hc : c.hasSys = true) (sys : Bool) (es : List Ev) (hl : LongPulses es) (e : Ev) (s s' : St)
    (hr : (St.init c sys).run c es = some s) (hs : s.step c e = some s') (h1 : s.reset = true) (h2 : s'.reset = false) :
    e = .clk ∧ ∃ t, highSince 0 (if sys then some 0 else none) es = some t ∧ t + c.hundred ≤ rstTime es := by
  obtain ⟨r1, r2, r3⟩ := released hs h1 h2
  have hi := inv_run _ es s rfl hl hr
  have hg := hi.good
  simp only [Good, r2] at hg
  refine ⟨r1, ?_⟩
  rcases hg.2 hc with ⟨t, ht, hle⟩ | ⟨hy, _⟩
  · exact ⟨t, ht, by rw [← hi.now]; exact hle⟩
  · rw [r3 hc] at hy; cases hy

/-- Whatever the pulses, the reset output is released only at a clock edge and when the input is inactive. -/
theorem C83_released_high (c : Conf) (hc : c.hasSys = true) (sys : Bool) (es : List Ev) (e : Ev) (s s' : St)
    (hr : (St.init c sys).run c es = some s) (hs : s.step c e = some s') (h1 : s.reset = true) (h2 : s'.reset = false) :
    e = .clk ∧ (highSince 0 (if sys then some 0 else none) es).isSome = true := by
  obtain ⟨r1, r2, r3⟩ := released hs h1 h2
  exact ⟨r1, by rw [← (seen_run _ es s rfl hr).inp hc]; exact r3 hc⟩

/-- While the reset input is active, the reset output is active after two clock edges at the latest, and stays so. -/
theorem C83_asserted (c : Conf) (hc : c.hasSys = true) (sys : Bool) (es low : List Ev) (s : St) (hy : highSince 0 (if sys then some 0 else none) es = none)
    (hn : .rise ∉ low) (h2 : 2 ≤ rstClocks low) (hr : (St.init c sys).run c (es ++ low) = some s) : s.reset = true := by
  obtain ⟨s0, r0, r1⟩ := run_append _ _ _ _ hr
  have hw := weak_run es _ s0 (weak_init sys) r0
  have hs : s0.sys = false := by rw [(seen_run _ es s0 rfl r0).inp hc, hy]; rfl
  have k := need_run low s0 s hw hc hs hn r1
  have hws := weak_run low s0 s hw r1
  have b : need s0 ≤ 2 := by unfold need; split <;> (try split) <;> omega
  have z : need s = 0 := by omega
  have hlow := run_sys_low low s0 s hs hn r1
  cases hb : s.reset with
  | true => rfl
  | false =>
    simp only [Weak] at hws
    cases hq : s.phase <;> rw [hq] at hws <;> simp_all [need]

/-- Once the reset input is inactive: after two clock edges, then more than 100 ns, then a clock edge, the reset output is released. -/
theorem C83_release (c : Conf) (sys : Bool) (es es1 es2 es3 : List Ev) (s : St) (hy : c.hasSys = true → (highSince 0 (if sys then some 0 else none) es).isSome = true)
    (hn : .fall ∉ es1 ++ es2 ++ es3) (h1 : 2 ≤ rstClocks es1) (h2 : c.hundred < rstTime es2) (h3 : .clk ∈ es3)
    (hr : (St.init c sys).run c (es ++ (es1 ++ es2 ++ es3)) = some s) : s.reset = false := by
  obtain ⟨s0, r0, r⟩ := run_append _ _ _ _ hr
  obtain ⟨s2, r, r3⟩ := run_append _ _ _ _ r
  obtain ⟨s1, r1, r2⟩ := run_append _ _ _ _ r
  simp only [List.mem_append, not_or] at hn
  have u0 : Up c s0 := ⟨weak_run es _ s0 (weak_init sys) r0, fun hc => by rw [(seen_run _ es s0 rfl r0).inp hc]; exact hy hc,
    due_run es _ s0 (by intro due hd; cases hd) r0⟩
  obtain ⟨u1, a1, a2, _, _⟩ := up_run es1 s0 s1 u0 hn.1.1 r1
  obtain ⟨u2, b1, _, b3, _⟩ := up_run es2 s1 s2 u1 hn.1.2 r2
  obtain ⟨u3, _, _, _, c4⟩ := up_run es3 s2 s u2 hn.2 r3
  have k1 : 2 ≤ stage s1 := by omega
  have k2 : 3 ≤ stage s2 := by
    rcases Nat.lt_or_ge 2 (stage s2) with h | h
    · exact h
    · exfalso
      have e2 : stage s2 = 2 := by omega
      have e1 : stage s1 = 2 := by omega
      have hp := b3 e1 e2
      have w1 := u1.weak
      have hsys := u1.sys
      have n2 := run_now es2 s1 s2 r2
      cases hq : s1.phase with
      | timer due =>
        have d1 := u1.due due hq
        have d2 := u2.due due (hp.trans hq)
        omega
      | high =>
        simp only [Weak, hq] at w1
        have := hsys w1.2.2
        rw [w1.2.1] at this
        cases this
      | _ => simp [stage, hq] at e1
  have k3 := c4 k2 h3
  have w := u3.weak
  simp only [Weak] at w
  cases hq : s.phase <;> rw [hq] at w <;> simp_all [stage]

/-- Without a reset input, the reset output is active once: from the second clock edge, for at least 100 ns, to a clock edge; then never again. -/
theorem C83_once (c : Conf) (hc : c.hasSys = false) (sys : Bool) (es : List Ev) (s : St) (hr : (St.init c sys).run c es = some s) :
    (rstClocks es < 2 → s.reset = false) ∧
    (∀ e s', s.step c e = some s' → s.reset = false → s'.reset = true → e = .clk ∧ rstClocks es = 1) ∧
    (∀ e s', s.step c e = some s' → s.reset = true → s'.reset = false →
      e = .clk ∧ (∃ es1 es2, es = es1 ++ .clk :: es2 ∧ rstClocks es1 = 1 ∧ rstTime es1 + c.hundred ≤ rstTime es) ∧ ∀ more s'', s'.run c more = some s'' → s''.reset = false) := by
  have ho := once_run hc _ es s rfl hr
  have clocks : ∀ es1 es2 : List Ev, es = es1 ++ .clk :: es2 → rstClocks es1 = 1 → ¬ rstClocks es < 2 := by
    intro es1 es2 h1 h2
    have : rstClocks es = rstClocks es1 + (rstClocks es2 + 1) := by
      rw [h1]; unfold rstClocks; rw [List.count_append, List.count_cons_self]
    omega
  have main : ∀ e s', s.step c e = some s' → Once c (es ++ [e]) s' := fun e s' hs => once_step hc (seen_run _ es s rfl hr).now ho hs
  refine ⟨fun h => ?_, fun e s' hs h1 h2 => ?_, fun e s' hs h1 h2 => ?_⟩
  · simp only [Once] at ho
    split at ho
    · exact ho.1
    · exact ho.1
    · obtain ⟨_, es1, es2, q1, q2, _⟩ := ho; exact absurd h (clocks es1 es2 q1 q2)
    · obtain ⟨_, es1, es2, q1, q2, _⟩ := ho; exact absurd h (clocks es1 es2 q1 q2)
    · exact ho.1
    · exact ho.elim
  · have ho' := main e s' hs
    obtain ⟨q1, q2, q3, q4⟩ := status_same (c := c) s
    cases e with
    | clk =>
      refine ⟨rfl, ?_⟩
      simp only [St.step, q1] at hs
      simp only [Once] at ho
      cases hq : s.phase <;> rw [hq] at hs ho <;> simp only [Option.some.injEq] at hs <;> subst hs <;> simp_all [St.finish]
    | pass d =>
      simp only [St.step] at hs
      split at hs
      · split at hs <;> cases hs
        rw [h1] at h2; cases h2
      · cases hs; rw [h1] at h2; cases h2
    | rise => simp [St.step, hc] at hs
    | fall => simp [St.step, hc] at hs
    | timer =>
      simp only [St.step] at hs
      split at hs
      · split at hs <;> cases hs
        rw [h1] at h2; cases h2
      · cases hs
    | setEn b => cases hs; rw [h1] at h2; cases h2
  · obtain ⟨r1, r2, _⟩ := released hs h1 h2
    simp only [Once, r2] at ho
    refine ⟨r1, ho.2, fun more s'' hm => ?_⟩
    subst r1
    obtain ⟨q1, q2, q3, q4⟩ := status_same (c := c) s
    simp only [St.step, q1, r2, Option.some.injEq, St.finish, hc, Bool.false_and, Bool.false_eq_true, if_false] at hs
    subst hs
    exact over_run more _ s'' hc rfl rfl hm

/-- The link is shown as up, and configuration requests are served, as the inputs were at the last clock edge: not while the reset input is active; else if `cfg_config_space_enable` says so, or
is not connected. -/
theorem C83_config (c : Conf) (sys : Bool) (es es2 : List Ev) (h2 : .clk ∉ es2) (s : St) (hr : (St.init c sys).run c (es ++ .clk :: es2) = some s) :
    (c.hasSys = true ∧ highSince 0 (if sys then some 0 else none) es = none → s.linkUp = false ∧ s.enable = false) ∧
    (c.hasSys = false ∨ highSince 0 (if sys then some 0 else none) es ≠ none → s.linkUp = true ∧ s.enable = if c.hasEn then lastEn es else true) := by
  obtain ⟨s0, r0, r⟩ := run_append _ _ _ _ hr
  simp only [St.run] at r
  split at r
  · cases r
  · rename_i s1 h1
    have a := run_out es2 s1 s h2 r
    have b := clk_out h1
    rw [a.1, a.2, b.1, b.2]
    obtain ⟨v1, v2, v3⟩ := seen_run _ es s0 rfl r0
    refine ⟨?_, ?_⟩
    · rintro ⟨hc, hi⟩
      have := v2 hc
      rw [hi] at this
      simp [St.status, hc, this]
    · intro h
      have k : (c.hasSys && !s0.sys) = false := by
        cases hc : c.hasSys
        · rfl
        · rw [v2 hc]
          rcases h with h | h
          · rw [hc] at h; cases h
          · rw [Bool.true_and, Bool.not_eq_false', Option.isSome_iff_ne_none]; exact h
      simp [St.status, k, v3]

/-- After the second clock edge, the active low output of the P-Tile is the complement of the active high one. -/
theorem C83_complement (c : Conf) (sys : Bool) (es : List Ev) (h2 : 2 ≤ rstClocks es) (s : St) (hr : (St.init c sys).run c es = some s) : s.resetN = !s.reset := by
  rcases comp_run _ es s rfl hr with h | ⟨_, h⟩ | ⟨_, h⟩
  · exact h
  · omega
  · omega

def rstConf : Conf := { hasSys := true, hasEn := false, hundred := 100 }

/-- What the user sees. -/
def rstSee (c : Conf) (sys : Bool) (es : List Ev) : Option ((Nat × Bool) × (Bool × Bool) × (Bool × Bool)) :=
  ((St.init c sys).run c es).map fun s => ((s.now, s.sys), (s.reset, s.resetN), (s.enable, s.linkUp))

/-- A pulse of the reset input that ends before the next clock edge does not start the 100 ns again but ends the wait: the output is released 2 ns after it, 12 ns after it became active. -/
theorem C83_released_violated : rstSee rstConf true [.clk, .clk, .pass 10, .fall, .pass 1, .rise, .pass 1] = some ((12, true), (true, false), (true, true)) ∧
    rstSee rstConf true [.clk, .clk, .pass 10, .fall, .pass 1, .rise, .pass 1, .clk] = some ((12, true), (false, true), (true, true)) ∧
    highSince 0 (some 0) [.clk, .clk, .pass 10, .fall, .pass 1, .rise, .pass 1] = some 11 := by
  decide +kernel

/-- With the reset input active from the start, the output is inactive until the second clock edge; the two outputs of the P-Tile agree instead of being complements; and without
`cfg_config_space_enable` configuration requests are served until the first clock edge. -/
theorem C83_initial_violated : rstSee rstConf false [.pass 5] = some ((5, false), (false, false), (true, false)) ∧ rstSee rstConf false [.pass 5, .clk] = some ((5, false), (false, false), (false, false)) := by
  decide +kernel

/-- A reset in operation: active two clock edges after the falling edge, released 100 ns after the rising edge. -/
example : rstSee rstConf false [.clk, .clk, .rise, .pass 100, .timer, .clk, .fall, .clk, .clk] = some ((100, false), (true, false), (false, false)) ∧
    rstSee rstConf false [.clk, .clk, .rise, .pass 100, .timer, .clk, .fall, .clk, .clk, .pass 3, .rise, .clk, .pass 100, .timer] = some ((203, true), (true, false), (true, true)) ∧
    rstSee rstConf false [.clk, .clk, .rise, .pass 100, .timer, .clk, .fall, .clk, .clk, .pass 3, .rise, .clk, .pass 100, .timer, .clk] = some ((203, true), (false, true), (true, true)) := by
  decide +kernel

/-- Its pulse is long. -/
example : LongPulses [.clk, .clk, .rise, .pass 100, .timer, .clk, .fall, .clk, .clk, .pass 3, .rise, .clk, .pass 100, .timer] := by
  intro pre mid post h hm
  have : ∀ (a b : List Ev) (pre : List Ev), .fall ∉ a → a ++ .fall :: b = pre ++ .fall :: (mid ++ .rise :: post) → .fall ∉ b → b = mid ++ .rise :: post := by
    intro a
    induction a with
    | nil =>
      intro b pre _ h hb
      cases pre with
      | nil => simpa using h
      | cons x pre => simp at h; rw [h.2] at hb; simp at hb
    | cons x a ih =>
      intro b pre ha h hb
      cases pre with
      | nil => simp at h; rw [h.1] at ha; simp at ha
      | cons y pre => simp at h; exact ih b pre (by simp at ha; exact ha.2) h.2 hb
  have k := this [.clk, .clk, .rise, .pass 100, .timer, .clk] [.clk, .clk, .pass 3, .rise, .clk, .pass 100, .timer] pre (by decide) (by simpa using h) (by decide)
  cases mid with
  | nil => simp at k
  | cons x mid => simp at k; rw [← k.1]; simp

/-- Without a reset input. -/
example : rstSee { rstConf with hasSys := false } false [.clk, .pass 4, .clk, .pass 100, .timer, .pass 3] = some ((107, false), (true, false), (true, true)) ∧
    rstSee { rstConf with hasSys := false } false [.clk, .pass 4, .clk, .pass 100, .timer, .pass 3, .clk] = some ((107, false), (false, true), (true, true)) := by
  decide +kernel

/-- `C83_release` after a short pulse. -/
example : rstSee { rstConf with hasEn := true } true ([.setEn true, .clk, .fall, .clk, .rise] ++ ([.clk, .clk, .pass 100, .timer, .pass 1, .clk])) = some ((101, true), (false, true), (true, true)) := by
  decide +kernel

end Pcie
