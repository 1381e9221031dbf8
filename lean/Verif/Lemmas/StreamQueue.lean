import Verif.Spec.StreamQueue
/-
The queues of sources: invariants.
-/
namespace Pcie
namespace Sq
open Spec
variable {F C T B V : Type}

/-- What the handshakes have in common. -/
structure Law (W : Wires T B V) (valid asleep : B → Bool) (nz : T → Bool) : Prop where
  init : W.drive W.init = none ∧ W.todo W.init = [] ∧ valid W.init = false ∧ asleep W.init = false
  give : ∀ b b' t, W.step b (W.give t) = .ok b' → W.drive b' = W.drive b ∧ W.todo b' = W.todo b ++ [t] ∧ valid b' = valid b ∧ asleep b' = asleep b
  load : ∀ b b' t, W.step b W.load = .ok b' → W.todo b = [t] → W.drive b = none → W.drive b' = some t ∧ W.todo b' = [] ∧ valid b' = valid b ∧ asleep b' = false
  drove : ∀ b b' e, W.step b e = .ok b' → W.did b e = .drove →
    ∃ t, W.drive b = some t ∧ W.drive b' = none ∧ W.todo b' = W.todo b ∧ valid b' = nz t ∧ asleep b' = false
  stopped : ∀ b b' e, W.step b e = .ok b' → W.did b e = .stopped →
    W.edge e = true ∧ W.drive b' = W.drive b ∧ W.todo b' = W.todo b ∧ valid b' = false ∧ (asleep b' = true → W.drive b = none)
  kept : ∀ b b' e, W.outside e = true → W.step b e = .ok b' → W.did b e = .kept →
    W.drive b' = W.drive b ∧ W.todo b' = W.todo b ∧ valid b' = valid b ∧ asleep b' = asleep b ∧ (W.edge e = true → valid b = true ∨ asleep b = true)

theorem sink_same {latency : Nat} {q : Bool} {s s' b' : Hs.St T} (h : s.sink latency q s' = .ok b') :
    b'.drive = s'.drive ∧ b'.todo = s'.todo ∧ b'.valid = s'.valid := by
  simp only [Hs.St.sink] at h
  split at h
  · cases h; exact ⟨rfl, rfl, rfl⟩
  · split at h
    · cases h
    · cases h; exact ⟨rfl, rfl, rfl⟩

theorem hs_law (latency : Nat) (nz : T → Bool) : Law (hs latency nz) (·.valid) (fun _ => false) nz where
  init := ⟨rfl, rfl, rfl, rfl⟩
  give b b' t h := by cases h; exact ⟨rfl, rfl, rfl, rfl⟩
  load b b' t h h1 h2 := by
    obtain ⟨todo, drive, valid, bus, ready, sd, kd, got⟩ := b
    cases h
    simp only [hs] at h1 h2
    subst h1 h2
    exact ⟨rfl, rfl, rfl, rfl⟩
  drove b b' e h hd := by
    cases e with
    | give a => cases hd
    | load => cases hd
    | edge p q =>
      obtain ⟨e1, e2, e3⟩ := sink_same (show b.sink latency q (b.source latency nz p) = .ok b' from h)
      simp only [hs, hsDid] at hd ⊢
      rw [e1, e2, e3]
      simp only [Hs.St.source]
      split at hd
      · rename_i h1
        split at hd
        · rename_i h2
          simp only [Bool.and_eq_true] at h2
          obtain ⟨a, ha⟩ := Option.isSome_iff_exists.mp h2.1.1
          simp only [if_pos h1, ha, h2.1.2, Bool.true_and, if_pos h2.2]
          exact ⟨a, by simp⟩
        · cases hd
      · cases hd
  stopped b b' e h hd := by
    cases e with
    | give a => cases hd
    | load => cases hd
    | edge p q =>
      obtain ⟨e1, e2, e3⟩ := sink_same (show b.sink latency q (b.source latency nz p) = .ok b' from h)
      simp only [hs, hsDid] at hd ⊢
      rw [e1, e2, e3]
      simp only [Hs.St.source]
      split at hd
      · rename_i h1
        split at hd
        · cases hd
        · rename_i h2
          simp only [if_pos h1]
          cases ha : b.drive with
          | none => simp
          | some a =>
            rw [ha] at h2
            simp only [Option.isSome_some, Bool.true_and] at h2
            simp only [if_neg h2]
            simp [ha]
      · cases hd
  kept b b' e ho h hd := by
    cases e with
    | give a => cases ho
    | load => cases ho
    | edge p q =>
      obtain ⟨e1, e2, e3⟩ := sink_same (show b.sink latency q (b.source latency nz p) = .ok b' from h)
      simp only [hs, hsDid] at hd ⊢
      rw [e1, e2, e3]
      simp only [Hs.St.source]
      split at hd
      · split at hd <;> cases hd
      · rename_i h1
        have hv : b.valid = true := by cases hb : b.valid <;> simp_all
        simp only [if_neg h1]
        exact ⟨trivial, trivial, trivial, trivial, fun _ => .inl hv⟩

theorem wake_same (s : Axis.St T) : s.wake.drive = s.drive ∧ s.wake.todo = s.todo ∧ s.wake.valid = s.valid ∧ s.wake.srcAsleep = s.srcAsleep := by
  unfold Axis.St.wake; split <;> exact ⟨rfl, rfl, rfl, rfl⟩

theorem axis_sink_same (s s' : Axis.St T) : (s.sink s').drive = s'.drive ∧ (s.sink s').todo = s'.todo ∧ (s.sink s').valid = s'.valid ∧ (s.sink s').srcAsleep = s'.srcAsleep := by
  simp only [Axis.St.sink]
  split
  · exact ⟨rfl, rfl, rfl, rfl⟩
  · split <;> split <;> exact ⟨rfl, rfl, rfl, rfl⟩

theorem edge_same (s : Axis.St T) (p : Bool) : (s.step (.edge p)).drive = (s.source p).drive ∧ (s.step (.edge p)).todo = (s.source p).todo ∧
    (s.step (.edge p)).valid = (s.source p).valid ∧ (s.step (.edge p)).srcAsleep = (s.source p).srcAsleep := by
  simp only [Axis.St.step, Axis.St.monitor]
  split
  · obtain ⟨a1, a2, a3, a4⟩ := wake_same (s.sink (s.source p))
    obtain ⟨b1, b2, b3, b4⟩ := axis_sink_same s (s.source p)
    exact ⟨a1.trans b1, a2.trans b2, a3.trans b3, a4.trans b4⟩
  · exact axis_sink_same _ _

theorem axis_law : Law (axis (T := T)) (·.valid) (·.srcAsleep) (fun _ => true) where
  init := ⟨rfl, rfl, rfl, rfl⟩
  give b b' t h := by cases h; exact ⟨rfl, rfl, rfl, rfl⟩
  load b b' t h h1 h2 := by
    obtain ⟨todo, drive, valid, bus, ready, sa, ka, pause, ps, full, got⟩ := b
    cases h
    simp only [axis] at h1 h2
    subst h1 h2
    exact ⟨rfl, rfl, rfl, rfl⟩
  drove b b' e h hd := by
    cases h
    cases e with
    | edge p =>
      obtain ⟨e1, e2, e3, e4⟩ := edge_same b p
      simp only [axis, axisDid] at hd ⊢
      rw [e1, e2, e3, e4]
      simp only [Axis.St.source]
      split at hd
      · cases hd
      · rename_i h0
        split at hd
        · rename_i h1
          split at hd
          · rename_i h2
            simp only [Bool.and_eq_true] at h2
            obtain ⟨a, ha⟩ := Option.isSome_iff_exists.mp h2.1
            simp only [if_pos h1, ha, if_pos h2.2, if_neg h0]
            exact ⟨a, rfl, trivial, trivial, trivial, by simpa using h0⟩
          · cases hd
        · cases hd
    | _ => cases hd
  stopped b b' e h hd := by
    cases h
    cases e with
    | edge p =>
      obtain ⟨e1, e2, e3, e4⟩ := edge_same b p
      simp only [axis, axisDid] at hd ⊢
      rw [e1, e2, e3, e4]
      simp only [Axis.St.source]
      split at hd
      · cases hd
      · rename_i h0
        split at hd
        · rename_i h1
          split at hd
          · cases hd
          · rename_i h2
            simp only [if_pos h1, if_neg h0]
            cases ha : b.drive with
            | none => simp [ha]
            | some a =>
              rw [ha] at h2
              simp only [Option.isSome_some, Bool.true_and] at h2
              have h0' : b.srcAsleep = false := by simpa using h0
              simp only [if_neg h2]
              simp [ha, h0']
        · cases hd
    | _ => cases hd
  kept b b' e ho h hd := by
    cases h
    cases e with
    | give a => cases ho
    | load => cases ho
    | edge p =>
      obtain ⟨e1, e2, e3, e4⟩ := edge_same b p
      simp only [axis, axisDid] at hd ⊢
      rw [e1, e2, e3, e4]
      simp only [Axis.St.source]
      split at hd
      · rename_i h0
        simp only [if_pos h0]
        exact ⟨trivial, trivial, trivial, trivial, fun _ => .inr h0⟩
      · rename_i h0
        split at hd
        · split at hd <;> cases hd
        · rename_i h1
          have hv : b.valid = true := by cases hb : b.valid <;> simp_all
          simp only [if_neg h0, if_neg h1]
          exact ⟨trivial, trivial, trivial, trivial, fun _ => .inl hv⟩
    | setPause v =>
      simp only [axis, Axis.St.step]
      split
      · obtain ⟨a1, a2, a3, a4⟩ := wake_same { b with pause := v }
        exact ⟨a1, a2, a3, a4, by simp⟩
      · exact ⟨rfl, rfl, rfl, rfl, by simp⟩
    | queued f => exact ⟨rfl, rfl, rfl, rfl, by simp [axis]⟩
    | recv f =>
      simp only [axis, Axis.St.step]
      obtain ⟨a1, a2, a3, a4⟩ := wake_same { b with full := b.full && f }
      exact ⟨a1, a2, a3, a4, by simp⟩


/-- A packer takes frames from the front of the queue. -/
def Packer.Front (P : Packer F C T) : Prop := ∀ c q c' q' t, P.beat c q = .ok (c', q', t) → ∃ l, q = l ++ q'

section
variable {P : Packer F C T} {W : Wires T B V} {l : Limits}

theorem run_append : ∀ (e1 e2 : List (SrcEv F V)) (s s1 : Src F C T B V), s.run P W l e1 = some (.ok s1) → s.run P W l (e1 ++ e2) = s1.run P W l e2
  | [], e2, s, s1, h => by cases h; rfl
  | e :: e1, e2, s, s1, h => by
    simp only [Src.run, List.cons_append] at h ⊢
    split at h
    · cases h
    · cases h
    · rename_i s' hs
      exact run_append e1 e2 s' s1 h

/-- An invariant of every step holds after every history. -/
theorem run_ind {I : Src F C T B V → Prop} : ∀ (es : List (SrcEv F V)) (s s' : Src F C T B V), I s →
    (∀ e ∈ es, ∀ s s', I s → s.step P W l e = some (.ok s') → I s') → s.run P W l es = some (.ok s') → I s'
  | [], s, s', h, _, hr => by cases hr; exact h
  | e :: es, s, s', h, hs, hr => by
    simp only [Src.run] at hr
    split at hr
    · cases hr
    · cases hr
    · rename_i s1 h1
      exact run_ind es s1 s' (hs e (by simp) s s1 h h1) (fun e he => hs e (by simp [he])) hr

/-- The two kinds of steps that `_run` makes. -/
theorem work_cases {s s' : Src F C T B V} (h : s.work P W = some (.ok s')) :
    (∃ t r b, W.todo s.wires = t :: r ∧ W.drive s.wires = none ∧ W.step s.wires W.load = .ok b ∧ s' = { s with wires := b, ran := s.ran ++ [W.load] }) ∨
    (∃ c q t b, W.todo s.wires = [] ∧ (s.cur ≠ none ∨ s.queue ≠ []) ∧ P.beat s.cur s.queue = .ok (c, q, t) ∧ W.step s.wires (W.give t) = .ok b ∧
      s' = { s.took P (s.queue.take (s.queue.length - q.length)) q with cur := c, wires := b, log := s.log ++ [none], given := s.given ++ [t], ran := s.ran ++ [W.give t] }) := by
  simp only [Src.work] at h
  split at h
  · rename_i hc
    split at h
    · rename_i t r ht
      simp only [Src.canWork, ht] at hc
      split at h
      · cases h
      · rename_i b hb
        cases h
        exact .inl ⟨t, r, b, ht, by simpa using hc, hb, rfl⟩
    · rename_i ht
      simp only [Src.canWork, ht] at hc
      split at h
      · cases h
      · rename_i c q t hb
        split at h
        · cases h
        · rename_i b hg
          cases h
          refine .inr ⟨c, q, t, b, ht, ?_, hb, hg, rfl⟩
          rcases Bool.or_eq_true_iff.mp hc with hc | hc
          · left; intro hn; rw [hn] at hc; cases hc
          · right; intro hn; rw [hn] at hc; cases hc
  · cases h

/-- Everything that `idle_event` stands for. -/
structure Done (W : Wires T B V) (valid : B → Bool) (s : Src F C T B V) : Prop where
  queue : s.queue = []
  cur : s.cur = none
  todo : W.todo s.wires = []
  drive : W.drive s.wires = none
  valid : valid s.wires = false

/-- The invariant for `wait` and `idle`. -/
structure WInv (W : Wires T B V) (valid asleep : B → Bool) (s : Src F C T B V) : Prop where
  one : (W.todo s.wires).length ≤ 1
  idle : s.idleEvent = true → Done W valid s
  act : valid s.wires = true → s.active = true
  sleep : asleep s.wires = true → W.drive s.wires = none ∧ (s.idleEvent = true ∨ s.queue ≠ [] ∨ s.cur ≠ none ∨ W.todo s.wires ≠ [])

variable {valid asleep : B → Bool} {nz : T → Bool}

theorem winv_fresh (L : Law W valid asleep nz) : WInv W valid asleep (fresh W : Src F C T B V) := by
  obtain ⟨h1, h2, h3, h4⟩ := L.init
  refine ⟨by simp [fresh, h2], fun _ => ⟨rfl, rfl, h2, h1, h3⟩, fun h => ?_, fun h => ?_⟩
  · rw [show (fresh W : Src F C T B V).wires = W.init from rfl, h3] at h; cases h
  · rw [show (fresh W : Src F C T B V).wires = W.init from rfl, h4] at h; cases h

theorem winv_put {s : Src F C T B V} (f : F) (h : WInv W valid asleep s) : WInv W valid asleep (s.put P f) :=
  ⟨h.one, fun x => (by cases x), h.act, fun x => ⟨(h.sleep x).1, .inr (.inl (by simp [Src.put]))⟩⟩

theorem winv_congr {s s' : Src F C T B V} (h : WInv W valid asleep s) (h1 : s'.queue = s.queue) (h2 : s'.cur = s.cur) (h3 : s'.wires = s.wires)
    (h4 : s'.idleEvent = s.idleEvent) (h5 : s'.active = s.active) : WInv W valid asleep s' := by
  refine ⟨by rw [h3]; exact h.one, fun x => ?_, fun x => ?_, fun x => ?_⟩
  · have := h.idle (h4 ▸ x)
    exact ⟨h1 ▸ this.queue, h2 ▸ this.cur, h3 ▸ this.todo, h3 ▸ this.drive, h3 ▸ this.valid⟩
  · rw [h5]; rw [h3] at x; exact h.act x
  · rw [h3] at x ⊢; rw [h1, h2, h4]; exact h.sleep x

/-- One event, if a clock edge finds the tasks waiting. -/
theorem winv_step (L : Law W valid asleep nz) {s s' : Src F C T B V} {e : SrcEv F V} (h : WInv W valid asleep s) (hc : e ≠ .clear)
    (hq : ∀ v, e = .bus v → W.edge v = true → s.canWork W = false) (hs : s.step P W l e = some (.ok s')) : WInv W valid asleep s' := by
  cases e with
  | send f =>
    simp only [Src.step] at hs
    split at hs <;> cases hs
    · exact winv_congr h rfl rfl rfl rfl rfl
    · exact winv_put f h
  | sendNowait f =>
    simp only [Src.step] at hs
    split at hs <;> cases hs
    · exact h
    · exact winv_put f h
  | retry i =>
    simp only [Src.step] at hs
    split at hs
    · split at hs <;> cases hs
      · exact winv_congr h rfl rfl rfl rfl rfl
      · exact winv_put _ (winv_congr h rfl rfl rfl rfl rfl)
    · cases hs
  | clear => exact absurd rfl hc
  | work =>
    rcases work_cases (show s.work P W = some (.ok s') from hs) with ⟨t, r, b, h1, h2, h3, rfl⟩ | ⟨c, q, t, b, h1, h2, h3, h4, rfl⟩
    · have hr : r = [] := by
        have := h.one
        rw [h1] at this
        simp only [List.length_cons] at this
        exact List.eq_nil_of_length_eq_zero (by omega)
      subst hr
      obtain ⟨k1, k2, k3, k4⟩ := L.load _ _ t h3 h1 h2
      refine ⟨by simp [k2], fun x => ?_, fun x => h.act (k3 ▸ x), fun x => ?_⟩
      · have := (h.idle x).todo; rw [h1] at this; cases this
      · simp only [k4] at x; cases x
    · obtain ⟨k1, k2, k3, k4⟩ := L.give _ _ t h4
      refine ⟨by simp [k2, h1], fun x => ?_, fun x => h.act (k3 ▸ x), fun x => ?_⟩
      · have hi := h.idle (show s.idleEvent = true from x)
        rcases h2 with h2 | h2
        · exact absurd hi.cur h2
        · exact absurd hi.queue h2
      · refine ⟨?_, .inr (.inr (.inr (by simp [k2])))⟩
        have := (h.sleep (k4 ▸ x)).1
        exact k1.trans this
  | bus v =>
    simp only [Src.step] at hs
    split at hs
    · rename_i ho
      split at hs
      · cases hs
      · rename_i b hb
        split at hs <;> cases hs
        · rename_i hd
          obtain ⟨t, k1, k2, k3, k4, k5⟩ := L.drove _ _ _ hb hd
          refine ⟨by simpa [k3] using h.one, fun x => ?_, fun _ => rfl, fun x => ?_⟩
          · have := (h.idle x).drive; rw [k1] at this; cases this
          · simp only [k5] at x; cases x
        · rename_i hd
          obtain ⟨k0, k1, k2, k3, k4⟩ := L.stopped _ _ _ hb hd
          have hw := hq v rfl k0
          refine ⟨by simpa [k2] using h.one, fun x => ?_, fun x => ?_, fun x => ?_⟩
          · have hn : W.drive s.wires = none := by
              cases hdr : W.drive s.wires with
              | none => rfl
              | some t =>
                simp only [hdr, Option.isSome_some, if_pos] at x
                have := (h.idle x).drive; rw [hdr] at this; cases this
            have ht : W.todo s.wires = [] := by
              cases htd : W.todo s.wires with
              | nil => rfl
              | cons t r => simp [Src.canWork, htd, hn] at hw
            simp only [Src.canWork, ht, Bool.or_eq_false_iff] at hw
            refine ⟨?_, ?_, k2.trans ht, k1.trans hn, k3⟩
            · simpa using hw.2
            · simpa using hw.1
          · simp only [k3] at x; cases x
          · have := k4 x
            exact ⟨k1.trans this, .inl (by simp [this])⟩
        · rename_i hd
          obtain ⟨k1, k2, k3, k4, -⟩ := L.kept _ _ _ ho hb hd
          refine ⟨by simpa [k2] using h.one, fun x => ?_, fun x => h.act (k3 ▸ x), fun x => ?_⟩
          · have hi := h.idle x
            exact ⟨hi.queue, hi.cur, k2.trans hi.todo, k1.trans hi.drive, k3.trans hi.valid⟩
          · have := h.sleep (k4 ▸ x)
            refine ⟨k1.trans this.1, ?_⟩
            simp only [k2]
            exact this.2
    · cases hs

theorem winv_run (L : Law W valid asleep nz) : ∀ (es : List (SrcEv F V)), .clear ∉ es → Settled P W l es → ∀ s, (fresh W).run P W l es = some (.ok s) →
    WInv W valid asleep s := by
  suffices H : ∀ (post pre : List (SrcEv F V)), .clear ∉ pre ++ post → Settled P W l (pre ++ post) → ∀ s1 s, (fresh W).run P W l pre = some (.ok s1) →
      WInv W valid asleep s1 → s1.run P W l post = some (.ok s) → WInv W valid asleep s by
    intro es hc hq s hr
    exact H es [] (by simpa using hc) (by simpa using hq) (fresh W) s rfl (winv_fresh L) hr
  intro post
  induction post with
  | nil => intro pre _ _ s1 s _ h hr; cases hr; exact h
  | cons e post ih =>
    intro pre hc hq s1 s h1 h hr
    simp only [Src.run] at hr
    split at hr
    · cases hr
    · cases hr
    · rename_i s2 h2
      have hstep := winv_step L h (e := e) (fun x => hc (by simp [x])) (fun v hv he => hq pre v post (by rw [hv]) he s1 h1) h2
      refine ih (pre ++ [e]) (by simpa using hc) (by simpa using hq) s2 s ?_ hstep hr
      rw [run_append pre [e] (fresh W) s1 h1]
      simp only [Src.run, h2]

end
end Sq
end Pcie
