import Verif.Lemmas.StreamQueueRun
/-
The queues of sources: the three interfaces.
-/
namespace Pcie
namespace Sq
open Spec

theorem s10_segs (b : S10.Bus) : ∀ (segs : List Nat) (t t' : S10.Txn) (c c' : Option S10.Cur) (q q' : List S10Frame),
    S10.putSegs b segs t c q = .ok (t', c', q') → ∃ m, q = m ++ q'
  | [], t, t', c, c', q, q', h => by cases h; exact ⟨[], rfl⟩
  | seg :: segs, t, t', some c, c', q, q', h => by
    simp only [S10.putSegs] at h
    split at h
    · cases h
    · exact s10_segs b segs _ _ _ _ _ _ h
  | _ :: _, t, t', none, c', [], q', h => by cases h; exact ⟨[], rfl⟩
  | seg :: segs, t, t', none, c', f :: q, q', h => by
    simp only [S10.putSegs] at h
    split at h
    · cases h
    · obtain ⟨m, hm⟩ := s10_segs b segs _ _ _ _ _ _ h
      exact ⟨f :: m, by rw [hm]; rfl⟩

theorem ptile_segs (b : PTile.Bus) : ∀ (segs : List Nat) (t t' : PTile.Txn) (c c' : Option PTile.Cur) (q q' : List PTileFrame),
    PTile.putSegs b segs t c q = .ok (t', c', q') → ∃ m, q = m ++ q'
  | [], t, t', c, c', q, q', h => by cases h; exact ⟨[], rfl⟩
  | seg :: segs, t, t', some c, c', q, q', h => by
    simp only [PTile.putSegs] at h
    split at h
    · cases h
    · exact ptile_segs b segs _ _ _ _ _ _ h
  | _ :: _, t, t', none, c', [], q', h => by cases h; exact ⟨[], rfl⟩
  | seg :: segs, t, t', none, c', f :: q, q', h => by
    simp only [PTile.putSegs] at h
    split at h
    · cases h
    · obtain ⟨m, hm⟩ := ptile_segs b segs _ _ _ _ _ _ h
      exact ⟨f :: m, by rw [hm]; rfl⟩

theorem us_segs (b : Us.Bus) : ∀ (segs : List Nat) (t t' : Us.Acc) (c c' : Option Us.Cur) (q q' : List UsFrame),
    Us.putSegs b segs t c q = .ok (t', c', q') → ∃ m, q = m ++ q'
  | [], t, t', c, c', q, q', h => by cases h; exact ⟨[], rfl⟩
  | seg :: segs, t, t', some c, c', q, q', h => by
    simp only [Us.putSegs] at h
    split at h
    · cases h
    · exact us_segs b segs _ _ _ _ _ _ h
  | _ :: _, t, t', none, c', [], q', h => by cases h; exact ⟨[], rfl⟩
  | seg :: segs, t, t', none, c', f :: q, q', h => by
    simp only [Us.putSegs] at h
    split at h
    · cases h
    · obtain ⟨m, hm⟩ := us_segs b segs _ _ _ _ _ _ h
      exact ⟨f :: m, by rw [hm]; rfl⟩

theorem s10_front (b : S10.Bus) : (s10 b).Front := by
  intro c q c' q' t h
  simp only [s10] at h
  split at h
  · cases h
  · rename_i h1
    split at h
    · cases h
    · cases h; exact s10_segs _ _ _ _ _ _ _ _ h1

theorem ptile_front (b : PTile.Bus) : (ptile b).Front := by
  intro c q c' q' t h
  simp only [ptile] at h
  split at h
  · cases h
  · rename_i h1
    split at h
    · cases h
    · cases h; exact ptile_segs _ _ _ _ _ _ _ _ h1

theorem us_front (b : Us.Bus) : (us b).Front := by
  intro c q c' q' t h
  simp only [us] at h
  split at h
  · cases h
  · rename_i h1
    split at h
    · cases h
    · cases h; exact us_segs _ _ _ _ _ _ _ _ h1

/-- The history of the queue as a history of Model/S10Stream.lean. -/
def s10Evs (l : List (Option S10Frame)) : List S10.Ev := l.map fun | some f => .send f | none => .beat
def ptileEvs (l : List (Option PTileFrame)) : List PTile.Ev := l.map fun | some f => .send f | none => .beat
def usEvs (l : List (Option UsFrame)) : List Us.Ev := l.map fun | some f => .send f | none => .beat

theorem s10_run (b : S10.Bus) : ∀ (l : List (Option S10Frame)) (c c' : Option S10.Cur) (q q' : List S10Frame) (ts : List S10.Txn),
    grun (s10 b) c q l = .ok (c', q', ts) → S10.Src.run b ⟨q, c⟩ (s10Evs l) = .ok (⟨q', c'⟩, ts)
  | [], c, c', q, q', ts, h => by cases h; rfl
  | some f :: l, c, c', q, q', ts, h => by
    simp only [grun] at h
    have k := s10_run b l _ _ _ _ _ h
    simp only [s10Evs] at k
    simp [s10Evs, S10.Src.run, S10.Src.step, k]
  | none :: l, c, c', q, q', ts, h => by
    simp only [grun] at h
    split at h
    · rename_i hc
      have k := s10_run b l _ _ _ _ _ h
      simp only [s10Evs] at k
      obtain ⟨rfl, rfl⟩ : c = none ∧ q = [] := by simpa using hc
      simp [s10Evs, S10.Src.run, S10.Src.step, k]
    · rename_i hc
      have hc' : ¬ (c = none ∧ q = []) := by simpa using hc
      split at h
      · cases h
      · rename_i c1 q1 t h1
        split at h
        · cases h
        · rename_i h2
          cases h
          have k := s10_run b l _ _ _ _ _ h2
          simp only [s10Evs] at k
          simp only [s10] at h1
          split at h1
          · cases h1
          · rename_i h3
            split at h1
            · cases h1
            · rename_i h4
              cases h1
              simp only [s10Evs, List.map_cons, S10.Src.run, S10.Src.step, if_neg hc', h3, h4, k]
              rfl

theorem ptile_run (b : PTile.Bus) : ∀ (l : List (Option PTileFrame)) (c c' : Option PTile.Cur) (q q' : List PTileFrame) (ts : List PTile.Txn),
    grun (ptile b) c q l = .ok (c', q', ts) → PTile.Src.run b ⟨q, c⟩ (ptileEvs l) = .ok (⟨q', c'⟩, ts)
  | [], c, c', q, q', ts, h => by cases h; rfl
  | some f :: l, c, c', q, q', ts, h => by
    simp only [grun] at h
    have k := ptile_run b l _ _ _ _ _ h
    simp only [ptileEvs] at k
    simp [ptileEvs, PTile.Src.run, PTile.Src.step, k]
  | none :: l, c, c', q, q', ts, h => by
    simp only [grun] at h
    split at h
    · rename_i hc
      have k := ptile_run b l _ _ _ _ _ h
      simp only [ptileEvs] at k
      obtain ⟨rfl, rfl⟩ : c = none ∧ q = [] := by simpa using hc
      simp [ptileEvs, PTile.Src.run, PTile.Src.step, k]
    · rename_i hc
      have hc' : ¬ (c = none ∧ q = []) := by simpa using hc
      split at h
      · cases h
      · rename_i c1 q1 t h1
        split at h
        · cases h
        · rename_i h2
          cases h
          have k := ptile_run b l _ _ _ _ _ h2
          simp only [ptileEvs] at k
          simp only [ptile] at h1
          split at h1
          · cases h1
          · rename_i h3
            split at h1
            · cases h1
            · rename_i h4
              cases h1
              simp only [ptileEvs, List.map_cons, PTile.Src.run, PTile.Src.step, if_neg hc', h3, h4, k]
              rfl

theorem us_run (b : Us.Bus) : ∀ (l : List (Option UsFrame)) (c c' : Option Us.Cur) (q q' : List UsFrame) (ts : List Us.Txn),
    grun (us b) c q l = .ok (c', q', ts) → Us.Src.run b ⟨q, c⟩ (usEvs l) = .ok (⟨q', c'⟩, ts)
  | [], c, c', q, q', ts, h => by cases h; rfl
  | some f :: l, c, c', q, q', ts, h => by
    simp only [grun] at h
    have k := us_run b l _ _ _ _ _ h
    simp only [usEvs] at k
    simp [usEvs, Us.Src.run, Us.Src.step, k]
  | none :: l, c, c', q, q', ts, h => by
    simp only [grun] at h
    split at h
    · rename_i hc
      have k := us_run b l _ _ _ _ _ h
      simp only [usEvs] at k
      obtain ⟨rfl, rfl⟩ : c = none ∧ q = [] := by simpa using hc
      simp [usEvs, Us.Src.run, Us.Src.step, k]
    · rename_i hc
      have hc' : ¬ (c = none ∧ q = []) := by simpa using hc
      split at h
      · cases h
      · rename_i c1 q1 t h1
        split at h
        · cases h
        · rename_i h2
          cases h
          have k := us_run b l _ _ _ _ _ h2
          simp only [usEvs] at k
          simp only [us] at h1
          split at h1
          · cases h1
          · rename_i h3
            split at h1
            · cases h1
            · rename_i h4
              cases h1
              simp only [usEvs, List.map_cons, Us.Src.run, Us.Src.step, if_neg hc', h3, h4, k]
              rfl

theorem s10_sent : ∀ l : List (Option S10Frame), s10Sent (s10Evs l) = l.filterMap id
  | [] => rfl
  | none :: l => by have := s10_sent l; simp only [s10Sent, s10Evs] at this ⊢; simpa using this
  | some f :: l => by have := s10_sent l; simp only [s10Sent, s10Evs] at this ⊢; simpa using this

theorem ptile_sent : ∀ l : List (Option PTileFrame), ptSent (ptileEvs l) = l.filterMap id
  | [] => rfl
  | none :: l => by have := ptile_sent l; simp only [ptSent, ptileEvs] at this ⊢; simpa using this
  | some f :: l => by have := ptile_sent l; simp only [ptSent, ptileEvs] at this ⊢; simpa using this

theorem us_sent : ∀ l : List (Option UsFrame), usSent (usEvs l) = l.filterMap id
  | [] => rfl
  | none :: l => by have := us_sent l; simp only [usSent, usEvs] at this ⊢; simpa using this
  | some f :: l => by have := us_sent l; simp only [usSent, usEvs] at this ⊢; simpa using this

variable {F C T : Type} {P : Packer F C T} {l : Limits}

theorem wrun_hs {latency : Nat} {nz : T → Bool} : ∀ (es : List (Hs.Ev T)) (b : Hs.St T), wrun (hs latency nz) b es = Hs.St.run latency nz b es
  | [], b => rfl
  | e :: es, b => by
    simp only [wrun, Hs.St.run]
    rw [show (hs latency nz).step b e = b.step latency nz e from rfl]
    cases b.step latency nz e with
    | error x => rfl
    | ok b' => exact wrun_hs es b'

theorem wrun_axis : ∀ (es : List (Axis.Ev T)) (b : Axis.St T), wrun (axis (T := T)) b es = .ok (b.run es)
  | [], b => rfl
  | e :: es, b => by
    simp only [wrun]
    exact wrun_axis es _

theorem hs_rec {latency : Nat} {nz : T → Bool} {es : List (SrcEv F (Hs.Ev T))} {s : Src F C T (Hs.St T) (Hs.Ev T)} (hc : .clear ∉ es)
    (hr : (fresh (hs latency nz)).run P (hs latency nz) l es = some (.ok s)) :
    Hs.St.run latency nz {} s.ran = .ok s.wires ∧ hsGiven s.ran = s.given ∧ grun P none [] s.log = .ok (s.cur, s.queue, s.given) := by
  have h : Rec P (hs latency nz) (fun | .give a => some a | _ => none) s := by
    refine rec_run (fun _ => rfl) rfl ?_ hc hr
    intro e he
    cases e with
    | give a => cases he
    | _ => rfl
  exact ⟨by rw [← wrun_hs]; exact h.wires, h.given, h.frames⟩

theorem axis_rec {es : List (SrcEv F (Axis.Ev T))} {s : Src F C T (Axis.St T) (Axis.Ev T)} (hc : .clear ∉ es)
    (hr : (fresh axis).run P axis l es = some (.ok s)) :
    Axis.St.run {} s.ran = s.wires ∧ axisGiven s.ran = s.given ∧ grun P none [] s.log = .ok (s.cur, s.queue, s.given) := by
  have h : Rec P axis (fun | .give a => some a | _ => none) s := by
    refine rec_run (fun _ => rfl) rfl ?_ hc hr
    intro e he
    cases e with
    | give a => cases he
    | _ => rfl
  have := h.wires
  rw [wrun_axis] at this
  exact ⟨Except.ok.inj this, h.given, h.frames⟩

theorem run_snoc {B V : Type} {W : Wires T B V} : ∀ (es : List (SrcEv F V)) (e : SrcEv F V) (s s' : Src F C T B V), s.run P W l (es ++ [e]) = some (.ok s') →
    ∃ s0, s.run P W l es = some (.ok s0) ∧ s0.step P W l e = some (.ok s')
  | [], e, s, s', h => by
    simp only [List.nil_append, Src.run] at h
    split at h
    · cases h
    · cases h
    · rename_i h1; cases h; exact ⟨s, rfl, h1⟩
  | x :: es, e, s, s', h => by
    simp only [List.cons_append, Src.run] at h ⊢
    split at h
    · cases h
    · cases h
    · exact run_snoc es e _ s' h

theorem settled_init {B V : Type} {W : Wires T B V} {es : List (SrcEv F V)} {e : SrcEv F V} (h : Settled P W l (es ++ [e])) : Settled P W l es := by
  intro pre v post hes hv s hs
  exact h pre v (post ++ [e]) (by rw [hes]; simp) hv s hs

theorem clear_stuck {B V : Type} {W : Wires T B V} {valid asleep : B → Bool} {nz : T → Bool} (L : Law W valid asleep nz) (f : F) :
    ∃ s, (fresh W : Src F C T B V).run P W { frames := 1 } [.send f, .send f, .clear] = some (.ok s) ∧ s.queue = [] ∧
      ∀ es s', s.run P W { frames := 1 } es = some (.ok s') → s'.full { frames := 1 } = true ∧ accepted s' = [f, f] := by
  refine ⟨{ wires := W.init, queue := [], frames := 2, bytes := (P.size f : Int) + P.size f, log := [some f, some f] }, ?_, rfl, ?_⟩
  · simp [fresh, Src.run, Src.step, Src.full, Limits.full, Src.put]
  · intro es s' hr
    have key : ∀ (es : List (SrcEv F V)) (s s' : Src F C T B V), s.frames = 2 → s.queue = [] → s.cur = none → W.todo s.wires = [] → accepted s = [f, f] →
        s.run P W { frames := 1 } es = some (.ok s') → s'.frames = 2 ∧ accepted s' = [f, f] := by
      intro es
      induction es with
      | nil => intro s s' h1 _ _ _ h5 hr; cases hr; exact ⟨h1, h5⟩
      | cons e es ih =>
        intro s s' h1 h2 h3 h4 h5 hr
        have hfull : s.full { frames := 1 } = true := by simp [Src.full, Limits.full, h1]
        simp only [Src.run] at hr
        cases e with
        | send g =>
          simp only [Src.step, hfull, if_true] at hr
          exact ih { s with waiting := s.waiting ++ [(g, false)] } _ h1 h2 h3 h4 h5 hr
        | sendNowait g =>
          simp only [Src.step, hfull, if_true] at hr
          exact ih _ _ h1 h2 h3 h4 h5 hr
        | retry i =>
          simp only [Src.step] at hr
          split at hr
          · cases hr
          · cases hr
          · rename_i h6
            split at h6
            · simp only [hfull, if_true] at h6
              rename_i g _
              cases h6
              exact ih { s with waiting := s.waiting.set i (g, false) } _ h1 h2 h3 h4 h5 hr
            · cases h6
        | clear =>
          simp only [Src.step] at hr
          exact ih { s with queue := [], idleEvent := true } _ h1 rfl h3 h4 h5 hr
        | work => simp [Src.step, Src.work, Src.canWork, h4, h3, h2] at hr
        | bus v =>
          simp only [Src.step] at hr
          split at hr
          · cases hr
          · cases hr
          · rename_i h6
            split at h6
            · rename_i ho
              split at h6
              · cases h6
              · rename_i b hb
                split at h6
                · rename_i hd
                  obtain ⟨_, _, _, k, _⟩ := L.drove _ _ _ hb hd
                  cases h6
                  exact ih _ _ (by exact h1) (by exact h2) (by exact h3) (by exact k.trans h4) (by exact h5) hr
                · rename_i hd
                  obtain ⟨_, _, k, _⟩ := L.stopped _ _ _ hb hd
                  cases h6
                  exact ih _ _ (by exact h1) (by exact h2) (by exact h3) (by exact k.trans h4) (by exact h5) hr
                · rename_i hd
                  obtain ⟨_, k, _⟩ := L.kept _ _ _ ho hb hd
                  cases h6
                  exact ih _ _ (by exact h1) (by exact h2) (by exact h3) (by exact k.trans h4) (by exact h5) hr
            · cases h6
    obtain ⟨k1, k2⟩ := key es _ s' rfl rfl rfl L.init.2.1 rfl hr
    exact ⟨by simp [Src.full, Limits.full, k1], k2⟩

/-- The queue of a sink, without `clear`. -/
structure SnkInv (size : F → Nat) (s : Snk F) : Prop where
  order : s.got ++ s.queue = s.came
  event : s.activeEvent = !s.queue.isEmpty
  frames : s.frames = s.queue.length
  bytes : s.bytes = bytesIn size s.queue

theorem snk_run {size : F → Nat} : ∀ (es : List (SnkEv F)) (s s' : Snk F), SnkInv size s → .clear ∉ es → Snk.run size s es = some s' → SnkInv size s'
  | [], s, s', h, _, hr => by cases hr; exact h
  | e :: es, s, s', h, hc, hr => by
    simp only [Snk.run] at hr
    split at hr
    · cases hr
    · rename_i s1 h1
      refine snk_run es s1 s' ?_ (fun x => hc (List.mem_cons_of_mem _ x)) hr
      obtain ⟨a1, a2, a3, a4⟩ := h
      cases e with
      | frame f =>
        cases h1
        exact ⟨by simp [← a1], by simp, by simp [a3], by simp [a4, bytesIn]⟩
      | recv =>
        simp only [Snk.step] at h1
        split at h1
        · cases h1
        · rename_i f q hq
          cases h1
          rw [hq] at a1 a2 a3 a4
          refine ⟨by simp [← a1], ?_, by simp [a3], by simp [a4, bytesIn]; omega⟩
          cases q <;> simp [a2]
      | clear => exact absurd (by simp) hc

theorem snk_active {size : F → Nat} : ∀ (es : List (SnkEv F)) (s s' : Snk F), s.activeEvent = !s.queue.isEmpty → Snk.run size s es = some s' →
    s'.activeEvent = !s'.queue.isEmpty
  | [], s, s', h, hr => by cases hr; exact h
  | e :: es, s, s', h, hr => by
    simp only [Snk.run] at hr
    split at hr
    · cases hr
    · rename_i s1 h1
      refine snk_active es s1 s' ?_ hr
      cases e with
      | frame f => cases h1; simp
      | recv =>
        simp only [Snk.step] at h1
        split at h1
        · cases h1
        · rename_i f q hq
          cases h1
          rw [hq] at h
          cases q <;> simp [h]
      | clear => cases h1; rfl

end Sq
end Pcie
