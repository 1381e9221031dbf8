import Verif.Lemmas.StreamQueue
/-
The queues of sources: counters, waiting tasks, and what has happened.
-/
namespace Pcie
namespace Sq
open Spec
variable {F C T B V : Type}
variable {P : Packer F C T} {W : Wires T B V} {l : Limits}

theorem front_take {q q' m : List F} (h : q = m ++ q') : q.take (q.length - q'.length) = m := by
  subst h; simp

/-- The frames and bytes in the queue are counted. -/
structure Counted (P : Packer F C T) (s : Src F C T B V) : Prop where
  frames : s.frames = s.queue.length
  bytes : s.bytes = bytesIn P.size s.queue

theorem counted_put {s : Src F C T B V} (f : F) (h : Counted P s) : Counted P (s.put P f) := by
  obtain ⟨h1, h2⟩ := h
  refine ⟨?_, ?_⟩
  · simp [Src.put, h1]
  · simp [Src.put, h2, bytesIn]

theorem counted_step (hP : P.Front) {s s' : Src F C T B V} {e : SrcEv F V} (h : Counted P s) (hc : e ≠ .clear) (hs : s.step P W l e = some (.ok s')) :
    Counted P s' := by
  cases e with
  | send f =>
    simp only [Src.step] at hs
    split at hs <;> cases hs
    · exact ⟨h.frames, h.bytes⟩
    · exact counted_put f h
  | sendNowait f =>
    simp only [Src.step] at hs
    split at hs <;> cases hs
    · exact h
    · exact counted_put f h
  | retry i =>
    simp only [Src.step] at hs
    split at hs
    · split at hs <;> cases hs
      · exact ⟨h.frames, h.bytes⟩
      · exact counted_put _ ⟨h.frames, h.bytes⟩
    · cases hs
  | clear => exact absurd rfl hc
  | work =>
    rcases work_cases (show s.work P W = some (.ok s') from hs) with ⟨t, r, b, h1, h2, h3, rfl⟩ | ⟨c, q, t, b, h1, h2, h3, h4, rfl⟩
    · exact ⟨h.frames, h.bytes⟩
    · obtain ⟨m, hm⟩ := hP _ _ _ _ _ h3
      rw [front_take hm]
      refine ⟨?_, ?_⟩
      · have := h.frames
        simp only [Src.took, this, hm, List.length_append]
        omega
      · have := h.bytes
        simp only [Src.took, this, hm, bytesIn, List.map_append, List.sum_append]
        omega
  | bus v =>
    simp only [Src.step] at hs
    split at hs
    · split at hs
      · cases hs
      · split at hs <;> cases hs <;> exact ⟨h.frames, h.bytes⟩
    · cases hs

/-- What the limits guarantee, also after `clear`. -/
structure Limited (P : Packer F C T) (l : Limits) (s : Src F C T B V) : Prop where
  frames : (s.queue.length : Int) ≤ s.frames
  bytes : (bytesIn P.size s.queue : Int) ≤ s.bytes
  limF : 0 < l.frames → s.frames ≤ l.frames + 1
  limB : 0 < l.bytes → ∀ q f, s.queue = q ++ [f] → (bytesIn P.size q : Int) ≤ l.bytes

theorem limited_put {s : Src F C T B V} (f : F) (h : Limited P l s) (hf : s.full l = false) : Limited P l (s.put P f) := by
  obtain ⟨h1, h2, h3, h4⟩ := h
  simp only [Src.full, Limits.full] at hf
  split at hf
  · cases hf
  · rename_i n1
    split at hf
    · cases hf
    · rename_i n2
      refine ⟨?_, ?_, ?_, ?_⟩
      · simp [Src.put]; omega
      · simp [Src.put, bytesIn] at h2 ⊢; omega
      · intro hl; simp only [Src.put]; omega
      · intro hl q g hq
        simp only [Src.put] at hq
        have := (List.append_inj' hq rfl).1
        rw [← this]
        omega

theorem limited_congr {s s' : Src F C T B V} (h : Limited P l s) (h1 : s'.queue = s.queue) (h2 : s'.frames = s.frames) (h3 : s'.bytes = s.bytes) : Limited P l s' :=
  ⟨by rw [h1, h2]; exact h.frames, by rw [h1, h3]; exact h.bytes, by rw [h2]; exact h.limF, by rw [h1]; exact h.limB⟩

theorem limited_step (hP : P.Front) {s s' : Src F C T B V} {e : SrcEv F V} (h : Limited P l s) (hs : s.step P W l e = some (.ok s')) : Limited P l s' := by
  cases e with
  | send f =>
    simp only [Src.step] at hs
    split at hs <;> cases hs
    · exact limited_congr h rfl rfl rfl
    · rename_i hf; exact limited_put f h (by simpa using hf)
  | sendNowait f =>
    simp only [Src.step] at hs
    split at hs <;> cases hs
    · exact h
    · rename_i hf; exact limited_put f h (by simpa using hf)
  | retry i =>
    simp only [Src.step] at hs
    split at hs
    · split at hs <;> cases hs
      · exact limited_congr h rfl rfl rfl
      · rename_i hf
        exact limited_put _ (limited_congr h rfl rfl rfl) (by simpa [Src.full] using hf)
    · cases hs
  | clear =>
    cases hs
    obtain ⟨h1, h2, h3, h4⟩ := h
    refine ⟨?_, ?_, h3, ?_⟩
    · simp only [List.length_nil]; omega
    · simp [bytesIn]; omega
    · intro _ q f hq; simp at hq
  | work =>
    rcases work_cases (show s.work P W = some (.ok s') from hs) with ⟨t, r, b, h1, h2, h3, rfl⟩ | ⟨c, q, t, b, h1, h2, h3, h4, rfl⟩
    · exact limited_congr h rfl rfl rfl
    · obtain ⟨m, hm⟩ := hP _ _ _ _ _ h3
      rw [front_take hm]
      obtain ⟨k1, k2, k3, k4⟩ := h
      rw [hm] at k1 k2
      simp only [List.length_append, bytesIn, List.map_append, List.sum_append] at k1 k2
      refine ⟨?_, ?_, ?_, ?_⟩
      · simp only [Src.took]; omega
      · simp only [Src.took, bytesIn]; omega
      · intro hl; have := k3 hl; simp only [Src.took]; omega
      · intro hl q1 f hq
        simp only [Src.took] at hq
        have := k4 hl (m ++ q1) f (by rw [hm, hq]; simp)
        simp only [bytesIn, List.map_append, List.sum_append] at this ⊢
        omega
  | bus v =>
    simp only [Src.step] at hs
    split at hs
    · split at hs
      · cases hs
      · split at hs <;> cases hs <;> exact limited_congr h rfl rfl rfl
    · cases hs

/-- A task sleeps in `send` only while the queue is full. -/
def Awake (l : Limits) (s : Src F C T B V) : Prop := ∀ f, (f, false) ∈ s.waiting → s.full l = true

theorem awake_step {s s' : Src F C T B V} {e : SrcEv F V} (h : Awake l s) (hs : s.step P W l e = some (.ok s')) : Awake l s' := by
  cases e with
  | send f =>
    simp only [Src.step] at hs
    split at hs <;> cases hs
    · rename_i hf; intro g _; exact hf
    · rename_i hf; intro g hg; exact absurd (h g hg) hf
  | sendNowait f =>
    simp only [Src.step] at hs
    split at hs <;> cases hs
    · exact h
    · rename_i hf; intro g hg; exact absurd (h g hg) hf
  | retry i =>
    simp only [Src.step] at hs
    split at hs
    · split at hs <;> cases hs
      · rename_i hf; intro g _; exact hf
      · rename_i hf; intro g hg
        exact absurd (h g (List.mem_of_mem_eraseIdx hg)) hf
    · cases hs
  | clear => cases hs; exact h
  | work =>
    rcases work_cases (show s.work P W = some (.ok s') from hs) with ⟨t, r, b, h1, h2, h3, rfl⟩ | ⟨c, q, t, b, h1, h2, h3, h4, rfl⟩
    · exact h
    · intro g hg
      simp only [Src.took] at hg ⊢
      split at hg
      · rename_i he
        have he' := List.isEmpty_iff.mp he
        have := h g hg
        simp only [Src.full] at this ⊢
        rw [he']
        simpa using this
      · simp at hg
  | bus v =>
    simp only [Src.step] at hs
    split at hs
    · split at hs
      · cases hs
      · split at hs <;> cases hs <;> exact h
    · cases hs

/-- The events of the handshake, run on their own. -/
def wrun (W : Wires T B V) : B → List V → Py B
  | b, [] => .ok b
  | b, e :: es => match W.step b e with
    | .error x => .error x
    | .ok b => wrun W b es

theorem wrun_snoc : ∀ (es : List V) (b b1 b2 : B) (e : V), wrun W b es = .ok b1 → W.step b1 e = .ok b2 → wrun W b (es ++ [e]) = .ok b2
  | [], b, b1, b2, e, h, h2 => by cases h; simp [wrun, h2]
  | x :: es, b, b1, b2, e, h, h2 => by
    simp only [wrun, List.cons_append] at h ⊢
    split at h
    · cases h
    · exact wrun_snoc es _ b1 b2 e h h2

/-- The iterations of `_run`, on their own: what is left and the transactions. -/
def grun (P : Packer F C T) : Option C → List F → List (Option F) → Py (Option C × List F × List T)
  | c, q, [] => .ok (c, q, [])
  | c, q, some f :: r => grun P c (q ++ [f]) r
  | c, q, none :: r =>
    if c.isNone && q.isEmpty then grun P c q r
    else match P.beat c q with
    | .error e => .error e
    | .ok (c, q, t) => match grun P c q r with
      | .error e => .error e
      | .ok (c, q, ts) => .ok (c, q, t :: ts)

theorem grun_put : ∀ (es : List (Option F)) (c c' : Option C) (q q' : List F) (ts : List T) (f : F), grun P c q es = .ok (c', q', ts) →
    grun P c q (es ++ [some f]) = .ok (c', q' ++ [f], ts)
  | [], c, c', q, q', ts, f, h => by cases h; simp [grun]
  | some g :: es, c, c', q, q', ts, f, h => by
    simp only [grun, List.cons_append] at h ⊢
    exact grun_put es _ _ _ _ _ f h
  | none :: es, c, c', q, q', ts, f, h => by
    simp only [grun, List.cons_append] at h ⊢
    split at h
    · rename_i hc
      rw [if_pos hc]
      exact grun_put es _ _ _ _ _ f h
    · rename_i hc
      rw [if_neg hc]
      split at h
      · cases h
      · split at h
        · cases h
        · rename_i h1
          cases h
          rw [grun_put es _ _ _ _ _ f h1]

theorem grun_beat : ∀ (es : List (Option F)) (c c' c2 : Option C) (q q' q2 : List F) (ts : List T) (t : T), grun P c q es = .ok (c', q', ts) →
    (c' ≠ none ∨ q' ≠ []) → P.beat c' q' = .ok (c2, q2, t) → grun P c q (es ++ [none]) = .ok (c2, q2, ts ++ [t])
  | [], c, c', c2, q, q', q2, ts, t, h, hne, hb => by
    cases h
    simp only [grun, List.nil_append]
    have : (c.isNone && q.isEmpty) = false := by
      rcases hne with hne | hne
      · cases c with
        | none => exact absurd rfl hne
        | some _ => rfl
      · cases q with
        | nil => exact absurd rfl hne
        | cons _ _ => simp
    rw [if_neg (by simp [this])]
    simp [hb]
  | some g :: es, c, c', c2, q, q', q2, ts, t, h, hne, hb => by
    simp only [grun, List.cons_append] at h ⊢
    exact grun_beat es _ _ _ _ _ _ _ t h hne hb
  | none :: es, c, c', c2, q, q', q2, ts, t, h, hne, hb => by
    simp only [grun, List.cons_append] at h ⊢
    split at h
    · rename_i hc
      rw [if_pos hc]
      exact grun_beat es _ _ _ _ _ _ _ t h hne hb
    · rename_i hc
      rw [if_neg hc]
      split at h
      · cases h
      · split at h
        · cases h
        · rename_i h1
          cases h
          rw [grun_beat es _ _ _ _ _ _ _ t h1 hne hb]
          simp

/-- The records tell what has happened. `gv` are the transactions given to the handshake. -/
structure Rec (P : Packer F C T) (W : Wires T B V) (gv : V → Option T) (s : Src F C T B V) : Prop where
  wires : wrun W W.init s.ran = .ok s.wires
  given : s.ran.filterMap gv = s.given
  frames : grun P none [] s.log = .ok (s.cur, s.queue, s.given)

theorem rec_put {gv : V → Option T} {s : Src F C T B V} (f : F) (h : Rec P W gv s) : Rec P W gv (s.put P f) :=
  ⟨h.wires, h.given, grun_put _ _ _ _ _ _ f h.frames⟩

theorem rec_step {gv : V → Option T} (g1 : ∀ t, gv (W.give t) = some t) (g2 : gv W.load = none) (g3 : ∀ e, W.outside e = true → gv e = none)
    {s s' : Src F C T B V} {e : SrcEv F V} (h : Rec P W gv s) (hc : e ≠ .clear) (hs : s.step P W l e = some (.ok s')) : Rec P W gv s' := by
  cases e with
  | send f =>
    simp only [Src.step] at hs
    split at hs <;> cases hs
    · exact ⟨h.wires, h.given, h.frames⟩
    · exact rec_put f h
  | sendNowait f =>
    simp only [Src.step] at hs
    split at hs <;> cases hs
    · exact h
    · exact rec_put f h
  | retry i =>
    simp only [Src.step] at hs
    split at hs
    · split at hs <;> cases hs
      · exact ⟨h.wires, h.given, h.frames⟩
      · exact rec_put _ ⟨h.wires, h.given, h.frames⟩
    · cases hs
  | clear => exact absurd rfl hc
  | work =>
    rcases work_cases (show s.work P W = some (.ok s') from hs) with ⟨t, r, b, h1, h2, h3, rfl⟩ | ⟨c, q, t, b, h1, h2, h3, h4, rfl⟩
    · exact ⟨wrun_snoc _ _ _ _ _ h.wires h3, by simp [h.given, g2], h.frames⟩
    · exact ⟨wrun_snoc _ _ _ _ _ h.wires h4, by simp [h.given, g1], grun_beat _ _ _ _ _ _ _ _ _ h.frames h2 h3⟩
  | bus v =>
    simp only [Src.step] at hs
    split at hs
    · rename_i ho
      split at hs
      · cases hs
      · rename_i b hb
        split at hs <;> cases hs <;>
          exact ⟨wrun_snoc _ _ _ _ _ h.wires hb, by simp [h.given, g3 _ ho], h.frames⟩
    · cases hs

theorem rec_run {gv : V → Option T} (g1 : ∀ t, gv (W.give t) = some t) (g2 : gv W.load = none) (g3 : ∀ e, W.outside e = true → gv e = none)
    {es : List (SrcEv F V)} {s : Src F C T B V} (hc : .clear ∉ es) (hr : (fresh W).run P W l es = some (.ok s)) : Rec P W gv s :=
  run_ind es (fresh W) s ⟨rfl, rfl, rfl⟩ (fun _ he _ _ h hs => rec_step g1 g2 g3 h (fun x => hc (x ▸ he)) hs) hr

theorem perm_mid {f : F} {a b : List F} : (a ++ [f] ++ b).Perm (a ++ b ++ [f]) := by
  rw [List.append_assoc, List.append_assoc]
  exact List.Perm.append_left a List.perm_append_comm

theorem perm_eraseIdx {α : Type} : ∀ (w : List α) (i : Nat) (a : α), w[i]? = some a → (a :: w.eraseIdx i).Perm w
  | [], i, a, h => by simp at h
  | b :: w, 0, a, h => by
    simp only [List.getElem?_cons_zero, Option.some.injEq] at h
    subst h; exact List.Perm.refl _
  | b :: w, i + 1, a, h => by
    simp only [List.getElem?_cons_succ] at h
    exact (List.Perm.swap b a _).trans ((perm_eraseIdx w i a h).cons b)

theorem calls_step {s s' : Src F C T B V} {e : SrcEv F V} (hn : ∀ f, e ≠ .sendNowait f) (hs : s.step P W l e = some (.ok s')) :
    (accepted s' ++ s'.waiting.map (·.1)).Perm (accepted s ++ s.waiting.map (·.1) ++ calls [e]) := by
  cases e with
  | send f =>
    simp only [Src.step] at hs
    split at hs <;> cases hs
    · simp [calls, accepted]
    · have : accepted (s.put P f) = accepted s ++ [f] := by simp [accepted, Src.put]
      rw [this]
      exact perm_mid
  | sendNowait f => exact absurd rfl (hn f)
  | retry i =>
    simp only [Src.step] at hs
    split at hs
    · rename_i f hf
      split at hs <;> cases hs
      · simp only [calls, List.filterMap_cons, List.filterMap_nil, List.append_nil]
        refine List.Perm.append_left _ (List.Perm.of_eq ?_)
        rw [List.map_set]
        apply List.ext_getElem?
        intro j
        rw [List.getElem?_set]
        split
        · rename_i hj
          subst hj
          have hlt : i < s.waiting.length := (List.getElem?_eq_some_iff.mp hf).1
          simp [hlt, (List.getElem?_eq_some_iff.mp hf).2]
        · rfl
      · have e1 : accepted (Src.put P f { s with waiting := s.waiting.eraseIdx i }) = accepted s ++ [f] := by simp [accepted, Src.put]
        rw [e1]
        simp only [calls, List.filterMap_cons, List.filterMap_nil, List.append_nil, List.append_assoc]
        refine List.Perm.append_left _ ?_
        have hp := perm_eraseIdx s.waiting i (f, true) hf
        exact hp.map (·.1)
    · cases hs
  | clear => cases hs; simp [calls, accepted]
  | work =>
    rcases work_cases (show s.work P W = some (.ok s') from hs) with ⟨t, r, b, h1, h2, h3, rfl⟩ | ⟨c, q, t, b, h1, h2, h3, h4, rfl⟩
    · simp [calls, accepted]
    · refine List.Perm.of_eq ?_
      simp only [accepted, Src.took, calls, List.filterMap_append, List.filterMap_cons, List.filterMap_nil, id, List.append_nil]
      split <;> simp
  | bus v =>
    simp only [Src.step] at hs
    split at hs
    · split at hs
      · cases hs
      · split at hs <;> cases hs <;> simp [calls, accepted]
    · cases hs

theorem calls_run : ∀ (es : List (SrcEv F V)) (s s' : Src F C T B V), (∀ f, .sendNowait f ∉ es) → s.run P W l es = some (.ok s') →
    (accepted s' ++ s'.waiting.map (·.1)).Perm (accepted s ++ s.waiting.map (·.1) ++ calls es)
  | [], s, s', _, h => by cases h; simp [calls]
  | e :: es, s, s', hn, h => by
    simp only [Src.run] at h
    split at h
    · cases h
    · cases h
    · rename_i s1 h1
      have a := calls_step (fun f hf => hn f (by simp [hf])) h1
      have b := calls_run es s1 s' (fun f hf => hn f (by simp [hf])) h
      have hcons : calls (e :: es) = calls [e] ++ calls es := by simp only [calls, ← List.filterMap_append]; rfl
      rw [hcons, ← List.append_assoc]
      exact b.trans (a.append_right _)

/-- After a clock edge, everything has been sent exactly if `idle_event` is set. -/
theorem edge_idle {valid asleep : B → Bool} {nz : T → Bool} (L : Law W valid asleep nz) {s s' : Src F C T B V} {v : V} (h : WInv W valid asleep s)
    (hz : ∀ t, W.drive s.wires = some t → nz t = true) (he : W.edge v = true)
    (hs : s.step P W l (.bus v) = some (.ok s')) (hd : Done W valid s') : s'.idleEvent = true := by
  simp only [Src.step] at hs
  split at hs
  · rename_i ho
    split at hs
    · cases hs
    · rename_i b hb
      split at hs <;> cases hs
      · rename_i hdid
        obtain ⟨t, k1, k2, k3, k4, k5⟩ := L.drove _ _ _ hb hdid
        have := hd.valid
        simp only [k4, hz t k1] at this
        cases this
      · rename_i hdid
        obtain ⟨k0, k1, k2, k3, k4⟩ := L.stopped _ _ _ hb hdid
        have := k1.symm.trans hd.drive
        simp [this]
      · rename_i hdid
        obtain ⟨k1, k2, k3, k4, k5⟩ := L.kept _ _ _ ho hb hdid
        rcases k5 he with k | k
        · have := hd.valid; simp only [k3, k] at this; cases this
        · rcases (h.sleep k).2 with x | x | x | x
          · exact x
          · exact absurd hd.queue x
          · exact absurd hd.cur x
          · exact absurd (k2.symm.trans hd.todo) x
  · cases hs

/-- After a clock edge, `idle()` is right. -/
theorem edge_not_active {valid asleep : B → Bool} {nz : T → Bool} (L : Law W valid asleep nz) {s s' : Src F C T B V} {v : V} (h : WInv W valid asleep s)
    (h' : WInv W valid asleep s') (hq : s.canWork W = false) (he : W.edge v = true)
    (hs : s.step P W l (.bus v) = some (.ok s')) (hi : s'.idle = true) : Done W valid s' := by
  simp only [Src.step] at hs
  split at hs
  · rename_i ho
    split at hs
    · cases hs
    · rename_i b hb
      split at hs <;> cases hs
      · simp [Src.idle] at hi
      · rename_i hdid
        refine h'.idle ?_
        simp only [Src.idle, Bool.and_eq_true, Bool.not_eq_true'] at hi
        simp [hi.2]
      · rename_i hdid
        obtain ⟨k1, k2, k3, k4, k5⟩ := L.kept _ _ _ ho hb hdid
        simp only [Src.idle, Bool.and_eq_true, Bool.not_eq_true', List.isEmpty_iff] at hi
        rcases k5 he with k | k
        · have := h.act k; rw [this] at hi; cases hi.2
        · have hsl := h.sleep k
          have hidle : s.idleEvent = true := by
            rcases hsl.2 with x | x | x | x
            · exact x
            · exact absurd hi.1 x
            · cases ht : W.todo s.wires with
              | nil =>
                simp only [Src.canWork, ht, Bool.or_eq_false_iff] at hq
                exact absurd (by simpa using hq.1) x
              | cons a r => simp [Src.canWork, ht, hsl.1] at hq
            · cases ht : W.todo s.wires with
              | nil => exact absurd ht x
              | cons a r => simp [Src.canWork, ht, hsl.1] at hq
          exact h'.idle hidle
  · cases hs

end Sq
end Pcie
