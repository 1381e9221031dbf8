import Verif.Lemmas.StreamQueueBus
import Verif.Spec.StreamQueueLive
import Verif.Lemmas.Handshake
import Verif.Lemmas.S10Stream
import Verif.Lemmas.PTileStream
import Verif.Lemmas.UsStream
/-
The queues of sources: everything is sent in bounded time.
-/
namespace Pcie
namespace Sq
open Spec
variable {F C T B V : Type}

/-- A packer makes progress: `I n c q` implies that at most `n` transactions are left. -/
structure Live (P : Packer F C T) (ok : F → Prop) (I : Nat → Option C → List F → Prop) : Prop where
  init : I 0 none []
  put : ∀ n c q f, I n c q → ok f → I (n + (P.size f + 1)) c (q ++ [f])
  beat : ∀ n c q c' q' t, I n c q → (c ≠ none ∨ q ≠ []) → P.beat c q = .ok (c', q', t) → ∃ m, m < n ∧ I m c' q'

/-- A handshake makes progress: after `N` clock edges without pauses (`go`), each one takes a transaction. -/
structure Lively (W : Wires T B V) (asleep : B → Bool) (go : V → Bool) (N : Nat) (Warm : Nat → B → Prop) : Prop where
  runs : ∀ v, go v = true → W.edge v = true ∧ W.outside v = true
  give : ∀ k b b' t, Warm k b → W.step b (W.give t) = .ok b' → Warm k b'
  load : ∀ k b b', Warm k b → W.step b W.load = .ok b' → Warm k b'
  edge : ∀ k b b' v, Warm k b → go v = true → W.step b v = .ok b' → Warm (k + 1) b' ∧
    (N ≤ k → asleep b = false → W.did b v = if (W.drive b).isSome then .drove else .stopped)

section
variable {P : Packer F C T} {W : Wires T B V} {l : Limits} {valid asleep : B → Bool} {nz : T → Bool} {ok : F → Prop} {I : Nat → Option C → List F → Prop}

/-- Transactions in the source. -/
def held (W : Wires T B V) (s : Src F C T B V) : Nat := (W.todo s.wires).length + (W.drive s.wires).toList.length

/-- What is left is bounded by what was accepted. -/
def Bounded (P : Packer F C T) (W : Wires T B V) (ok : F → Prop) (I : Nat → Option C → List F → Prop) (s : Src F C T B V) : Prop :=
  (∀ f ∈ accepted s, ok f) → ∃ n, I n s.cur s.queue ∧ n + held W s ≤ ((accepted s).map fun f => P.size f + 1).sum

theorem bounded_put (hL : Live P ok I) {s : Src F C T B V} (f : F) (h : Bounded P W ok I s) : Bounded P W ok I (s.put P f) := by
  intro hok
  have ha : accepted (s.put P f) = accepted s ++ [f] := by simp [accepted, Src.put, List.filterMap_append]
  rw [ha] at hok ⊢
  obtain ⟨n, h1, h2⟩ := h (fun g hg => hok g (by simp [hg]))
  refine ⟨_, hL.put n _ _ f h1 (hok f (by simp)), ?_⟩
  simp only [List.map_append, List.sum_append, List.map_cons, List.map_nil, List.sum_cons, List.sum_nil]
  have : held W (s.put P f) = held W s := rfl
  omega

theorem load_held (L : Law W valid asleep nz) {s : Src F C T B V} (h : WInv W valid asleep s) {t : T} {r : List T} {b : B} (h1 : W.todo s.wires = t :: r)
    (h2 : W.drive s.wires = none) (h3 : W.step s.wires W.load = .ok b) : (W.todo b).length + (W.drive b).toList.length = held W s := by
  have hr : r = [] := by
    have := h.one
    rw [h1] at this
    simp only [List.length_cons] at this
    exact List.eq_nil_of_length_eq_zero (by omega)
  subst hr
  obtain ⟨k1, k2, _⟩ := L.load _ _ t h3 h1 h2
  simp [held, k1, k2, h1, h2]

theorem bus_held (L : Law W valid asleep nz) {s : Src F C T B V} {v : V} {b : B} (ho : W.outside v = true) (hb : W.step s.wires v = .ok b) :
    (W.todo b).length + (W.drive b).toList.length + (if W.did s.wires v = .drove then 1 else 0) = held W s := by
  cases hd : W.did s.wires v with
  | drove =>
    obtain ⟨t, k1, k2, k3, _⟩ := L.drove _ _ _ hb hd
    simp [held, k1, k2, k3]
  | stopped =>
    obtain ⟨_, k1, k2, _⟩ := L.stopped _ _ _ hb hd
    simp [held, k1, k2]
  | kept =>
    obtain ⟨k1, k2, _⟩ := L.kept _ _ _ ho hb hd
    simp [held, k1, k2]

theorem accepted_none (l : List (Option F)) : (l ++ [none]).filterMap id = l.filterMap id := by simp [List.filterMap_append]

theorem bounded_step (L : Law W valid asleep nz) (hL : Live P ok I) {s s' : Src F C T B V} {e : SrcEv F V} (h : Bounded P W ok I s) (hw : WInv W valid asleep s) (hc : e ≠ .clear)
    (hs : s.step P W l e = some (.ok s')) : Bounded P W ok I s' := by
  cases e with
  | send f =>
    simp only [Src.step] at hs
    split at hs <;> cases hs
    · exact h
    · exact bounded_put hL f h
  | sendNowait f =>
    simp only [Src.step] at hs
    split at hs <;> cases hs
    · exact h
    · exact bounded_put hL f h
  | retry i =>
    simp only [Src.step] at hs
    split at hs
    · split at hs <;> cases hs
      · exact h
      · exact bounded_put hL _ h
    · cases hs
  | clear => exact absurd rfl hc
  | work =>
    rcases work_cases (show s.work P W = some (.ok s') from hs) with ⟨t, r, b, h1, h2, h3, rfl⟩ | ⟨c, q, t, b, h1, h2, h3, h4, rfl⟩
    · intro hok
      obtain ⟨n, i1, i2⟩ := h hok
      refine ⟨n, i1, ?_⟩
      have := load_held L hw h1 h2 h3
      have hh : held W { s with wires := b, ran := s.ran ++ [W.load] } = held W s := this
      rw [hh]; exact i2
    · intro hok
      have ha : (s.log ++ [none]).filterMap id = accepted s := accepted_none s.log
      simp only [accepted, Src.took] at hok ⊢
      rw [ha] at hok ⊢
      obtain ⟨n, i1, i2⟩ := h hok
      obtain ⟨m, m1, m2⟩ := hL.beat n _ _ _ _ _ i1 h2 h3
      refine ⟨m, m2, ?_⟩
      obtain ⟨k1, k2, _⟩ := L.give _ _ t h4
      simp only [held, k1, k2, h1, List.length_append, List.length_cons, List.length_nil] at i2 ⊢
      omega
  | bus v =>
    simp only [Src.step] at hs
    split at hs
    · rename_i ho
      split at hs
      · cases hs
      · rename_i b hb
        have hh := bus_held L ho hb
        intro hok
        have : s'.cur = s.cur ∧ s'.queue = s.queue ∧ s'.log = s.log ∧ s'.wires = b := by
          split at hs <;> cases hs <;> exact ⟨rfl, rfl, rfl, rfl⟩
        obtain ⟨e1, e2, e3, e4⟩ := this
        have ha : accepted s' = accepted s := by unfold accepted; rw [e3]
        rw [ha] at hok ⊢
        obtain ⟨n, i1, i2⟩ := h hok
        refine ⟨n, by rw [e1, e2]; exact i1, ?_⟩
        have : held W s' ≤ held W s := by
          unfold held at hh ⊢
          rw [e4]
          omega
        omega
    · cases hs

/-- The invariants, for a settled history. -/
theorem live_run (L : Law W valid asleep nz) (hL : Live P ok I) : ∀ (es : List (SrcEv F V)), .clear ∉ es → Settled P W l es → ∀ s, (fresh W).run P W l es = some (.ok s) →
    WInv W valid asleep s ∧ Bounded P W ok I s := by
  suffices H : ∀ (post pre : List (SrcEv F V)), .clear ∉ pre ++ post → Settled P W l (pre ++ post) → ∀ s1 s, (fresh W).run P W l pre = some (.ok s1) →
      WInv W valid asleep s1 → Bounded P W ok I s1 → s1.run P W l post = some (.ok s) → WInv W valid asleep s ∧ Bounded P W ok I s by
    intro es hc hq s hr
    refine H es [] (by simpa using hc) (by simpa using hq) (fresh W) s rfl (winv_fresh L) (fun _ => ⟨0, hL.init, ?_⟩) hr
    obtain ⟨i1, i2, _⟩ := L.init
    have : held W (fresh W : Src F C T B V) = 0 := by
      show (W.todo W.init).length + (W.drive W.init).toList.length = 0
      rw [i1, i2]; rfl
    omega
  intro post
  induction post with
  | nil => intro pre _ _ s1 s _ h hb hr; cases hr; exact ⟨h, hb⟩
  | cons e post ih =>
    intro pre hc hq s1 s h1 h hb hr
    simp only [Src.run] at hr
    split at hr
    · cases hr
    · cases hr
    · rename_i s2 h2
      have hstep := winv_step L h (e := e) (fun x => hc (by simp [x])) (fun v hv he => hq pre v post (by rw [hv]) he s1 h1) h2
      have hbs := bounded_step L hL hb h (e := e) (fun x => hc (by simp [x])) h2
      refine ih (pre ++ [e]) (by simpa using hc) (by simpa using hq) s2 s ?_ hstep hbs hr
      rw [run_append pre [e] (fresh W) s1 h1]
      simp only [Src.run, h2]

/-- Only the source's own task and clock edges without pauses. -/
def Going (go : V → Bool) (more : List (SrcEv F V)) : Prop := ∀ e ∈ more, e = .work ∨ ∃ v, e = .bus v ∧ go v = true

/-- When everything is done, it stays so. -/
theorem idle_stay (L : Law W valid asleep nz) {go : V → Bool} {s s' : Src F C T B V} {e : SrcEv F V} (h : WInv W valid asleep s) (hi : s.idleEvent = true)
    (he : e = .work ∨ ∃ v, e = .bus v ∧ go v = true) (hs : s.step P W l e = some (.ok s')) : s'.idleEvent = true := by
  have d := h.idle hi
  rcases he with rfl | ⟨v, rfl, _⟩
  · rcases work_cases (show s.work P W = some (.ok s') from hs) with ⟨t, r, b, h1, _⟩ | ⟨c, q, t, b, h1, h2, _⟩
    · rw [d.todo] at h1; cases h1
    · rcases h2 with h2 | h2
      · exact absurd d.cur h2
      · exact absurd d.queue h2
  · simp only [Src.step] at hs
    split at hs
    · split at hs
      · cases hs
      · split at hs <;> cases hs
        · exact hi
        · simp [d.drive]
        · exact hi
    · cases hs

theorem edges_work (more : List (SrcEv F V)) : edges (.work :: more) = edges more := List.countP_cons_of_neg (by simp)
theorem edges_bus (more : List (SrcEv F V)) (v : V) : edges (.bus v :: more) = edges more + 1 := List.countP_cons_of_pos (by simp)

theorem settle (L : Law W valid asleep nz) (hL : Live P ok I) {go : V → Bool} {N : Nat} {Warm : Nat → B → Prop} (hW : Lively W asleep go N Warm) :
    ∀ (more pre : List (SrcEv F V)), Going go more → Settled P W l (pre ++ more) → ∀ (k n : Nat) (s1 s : Src F C T B V), (fresh W).run P W l pre = some (.ok s1) →
      WInv W valid asleep s1 → (s1.idleEvent = true ∨ (I n s1.cur s1.queue ∧ Warm k s1.wires ∧ N - k + n + held W s1 + 1 ≤ edges more)) →
      s1.run P W l more = some (.ok s) → s.idleEvent = true
  | [], pre, _, _, k, n, s1, s, _, _, h, hr => by
    cases hr
    rcases h with h | ⟨_, _, h⟩
    · exact h
    · simp [edges] at h
  | e :: more, pre, hg, hq, k, n, s1, s, h1, hw, h, hr => by
    simp only [Src.run] at hr
    split at hr
    · cases hr
    · cases hr
    rename_i s2 h2
    have he := hg e (by simp)
    have hne : e ≠ .clear := by rcases he with rfl | ⟨v, rfl, _⟩ <;> simp
    have hst : ∀ v, e = .bus v → W.edge v = true → s1.canWork W = false := fun v hv hed => hq pre v more (by rw [hv]) hed s1 h1
    have hw2 := winv_step L hw hne hst h2
    have hpre : (fresh W).run P W l (pre ++ [e]) = some (.ok s2) := by
      rw [run_append pre [e] (fresh W) s1 h1]
      simp only [Src.run, h2]
    have go2 : ∀ (k n : Nat), (s2.idleEvent = true ∨ (I n s2.cur s2.queue ∧ Warm k s2.wires ∧ N - k + n + held W s2 + 1 ≤ edges more)) →
        s.idleEvent = true := fun k n hh =>
      settle L hL hW more (pre ++ [e]) (fun x hx => hg x (by simp [hx])) (by simpa using hq) k n s2 s hpre hw2 hh hr
    rcases h with h | ⟨i1, i2, i3⟩
    · exact go2 0 0 (.inl (idle_stay L hw h he h2))
    rcases he with rfl | ⟨v, rfl, hv⟩
    · rw [edges_work] at i3
      rcases work_cases (show s1.work P W = some (.ok s2) from h2) with ⟨t, r, b, a1, a2, a3, rfl⟩ | ⟨c, q, t, b, a1, a2, a3, a4, rfl⟩
      · refine go2 k n (.inr ⟨i1, hW.load _ _ _ i2 a3, ?_⟩)
        have hh : held W { s1 with wires := b, ran := s1.ran ++ [W.load] } = held W s1 := load_held L hw a1 a2 a3
        rw [hh]; exact i3
      · obtain ⟨m, m1, m2⟩ := hL.beat n _ _ _ _ _ i1 a2 a3
        refine go2 k m (.inr ⟨m2, hW.give _ _ _ _ i2 a4, ?_⟩)
        obtain ⟨k1, k2, _⟩ := L.give _ _ t a4
        simp only [held, k1, k2, a1, List.length_append, List.length_cons, List.length_nil, Src.took] at i3 ⊢
        omega
    · rw [edges_bus] at i3
      obtain ⟨g1, g2⟩ := hW.runs v hv
      have hcw := hst v rfl g1
      simp only [Src.step, if_pos g2] at h2
      split at h2
      · cases h2
      rename_i b hb
      obtain ⟨w1, w2⟩ := hW.edge _ _ _ _ i2 hv hb
      have hh := bus_held L g2 hb
      have same : s2.cur = s1.cur ∧ s2.queue = s1.queue ∧ s2.wires = b ∧ (W.did s1.wires v = .stopped → W.drive s1.wires = none → s2.idleEvent = true) := by
        split at h2 <;> rename_i hd <;> cases h2
        · exact ⟨rfl, rfl, rfl, fun x => by rw [hd] at x; cases x⟩
        · exact ⟨rfl, rfl, rfl, fun _ x => by simp [x]⟩
        · exact ⟨rfl, rfl, rfl, fun x => by rw [hd] at x; cases x⟩
      obtain ⟨e1, e2, e3, e4⟩ := same
      have hheld : held W s2 = (W.todo b).length + (W.drive b).toList.length := by unfold held; rw [e3]
      by_cases hN : N ≤ k
      · cases hdr : W.drive s1.wires with
        | none =>
          have ht : W.todo s1.wires = [] := by
            cases htd : W.todo s1.wires with
            | nil => rfl
            | cons t r => simp [Src.canWork, htd, hdr] at hcw
          simp only [Src.canWork, ht, Bool.or_eq_false_iff] at hcw
          by_cases ha : asleep s1.wires = true
          · rcases (hw.sleep ha).2 with x | x | x | x
            · have hid := idle_stay (go := go) (e := .bus v) (P := P) (l := l) L hw x (.inr ⟨v, rfl, hv⟩) (s' := s2) (by simp only [Src.step, if_pos g2, hb]; exact h2)
              exact go2 0 0 (.inl hid)
            · exact absurd (by simpa using hcw.2) x
            · exact absurd (by simpa using hcw.1) x
            · exact absurd ht x
          · have := w2 hN (by simpa using ha)
            rw [hdr] at this
            exact go2 0 0 (.inl (e4 (by simpa using this) hdr))
        | some t =>
          have ha : asleep s1.wires = false := by
            cases hb : asleep s1.wires with
            | false => rfl
            | true => have := (hw.sleep hb).1; rw [hdr] at this; cases this
          have hd := w2 hN ha
          rw [hdr, Option.isSome_some, if_pos rfl] at hd
          rw [if_pos hd] at hh
          refine go2 (k + 1) n (.inr ⟨by rw [e1, e2]; exact i1, by rw [e3]; exact w1, ?_⟩)
          rw [hheld]
          omega
      · refine go2 (k + 1) n (.inr ⟨by rw [e1, e2]; exact i1, by rw [e3]; exact w1, ?_⟩)
        rw [hheld]
        omega

theorem going_clear {go : V → Bool} {more : List (SrcEv F V)} (h : Going go more) : .clear ∉ more := fun hm => by
  rcases h _ hm with x | ⟨v, x, _⟩ <;> cases x

theorem settled_prefix {a c : List (SrcEv F V)} (h : Settled P W l (a ++ c)) : Settled P W l a := fun pre e post he hed s hs =>
  h pre e (post ++ c) (by rw [he]; simp) hed s hs

theorem going_accepted {go : V → Bool} {more : List (SrcEv F V)} {s s' : Src F C T B V} (h : Going go more) (hr : s.run P W l more = some (.ok s')) : accepted s' = accepted s := by
  refine run_ind (I := fun x => accepted x = accepted s) more s s' rfl (fun e he s1 s2 h1 hs => ?_) hr
  rw [← h1]
  rcases h e he with rfl | ⟨v, rfl, _⟩
  · rcases work_cases (show s1.work P W = some (.ok s2) from hs) with ⟨t, r, b, _, _, _, rfl⟩ | ⟨c, q, t, b, _, _, _, _, rfl⟩
    · rfl
    · exact accepted_none s1.log
  · simp only [Src.step] at hs
    split at hs
    · split at hs
      · cases hs
      · split at hs <;> cases hs <;> rfl
    · cases hs

end

def hsGo : Hs.Ev T → Bool | .edge p q => !p && !q | _ => false

/-- A handshake with ready latency. -/
def HsWarm (latency : Nat) : Nat → Hs.St T → Prop
  | 0, _ => True
  | k + 1, s => Hs.Warm latency k s

theorem hs_lively (latency : Nat) (nz : T → Bool) : Lively (hs latency nz) (fun _ => false) hsGo (latency + 1) (HsWarm latency) where
  runs v hv := by cases v <;> simp_all [hsGo, hs]
  give k b b' t h hs := by
    cases hs
    cases k with
    | zero => trivial
    | succ k => exact h
  load k b b' h hs := by
    cases hs
    cases k with
    | zero => trivial
    | succ k =>
      obtain ⟨_, _, l3, l4⟩ := Hs.load_left b
      exact ⟨l3.trans h.1, by rw [l4]; exact h.2⟩
  edge k b b' v h hv hs := by
    cases v with
    | give a => cases hv
    | load => cases hv
    | edge p q =>
      simp only [hsGo, Bool.and_eq_true, Bool.not_eq_true'] at hv
      obtain ⟨rfl, rfl⟩ := hv
      have hk : b'.ready = true ∧ b'.srcDelay = (Hs.delay (latency - 1) b.srcDelay b.ready).2 := by
        have hsrc : (b.source latency nz false).srcDelay = (Hs.delay (latency - 1) b.srcDelay b.ready).2 := by
          simp only [Hs.St.source]
          split
          · split
            · split <;> rfl
            · rfl
          · rfl
        have hs' : b.sink latency false (b.source latency nz false) = .ok b' := hs
        simp only [Hs.St.sink] at hs'
        split at hs'
        · cases hs'; exact ⟨rfl, hsrc⟩
        · split at hs'
          · cases hs'
          · cases hs'; exact ⟨rfl, hsrc⟩
      refine ⟨?_, fun hN _ => ?_⟩
      · cases k with
        | zero =>
          refine ⟨hk.1, fun x hx => ?_⟩
          have hn := Hs.norm_length (latency - 1) b'.srcDelay
          rw [Nat.sub_zero, List.drop_eq_nil_of_le (by omega)] at hx
          cases hx
        | succ k => exact Hs.warm_next h hk.1 hk.2
      · cases k with
        | zero => omega
        | succ k =>
          have hw := Hs.warm_delay (k := k) h (by omega)
          simp only [Sq.hs, hsDid]
          have hr1 : (Hs.delay (latency - 1) b.srcDelay b.ready).1 = true ∨ latency = 0 := by
            rcases hw with hw | hw
            · exact .inr hw.2
            · exact .inl hw.2
          have c1 : ((Hs.delay (latency - 1) b.srcDelay b.ready).1 && b.valid || !b.valid || decide (latency > 0)) = true := by
            rcases hw with ⟨w1, w2⟩ | ⟨w1, w2⟩
            · subst w2
              simp [Hs.delay, w1]
            · simp [w1]
          rw [if_pos c1]
          have c2 : ((Hs.delay (latency - 1) b.srcDelay b.ready).1 || decide (latency = 0)) = true := by
            rcases hr1 with x | x
            · simp [x]
            · simp [x]
          rw [c2]
          by_cases hd : b.drive.isSome = true <;> simp [hd]

def axisGo : Axis.Ev T → Bool | .edge p => !p | _ => false

/-- The AXI stream. -/
def AxisWarm : Nat → Axis.St T → Prop
  | 0, s => Axis.Inv s ∧ s.pause = false ∧ s.full = false
  | 1, s => Axis.Inv s ∧ s.pause = false ∧ s.full = false ∧ (s.snkAsleep = false → s.pauseSample = false)
  | _ + 2, s => Axis.Good s

theorem axis_lively : Lively (axis (T := T)) (·.srcAsleep) axisGo 2 AxisWarm where
  runs v hv := by cases v <;> simp_all [axisGo, axis]
  give k b b' t h hs := by
    cases hs
    have hi : ∀ s : Axis.St T, Axis.Inv s → Axis.Inv { s with todo := s.todo ++ [t] } := fun s h => ⟨h.bus, h.src, h.snk, h.paused⟩
    match k, h with
    | 0, h => exact ⟨hi _ h.1, h.2⟩
    | 1, h => exact ⟨hi _ h.1, h.2⟩
    | k + 2, h => exact ⟨hi _ h.inv, h.pause, h.full, h.ready, h.sample⟩
  load k b b' h hs := by
    cases hs
    have key : ∀ s : Axis.St T, Axis.Inv s → _ := fun s h => Axis.load_left h
    match k, h with
    | 0, h =>
      obtain ⟨_, _, l3, l4, _⟩ := key _ h.1
      exact ⟨Axis.load_inv h.1, l3.trans h.2.1, l4.trans h.2.2⟩
    | 1, h =>
      obtain ⟨_, _, l3, l4, _, l6, l7⟩ := key _ h.1
      exact ⟨Axis.load_inv h.1, l3.trans h.2.1, l4.trans h.2.2.1, fun x => l7.trans (h.2.2.2 (l6.symm.trans x))⟩
    | k + 2, h =>
      obtain ⟨_, _, l3, l4, l5, l6, l7⟩ := key _ h.inv
      exact ⟨Axis.load_inv h.inv, l3.trans h.pause, l4.trans h.full, l5.trans h.ready, fun x => l7.trans (h.sample (l6.symm.trans x))⟩
  edge k b b' v h hv hs := by
    cases v with
    | edge p =>
      simp only [axisGo, Bool.not_eq_true'] at hv
      subst hv
      cases hs
      match k, h with
      | 0, h =>
        obtain ⟨r1, r2, _, r4⟩ := Axis.edge_ready h.1 h.2.1 h.2.2
        exact ⟨⟨(Axis.edge_ok h.1 false).1, r1, r2, r4⟩, fun x => by omega⟩
      | 1, h =>
        obtain ⟨_, _, r3, _⟩ := Axis.edge_ready h.1 h.2.1 h.2.2.1
        exact ⟨r3 h.2.2.2, fun x => by omega⟩
      | k + 2, h =>
        obtain ⟨_, _, r3, _⟩ := Axis.edge_ready h.inv h.pause h.full
        refine ⟨r3 h.sample, fun _ ha => ?_⟩
        simp only [axis, axisDid, ha, h.ready]
        by_cases hd : b.drive.isSome = true <;> cases b.valid <;> simp [hd]
    | give a => cases hv
    | load => cases hv
    | setPause x => cases hv
    | queued x => cases hv
    | recv x => cases hv

/-- `Stream.work` as the measure. -/
theorem work_put (len : F → Nat) (c : Option (F × Nat)) (q : List F) (f : F) : Stream.work len c (q ++ [f]) = Stream.work len c q + (len f + 1) := by
  simp only [Stream.work, List.map_append, List.sum_append, List.map_cons, List.map_nil, List.sum_cons, List.sum_nil]
  omega

theorem pend_put (c : Option (F × Nat)) (q : List F) (f : F) : Stream.pend c (q ++ [f]) = Stream.pend c q ++ [f] := by simp [Stream.pend]

def S10Left (b : S10.Bus) (n : Nat) (c : Option S10.Cur) (q : List S10Frame) : Prop :=
  ∃ c0, c = c0.map S10.toCur ∧ Stream.Mid S10.len c0 ∧ (∀ f ∈ Stream.pend c0 q, S10Ok f ∧ s10FuncFits b f) ∧ Stream.work S10.len c0 q ≤ n

theorem s10_live (b : S10.Bus) (hl : 0 < b.lanes) (hs : 0 < b.segs) : Live (s10 b) (fun f => S10Ok f ∧ s10FuncFits b f) (S10Left b) where
  init := ⟨none, rfl, (by intro f off h; cases h), by simp [Stream.pend], by simp [Stream.work]⟩
  put n c q f h hf := by
    obtain ⟨c0, h1, h2, h3, h4⟩ := h
    refine ⟨c0, h1, h2, ?_, ?_⟩
    · rw [pend_put]
      intro g hg
      rcases List.mem_append.mp hg with hg | hg
      · exact h3 g hg
      · rw [List.mem_singleton.mp hg]; exact hf
    · rw [work_put]
      have : (s10 b).size f = S10.len f := rfl
      omega
  beat n c q c' q' t h hne hb := by
    obtain ⟨c0, rfl, h2, h3, h4⟩ := h
    have hi : ¬ (c0 = none ∧ q = []) := by
      rintro ⟨rfl, rfl⟩
      rcases hne with x | x <;> exact x rfl
    obtain ⟨k, hk⟩ : ∃ k : S10.Snk, S10.Rel b k c0 := by
      cases c0 with
      | none => exact ⟨{}, rfl⟩
      | some c => exact ⟨_, rfl⟩
    obtain ⟨t1, t', k1, o1, b1, b2, b3, b4, b5, b6⟩ := S10.beat_ok hl h2 h3 hk
    simp only [s10, b1, b2] at hb
    cases hb
    have hlt := Stream.work_plan (n := b.segs) hl h2 hs hi
    exact ⟨_, Nat.lt_of_lt_of_le hlt h4, _, rfl, b5, fun f hf => h3 f (by rw [← b6]; exact List.mem_append_right _ hf), Nat.le_refl _⟩

def PTileLeft (n : Nat) (c : Option PTile.Cur) (q : List PTileFrame) : Prop :=
  ∃ c0, c = c0.map PTile.toCur ∧ Stream.Mid PTile.len c0 ∧ (∀ f ∈ Stream.pend c0 q, PTileOk f) ∧ Stream.work PTile.len c0 q ≤ n

theorem ptile_live (b : PTile.Bus) (hl : 0 < b.lanes) (hs : 0 < b.segs) : Live (ptile b) PTileOk PTileLeft where
  init := ⟨none, rfl, (by intro f off h; cases h), by simp [Stream.pend], by simp [Stream.work]⟩
  put n c q f h hf := by
    obtain ⟨c0, h1, h2, h3, h4⟩ := h
    refine ⟨c0, h1, h2, ?_, ?_⟩
    · rw [pend_put]
      intro g hg
      rcases List.mem_append.mp hg with hg | hg
      · exact h3 g hg
      · rw [List.mem_singleton.mp hg]; exact hf
    · rw [work_put]
      have : (ptile b).size f = PTile.len f := rfl
      omega
  beat n c q c' q' t h hne hb := by
    obtain ⟨c0, rfl, h2, h3, h4⟩ := h
    have hi : ¬ (c0 = none ∧ q = []) := by
      rintro ⟨rfl, rfl⟩
      rcases hne with x | x <;> exact x rfl
    obtain ⟨k, hk⟩ : ∃ k : PTile.Snk, PTile.Rel b k c0 := by
      cases c0 with
      | none => exact ⟨{}, rfl⟩
      | some c => exact ⟨_, rfl⟩
    obtain ⟨t1, t', k1, o1, b1, b2, b3, b4, b5, b6⟩ := PTile.beat_ok hl h2 h3 hk
    simp only [ptile, b1, b2] at hb
    cases hb
    have hlt := Stream.work_plan (n := b.segs) hl h2 hs hi
    exact ⟨_, Nat.lt_of_lt_of_le hlt h4, _, rfl, b5, fun f hf => h3 f (by rw [← b6]; exact List.mem_append_right _ hf), Nat.le_refl _⟩

def UsLeft (b : Us.Bus) (n : Nat) (c : Option Us.Cur) (q : List UsFrame) : Prop :=
  ∃ c0, c = c0.map Us.toCur ∧ Stream.Mid Us.len c0 ∧ (∀ f ∈ Stream.pend c0 q, UsOk b.kind f) ∧ Stream.work Us.len c0 q ≤ n

theorem us_live (b : Us.Bus) (h : UsBus b) : Live (us b) (UsOk b.kind) (UsLeft b) where
  init := ⟨none, rfl, (by intro f off h; cases h), by simp [Stream.pend], by simp [Stream.work]⟩
  put n c q f h hf := by
    obtain ⟨c0, h1, h2, h3, h4⟩ := h
    refine ⟨c0, h1, h2, ?_, ?_⟩
    · rw [pend_put]
      intro g hg
      rcases List.mem_append.mp hg with hg | hg
      · exact h3 g hg
      · rw [List.mem_singleton.mp hg]; exact hf
    · rw [work_put]
      have : (us b).size f = Us.len f := rfl
      omega
  beat n c q c' q' t hI hne hb := by
    obtain ⟨c0, rfl, h2, h3, h4⟩ := hI
    have hi : ¬ (c0 = none ∧ q = []) := by
      rintro ⟨rfl, rfl⟩
      rcases hne with x | x <;> exact x rfl
    obtain ⟨hs, hl, _⟩ := Us.table_lanes h
    obtain ⟨k, hk⟩ : ∃ k : Us.Snk, Us.Rel b True k.frame c0 := by
      cases c0 with
      | none => exact ⟨⟨none⟩, .inl rfl⟩
      | some c => exact ⟨⟨some (Us.part b c.1 c.2 true)⟩, true, rfl, fun _ => rfl, fun _ => .inr trivial⟩
    obtain ⟨a, k1, f1, o1, b1, b2, b3, b4, b5, b6, b7⟩ := Us.beat_ok h h2 hi h3 (fun _ _ _ _ => trivial) hk
    simp only [us, b1, b2] at hb
    cases hb
    have hlt := Stream.work_plan (n := b.segs) hl h2 hs hi
    exact ⟨_, Nat.lt_of_lt_of_le hlt h4, _, rfl, b6, fun f hf => h3 f (by rw [← b7]; exact List.mem_append_right _ hf), Nat.le_refl _⟩

end Sq
end Pcie
