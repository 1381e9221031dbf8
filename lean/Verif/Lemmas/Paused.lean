/- Sinks that are paused. -/
import Verif.Lemmas.Handshake
namespace Pcie
open Spec

namespace Hs

/-- `ready` is off and so are the last `k` samples of it in the sink. -/
def Cold {α} (latency k : Nat) (s : St α) : Prop :=
  s.ready = false ∧ ∀ x ∈ (norm latency s.snkDelay).drop (latency - k), x = false

theorem cold_delay {α} {latency k : Nat} {s : St α} (h : Cold latency k s) (hk : latency ≤ k) : (delay latency s.snkDelay s.ready).1 = false := by
  rcases Nat.eq_zero_or_pos latency with h1 | h1
  · simp [delay, h1, h.1]
  obtain ⟨x, l, e1, e2, e3⟩ := delay_pos h1 s.snkDelay s.ready
  rw [e2]
  have h2 := h.2
  rw [show latency - k = 0 by omega, List.drop_zero] at h2
  have : x ∈ norm latency s.snkDelay ++ [s.ready] := by rw [e1]; simp
  rcases List.mem_append.mp this with hx | hx
  · exact h2 x hx
  · rw [List.mem_singleton.mp hx]; exact h.1

theorem cold_next {α} {latency k : Nat} {s s' : St α} (h : Cold latency k s) (h1 : s'.ready = false)
    (h2 : s'.snkDelay = (delay latency s.snkDelay s.ready).2) : Cold latency (k + 1) s' := by
  refine ⟨h1, ?_⟩
  rcases Nat.eq_zero_or_pos latency with h0 | h0
  · rw [h0]
    intro x hx
    have := List.mem_of_mem_drop hx
    rw [List.eq_nil_of_length_eq_zero (norm_length 0 _)] at this
    cases this
  obtain ⟨y, l, e1, e2, e3⟩ := delay_pos h0 s.snkDelay s.ready
  rw [h2, e2]
  simp only [e3]
  intro x hx
  have hl : l = (norm latency s.snkDelay ++ [s.ready]).tail := by rw [e1]; rfl
  have hn := norm_length latency s.snkDelay
  by_cases hk : k < latency
  · rw [hl, ← List.drop_one, List.drop_drop, List.drop_append] at hx
    rcases List.mem_append.mp hx with hx | hx
    · apply h.2 x
      rwa [show latency - k = 1 + (latency - (k + 1)) by omega]
    · have := List.mem_of_mem_drop hx
      rw [List.mem_singleton.mp this]; exact h.1
  · have : x ∈ norm latency s.snkDelay ++ [s.ready] := by
      rw [e1]; exact List.mem_cons_of_mem _ (List.mem_of_mem_drop hx)
    rcases List.mem_append.mp this with hx | hx
    · apply h.2 x
      rwa [show latency - k = 0 by omega, List.drop_zero]
    · rw [List.mem_singleton.mp hx]; exact h.1

theorem cold_zero {α} {latency : Nat} {s : St α} (h : s.ready = false) : Cold latency 0 s := by
  refine ⟨h, ?_⟩
  rw [Nat.sub_zero, List.drop_of_length_le (Nat.le_of_eq (norm_length _ _))]
  intro x hx
  cases hx

theorem source_same {α} (latency : Nat) (nz : α → Bool) (p : Bool) (s : St α) :
    (s.source latency nz p).got = s.got := by
  unfold St.source
  simp only
  split
  · split
    · split <;> rfl
    · rfl
  · rfl

/-- A clock edge at which the sink is paused. -/
theorem paused_edge {α} {latency : Nat} {nz : α → Bool} {s s' : St α} {p : Bool} (h : s.step latency nz (.edge p true) = .ok s') :
    s'.ready = false ∧ s'.snkDelay = (delay latency s.snkDelay s.ready).2 ∧ ((delay latency s.snkDelay s.ready).1 = false → s'.got = s.got) := by
  simp only [St.step, St.sink] at h
  split at h
  · rename_i hc
    cases h
    refine ⟨rfl, rfl, fun hd => ?_⟩
    rw [hd] at hc
    simp at hc
  · split at h
    · cases h
    · cases h
      exact ⟨rfl, rfl, fun _ => source_same latency nz p s⟩

theorem cold_step {α} {latency k : Nat} {nz : α → Bool} {s s' : St α} (hc : Cold latency k s) {e : Ev α} (hp : ∀ p q, e = .edge p q → q = true)
    (h : s.step latency nz e = .ok s') : Cold latency k s' ∧ (hsEdges [e] = 1 → Cold latency (k + 1) s') ∧ (latency ≤ k → s'.got = s.got) := by
  cases e with
  | give a => cases h; exact ⟨hc, by simp [hsEdges], fun _ => rfl⟩
  | load =>
    cases h
    have : s.load.ready = s.ready ∧ s.load.snkDelay = s.snkDelay ∧ s.load.got = s.got := by
      unfold St.load; split <;> exact ⟨rfl, rfl, rfl⟩
    refine ⟨?_, by simp [hsEdges], fun _ => this.2.2⟩
    unfold Cold; rw [this.1, this.2.1]; exact hc
  | edge p q =>
    cases hp p q rfl
    obtain ⟨h1, h2, h3⟩ := paused_edge h
    have hn := cold_next hc h1 h2
    refine ⟨⟨hn.1, fun x hx => hn.2 x ?_⟩, fun _ => hn, fun hk => h3 (cold_delay hc hk)⟩
    have : latency - k = (latency - k - (latency - (k + 1))) + (latency - (k + 1)) := by omega
    rw [this, Nat.add_comm, ← List.drop_drop] at hx
    exact List.mem_of_mem_drop hx

theorem edges_cons {α} (e : Ev α) (es : List (Ev α)) : hsEdges (e :: es) = hsEdges [e] + hsEdges es := by
  cases e <;> simp [hsEdges, Nat.add_comm]

theorem cold_run {α} {latency : Nat} {nz : α → Bool} : ∀ (es : List (Ev α)) {k : Nat} {s s' : St α}, Cold latency k s → hsPaused es →
    s.run latency nz es = .ok s' → Cold latency (k + hsEdges es) s' ∧ (latency ≤ k → s'.got = s.got)
  | [], k, s, s', hc, _, h => by cases h; exact ⟨hc, fun _ => rfl⟩
  | e :: es, k, s, s', hc, hp, h => by
    rw [St.run] at h
    cases hs : s.step latency nz e with
    | error x => rw [hs] at h; cases h
    | ok s1 =>
      rw [hs] at h
      obtain ⟨c1, c2, c3⟩ := cold_step hc (fun p q hq => hp p q (hq ▸ List.mem_cons_self)) hs
      have hp' : hsPaused es := fun p q hq => hp p q (List.mem_cons_of_mem _ hq)
      rw [edges_cons]
      have h01 : hsEdges [e] = 0 ∨ hsEdges [e] = 1 := by cases e <;> simp [hsEdges]
      rcases h01 with h0 | h1
      · obtain ⟨d1, d2⟩ := cold_run es c1 hp' h
        rw [h0, Nat.zero_add]
        exact ⟨d1, fun hk => (d2 hk).trans (c3 hk)⟩
      · obtain ⟨d1, d2⟩ := cold_run es (c2 h1) hp' h
        rw [h1]
        exact ⟨by rwa [← Nat.add_assoc], fun hk => (d2 (by omega)).trans (c3 hk)⟩

theorem cold_start {α} {latency : Nat} {nz : α → Bool} : ∀ (es : List (Ev α)) {s s' : St α}, hsPaused es →
    s.run latency nz es = .ok s' → latency + 1 ≤ hsEdges es → Cold latency latency s'
  | [], s, s', _, _, hk => by simp [hsEdges] at hk
  | e :: es, s, s', hp, h, hk => by
    rw [St.run] at h
    have hp' : hsPaused es := fun p q hq => hp p q (List.mem_cons_of_mem _ hq)
    cases hs : s.step latency nz e with
    | error x => rw [hs] at h; cases h
    | ok s1 =>
      rw [hs] at h
      cases e with
      | give a => exact cold_start es hp' h (by simpa [hsEdges] using hk)
      | load => exact cold_start es hp' h (by simpa [hsEdges] using hk)
      | edge p q =>
        cases hp p q List.mem_cons_self
        have hc := (cold_run es (cold_zero (latency := latency) (paused_edge hs).1) hp' h).1
        have he : latency ≤ hsEdges es := by rw [edges_cons] at hk; simp [hsEdges] at hk ⊢; omega
        refine ⟨hc.1, ?_⟩
        have := hc.2
        rwa [show latency - (0 + hsEdges es) = latency - latency by omega] at this

end Hs

namespace Axis

theorem pause_eq {α} (es : List (Ev α)) : (St.run {} es).pause = axisPaused es ∧ (St.run {} es).full = axisFull es := by
  have hw : ∀ s : St α, s.wake.pause = s.pause ∧ s.wake.full = s.full := fun s => by
    unfold St.wake; split <;> exact ⟨rfl, rfl⟩
  have key : ∀ (es : List (Ev α)) (s : St α), (s.run es).pause = es.foldl (fun b e => match e with | .setPause v => v | _ => b) s.pause ∧
      (s.run es).full = es.foldl (fun b e => match e with | .queued f => b || f | .recv f => b && f | _ => b) s.full := by
    intro es
    induction es with
    | nil => intro s; exact ⟨rfl, rfl⟩
    | cons e es ih =>
      intro s
      have hs : (s.step e).pause = (match e with | .setPause v => v | _ => s.pause) ∧
          (s.step e).full = (match e with | .queued f => s.full || f | .recv f => s.full && f | _ => s.full) := by
        cases e with
        | give a => exact ⟨rfl, rfl⟩
        | load => simp only [St.step, St.load]; split <;> exact ⟨rfl, rfl⟩
        | setPause v =>
          simp only [St.step]
          split
          · exact hw _
          · rename_i h; exact ⟨by simpa using h, rfl⟩
        | queued f => exact ⟨rfl, rfl⟩
        | recv f => exact hw _
        | edge p =>
          have h1 : (s.source p).pause = s.pause ∧ (s.source p).full = s.full := by
            unfold St.source; split
            · exact ⟨rfl, rfl⟩
            split
            · split
              · split <;> exact ⟨rfl, rfl⟩
              · exact ⟨rfl, rfl⟩
            · exact ⟨rfl, rfl⟩
          have h2 : (s.sink (s.source p)).pause = s.pause ∧ (s.sink (s.source p)).full = s.full := by
            unfold St.sink
            split
            · exact h1
            · simp only
              split <;> split <;> exact h1
          show (s.monitor (s.sink (s.source p))).pause = s.pause ∧ (s.monitor (s.sink (s.source p))).full = s.full
          unfold St.monitor
          split
          · rw [(hw _).1, (hw _).2]; exact h2
          · exact h2
      have := ih (s.step e)
      rw [hs.1, hs.2] at this
      exact this
  exact key es {}

/-- While the sink sleeps it has seen the value of `pause`. -/
structure Seen {α} (s : St α) : Prop where
  sample : s.snkAsleep = true → s.pauseSample = s.pause
  off : s.snkAsleep = true → s.pause = true → s.ready = false

/-- The sink is paused and has seen it. -/
structure Stop {α} (s : St α) : Prop extends Seen s where
  pause : s.pause = true
  seen : s.pauseSample = true

theorem seen_step {α} {s : St α} (h : Seen s) (e : Ev α) : Seen (s.step e) := by
  obtain ⟨todo, drive, valid, bus, ready, sa, ka, pause, ps, full, got⟩ := s
  obtain ⟨h1, h2⟩ := h
  simp only at h1 h2
  cases e with
  | give a => exact ⟨h1, h2⟩
  | load => cases drive <;> cases todo <;> exact ⟨h1, h2⟩
  | setPause v => cases v <;> cases pause <;> cases ka <;> constructor <;> simp_all [St.step, St.wake]
  | queued f => exact ⟨h1, h2⟩
  | recv f => cases ka <;> constructor <;> simp_all [St.step, St.wake]
  | edge p =>
    cases hv : valid <;> cases hr : ready <;> cases hsa : sa <;> cases hka : ka <;> cases hd : drive <;> subst hv hr hsa hka hd <;>
      simp at h1 h2 <;>
      cases hp : p <;> cases hps : ps <;> cases hf : full <;> cases hpa : pause <;> subst hp hps hf hpa <;>
      simp_all [St.step, St.sink, St.source, St.monitor, St.wake] <;> constructor <;> simp_all

theorem seen_run {α} : ∀ (es : List (Ev α)) {s : St α}, Seen s → Seen (s.run es)
  | [], _, h => h
  | e :: es, _, h => seen_run es (seen_step h e)

theorem stop_edge {α} {s : St α} (h : Seen s) (hp : s.pause = true) (p : Bool) :
    Stop (s.step (.edge p)) ∧ (s.pauseSample = true → (s.step (.edge p)).ready = false) ∧ (s.ready = false → (s.step (.edge p)).got = s.got) := by
  obtain ⟨todo, drive, valid, bus, ready, sa, ka, pause, ps, full, got⟩ := s
  have h3 := seen_step h (.edge p)
  obtain ⟨h1, h2⟩ := h
  simp only at h1 h2 hp
  subst hp
  refine ⟨⟨h3, ?_, ?_⟩, ?_⟩ <;> clear h3 <;>
    cases hv : valid <;> cases hr : ready <;> cases hsa : sa <;> cases hka : ka <;> cases hd : drive <;> subst hv hr hsa hka hd <;>
      simp at h1 h2 <;>
      cases hp : p <;> cases hps : ps <;> cases hf : full <;> subst hp hps hf <;>
      simp_all [St.step, St.sink, St.source, St.monitor, St.wake]

/-- Nothing else changes that while the sink is paused. -/
theorem stop_step {α} {s : St α} (h : Stop s) {e : Ev α} (he : e ≠ .setPause false) :
    Stop (s.step e) ∧ (s.ready = false → (s.step e).ready = false ∧ (s.step e).got = s.got) ∧ (axisEdges [e] = 1 → (s.step e).ready = false) := by
  have hs := seen_step h.toSeen e
  have hw : ∀ s : St α, s.wake.ready = s.ready ∧ s.wake.got = s.got ∧ s.wake.pause = s.pause ∧ (s.pause = true → s.pauseSample = true → s.wake.pauseSample = true) := fun s => by
    unfold St.wake; split
    · exact ⟨rfl, rfl, rfl, fun h _ => h⟩
    · exact ⟨rfl, rfl, rfl, fun _ h => h⟩
  cases e with
  | give a => exact ⟨⟨hs, h.pause, h.seen⟩, fun hr => ⟨hr, rfl⟩, by simp [axisEdges]⟩
  | load =>
    have : s.load.ready = s.ready ∧ s.load.got = s.got ∧ s.load.pause = s.pause ∧ s.load.pauseSample = s.pauseSample := by
      unfold St.load; split <;> exact ⟨rfl, rfl, rfl, rfl⟩
    exact ⟨⟨hs, this.2.2.1.trans h.pause, this.2.2.2.trans h.seen⟩, fun hr => ⟨this.1.trans hr, this.2.1⟩, by simp [axisEdges]⟩
  | setPause v =>
    cases v with
    | false => exact (he rfl).elim
    | true =>
      have : s.step (.setPause true) = s := if_neg (by simp [h.pause])
      rw [this]
      exact ⟨h, fun hr => ⟨hr, rfl⟩, by simp [axisEdges]⟩
  | queued f => exact ⟨⟨hs, h.pause, h.seen⟩, fun hr => ⟨hr, rfl⟩, by simp [axisEdges]⟩
  | recv f =>
    obtain ⟨w1, w2, w3, w4⟩ := hw { s with full := s.full && f }
    exact ⟨⟨hs, w3.trans h.pause, w4 h.pause h.seen⟩, fun hr => ⟨w1.trans hr, w2⟩, by simp [axisEdges]⟩
  | edge p =>
    obtain ⟨e1, e2, e3⟩ := stop_edge h.toSeen h.pause p
    exact ⟨e1, fun hr => ⟨e2 h.seen, e3 hr⟩, fun _ => e2 h.seen⟩

theorem axis_edges_cons {α} (e : Ev α) (es : List (Ev α)) : axisEdges (e :: es) = axisEdges [e] + axisEdges es := by
  cases e <;> simp [axisEdges, Nat.add_comm]

theorem stop_run {α} : ∀ (es : List (Ev α)) {s : St α}, Stop s → (.setPause false : Ev α) ∉ es →
    Stop (s.run es) ∧ (s.ready = false → (s.run es).ready = false ∧ (s.run es).got = s.got) ∧ (1 ≤ axisEdges es → (s.run es).ready = false)
  | [], s, h, _ => ⟨h, fun hr => ⟨hr, rfl⟩, by simp [axisEdges]⟩
  | e :: es, s, h, hn => by
    obtain ⟨a1, a2, a3⟩ := stop_step h (fun he => hn (he ▸ List.mem_cons_self))
    obtain ⟨b1, b2, b3⟩ := stop_run es a1 (fun he => hn (List.mem_cons_of_mem _ he))
    refine ⟨b1, fun hr => ⟨(b2 (a2 hr).1).1, ((b2 (a2 hr).1).2).trans (a2 hr).2⟩, fun hk => ?_⟩
    rw [axis_edges_cons] at hk
    by_cases h1 : axisEdges [e] = 1
    · exact (b2 (a3 h1)).1
    · have : axisEdges [e] = 0 ∨ axisEdges [e] = 1 := by cases e <;> simp [axisEdges]
      exact b3 (by omega)

theorem stop_start {α} : ∀ (es : List (Ev α)) {s : St α}, Seen s → s.pause = true → (.setPause false : Ev α) ∉ es → 2 ≤ axisEdges es →
    Stop (s.run es) ∧ (s.run es).ready = false
  | [], s, _, _, _, hk => by simp [axisEdges] at hk
  | e :: es, s, h, hp, hn, hk => by
    have hn' : (.setPause false : Ev α) ∉ es := fun he => hn (List.mem_cons_of_mem _ he)
    rw [axis_edges_cons] at hk
    have hs := seen_step h e
    have hnext : (s.step e).pause = true → axisEdges [e] = 0 → Stop (s.run (e :: es)) ∧ (s.run (e :: es)).ready = false := fun h1 h2 =>
      stop_start es hs h1 hn' (by omega)
    cases e with
    | give a => exact hnext hp (by simp [axisEdges])
    | load => exact hnext (by simp only [St.step, St.load]; split <;> exact hp) (by simp [axisEdges])
    | setPause v =>
      cases v with
      | false => exact (hn List.mem_cons_self).elim
      | true => exact hnext (by rw [show s.step (.setPause true) = s from if_neg (by simp [hp])]; exact hp) (by simp [axisEdges])
    | queued f => exact hnext hp (by simp [axisEdges])
    | recv f => exact hnext (by simp only [St.step, St.wake]; split <;> exact hp) (by simp [axisEdges])
    | edge p =>
      obtain ⟨r1, -, r3⟩ := stop_run es (stop_edge h hp p).1 hn'
      have h1 : axisEdges [(.edge p : Ev α)] = 1 := by simp [axisEdges]
      exact ⟨r1, r3 (by omega)⟩

end Axis
end Pcie
