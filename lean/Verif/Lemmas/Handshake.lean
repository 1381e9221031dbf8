import Verif.Spec.Handshake
import Mathlib.Tactic.ByContra
/-
Lemmas about the handshakes.
-/
namespace Pcie
open Spec
namespace Hs

/-- The delay line as it is used. -/
def norm (n : Nat) (d : List Bool) : List Bool := if d.length ≠ n then List.replicate n false else d

theorem norm_length (n : Nat) (d : List Bool) : (norm n d).length = n := by
  rw [norm]; split
  · simp
  · rename_i h; simpa using h

theorem delay_pos {n : Nat} (h : 0 < n) (d : List Bool) (r : Bool) :
    ∃ x l, norm n d ++ [r] = x :: l ∧ delay n d r = (x, l) ∧ norm n l = l := by
  have hl := norm_length n d
  cases hd : norm n d with
  | nil => rw [hd] at hl; simp at hl; omega
  | cons x l =>
    refine ⟨x, l ++ [r], rfl, ?_, ?_⟩
    · rw [norm] at hd
      simp only [delay, if_pos h, hd]
      rfl
    · rw [hd] at hl
      rw [norm, if_neg (by simp at hl ⊢; omega)]

/-- With a ready latency, the delay line of the sink is one longer than that of the source, and when `valid` is set
the next sample that the sink uses is set. -/
structure Inv {α} (latency : Nat) (s : St α) : Prop where
  bus : s.valid = true → s.bus.isSome = true
  line : 0 < latency → ∃ x, norm latency s.snkDelay = x :: norm (latency - 1) s.srcDelay ∧ (s.valid = true → x = true)

theorem edge_ok {α} {latency : Nat} {nz : α → Bool} {s : St α} (h : Inv latency s) (p q : Bool) (hz : ∀ a ∈ s.drive, nz a = true) :
    ∃ s', s.step latency nz (.edge p q) = .ok s' ∧ Inv latency s' ∧ s'.got ++ hsWay s' = s.got ++ hsWay s ∧
      s'.todo = s.todo ∧ (s'.drive = s.drive ∨ s'.drive = none) ∧ s'.ready = !q ∧
      s'.snkDelay = (delay latency s.snkDelay s.ready).2 ∧ s'.srcDelay = (delay (latency - 1) s.srcDelay s.ready).2 ∧
      (p = false → (s.ready = true ∧ latency = 0 ∨ 0 < latency ∧ (delay (latency - 1) s.srcDelay s.ready).1 = true) →
        s'.drive = none ∧ (s.drive = none → s'.valid = false)) := by
  obtain ⟨todo, drive, valid, bus, ready, sd, kd, got⟩ := s
  obtain ⟨hb, hline⟩ := h
  simp only at hb hline hz
  rcases Nat.eq_zero_or_pos latency with h0 | h0
  · subst h0
    cases hv : valid <;> cases hr : ready <;> cases hd : drive <;> cases hp : p <;> subst hv hr hd hp <;>
      simp_all [St.step, St.sink, St.source, delay, hsWay] <;> constructor <;> simp_all
  · obtain ⟨x, hx, hvx⟩ := hline h0
    obtain ⟨y, l, e1, e2, e3⟩ := delay_pos h0 kd ready
    rw [hx] at e1
    have ey : y = x := by simp at e1; exact e1.1.symm
    subst ey
    have el : norm (latency - 1) sd ++ [ready] = l := by simpa using e1
    have src : ∃ z r, delay (latency - 1) sd ready = (z, r) ∧ l = z :: norm (latency - 1) r := by
      rcases Nat.eq_zero_or_pos (latency - 1) with h1 | h1
      · refine ⟨ready, sd, by simp [delay, h1], ?_⟩
        have := norm_length (latency - 1) sd
        rw [h1] at this
        rw [← el]
        rw [h1] at *
        have hn : ∀ d, norm 0 d = [] := fun d => List.eq_nil_of_length_eq_zero (norm_length 0 d)
        simp [hn]
      · obtain ⟨z, r, f1, f2, f3⟩ := delay_pos h1 sd ready
        exact ⟨z, r, f2, by rw [f3, ← el, f1]⟩
    obtain ⟨z, r, f1, f2⟩ := src
    have hl1 : ¬ latency = 0 := by omega
    have key : ∀ v' : Bool, (v' = true → z = true) → 0 < latency →
        ∃ x, norm latency l = x :: norm (latency - 1) r ∧ (v' = true → x = true) := by
      intro v' hv' _
      exact ⟨z, by rw [e3, f2], hv'⟩
    cases hv : valid <;> cases hd : drive <;> cases hp : p <;> cases hzz : z <;> subst hv hd hp hzz <;>
      simp_all [St.step, St.sink, St.source, hsWay] <;> constructor <;> simp_all

theorem load_way {α} (s : St α) : hsWay s.load = hsWay s ∧ s.load.got = s.got := by
  obtain ⟨todo, drive, valid, bus, ready, sd, kd, got⟩ := s
  cases drive <;> cases todo <;> exact ⟨by simp [St.load, hsWay] <;> rfl, rfl⟩

theorem load_inv {α} {latency : Nat} {s : St α} (h : Inv latency s) : Inv latency s.load := by
  obtain ⟨todo, drive, valid, bus, ready, sd, kd, got⟩ := s
  obtain ⟨h1, h2⟩ := h
  cases drive <;> cases todo <;> exact ⟨h1, h2⟩

/-- What is held has some bit of `valid` set. -/
def Nz {α} (nz : α → Bool) (s : St α) : Prop := ∀ a ∈ s.drive.toList ++ s.todo, nz a = true

theorem step_ok {α} {latency : Nat} {nz : α → Bool} {s : St α} (h : Inv latency s) (hz : Nz nz s) (e : Ev α)
    (he : ∀ a, e = .give a → nz a = true) :
    ∃ s', s.step latency nz e = .ok s' ∧ Inv latency s' ∧ Nz nz s' ∧ s'.got ++ hsWay s' = s.got ++ hsWay s ++ hsGiven [e] := by
  cases e with
  | give a =>
    refine ⟨_, rfl, ⟨h.bus, h.line⟩, ?_, by simp [hsWay, hsGiven]⟩
    intro x hx
    simp only [← List.append_assoc, List.mem_append, List.mem_singleton] at hx
    rcases hx with hx | rfl
    · exact hz x (List.mem_append.mpr hx)
    · exact he _ rfl
  | load =>
    refine ⟨_, rfl, load_inv h, ?_, by rw [(load_way s).1, (load_way s).2]; simp [hsGiven]⟩
    intro x hx
    apply hz x
    obtain ⟨todo, drive, valid, bus, ready, sd, kd, got⟩ := s
    cases drive <;> cases todo <;> simpa [St.load] using hx
  | edge p q =>
    obtain ⟨s', h1, h2, h3, h4, h5, _⟩ := edge_ok (nz := nz) h p q (fun a ha => hz a (by simp [Option.mem_def.mp ha]))
    refine ⟨s', h1, h2, ?_, by rw [h3]; simp [hsGiven]⟩
    intro x hx
    apply hz x
    rw [h4] at hx
    rcases h5 with h5 | h5
    · rwa [h5] at hx
    · rw [h5] at hx; simp at hx; simp [hx]

theorem run_ok {α} {latency : Nat} {nz : α → Bool} : ∀ (es : List (Ev α)) (s : St α), Inv latency s → Nz nz s → (∀ a ∈ hsGiven es, nz a = true) →
    ∃ s', s.run latency nz es = .ok s' ∧ Inv latency s' ∧ Nz nz s' ∧ s'.got ++ hsWay s' = s.got ++ hsWay s ++ hsGiven es
  | [], s, h, hz, _ => ⟨s, rfl, h, hz, by simp [hsGiven]⟩
  | e :: es, s, h, hz, hg => by
    have hcons : hsGiven (e :: es) = hsGiven [e] ++ hsGiven es := by
      simp only [hsGiven, ← List.filterMap_append]; rfl
    rw [hcons] at hg ⊢
    obtain ⟨s1, a1, a2, a3, a4⟩ := step_ok h hz e (fun a ha => hg a (by subst ha; simp [hsGiven]))
    obtain ⟨s2, b1, b2, b3, b4⟩ := run_ok es s1 a2 a3 (fun a ha => hg a (List.mem_append_right _ ha))
    exact ⟨s2, by simp only [St.run, a1, b1], b2, b3, by rw [b4, a4, List.append_assoc]⟩

theorem run_append {α} {latency : Nat} {nz : α → Bool} : ∀ (e1 e2 : List (Ev α)) (s s1 : St α), s.run latency nz e1 = .ok s1 →
    s.run latency nz (e1 ++ e2) = s1.run latency nz e2
  | [], e2, s, s1, h => by cases h; rfl
  | e :: e1, e2, s, s1, h => by
    simp only [St.run, List.cons_append] at h ⊢
    split at h
    · cases h
    · rename_i s' hs
      exact run_append e1 e2 s' s1 h

theorem inv_zero {α} (latency : Nat) : Inv latency ({} : St α) := by
  refine ⟨by simp, fun h => ⟨false, ?_, by simp⟩⟩
  obtain ⟨n, rfl⟩ : ∃ n, latency = n + 1 := ⟨latency - 1, by omega⟩
  simp only [norm, Nat.add_sub_cancel]
  rw [if_pos (by simp)]
  cases n <;> rfl

/-- `ready` is set and so are the last `k` samples of it. -/
def Warm {α} (latency k : Nat) (s : St α) : Prop :=
  s.ready = true ∧ ∀ x ∈ (norm (latency - 1) s.srcDelay).drop (latency - 1 - k), x = true

/-- The number of steps that are left. -/
def left {α} (s : St α) : Nat := 2 * (s.drive.toList ++ s.todo).length + (if s.valid then 1 else 0)

theorem left_zero {α} {s : St α} (h : left s = 0) : hsWay s = [] := by
  simp only [left] at h
  have h1 : (s.drive.toList ++ s.todo).length = 0 := by omega
  have h2 : ¬ s.valid = true := by intro hv; simp [hv] at h
  have h3 := List.eq_nil_of_length_eq_zero h1
  simp only [hsWay, if_neg h2, List.nil_append]; exact h3

theorem warm_delay {α} {latency k : Nat} {s : St α} (h : Warm latency k s) (hk : latency ≤ k + 1) :
    s.ready = true ∧ latency = 0 ∨ 0 < latency ∧ (delay (latency - 1) s.srcDelay s.ready).1 = true := by
  rcases Nat.eq_zero_or_pos latency with h0 | h0
  · exact .inl ⟨h.1, h0⟩
  refine .inr ⟨h0, ?_⟩
  rcases Nat.eq_zero_or_pos (latency - 1) with h1 | h1
  · simp [delay, h1, h.1]
  obtain ⟨x, l, e1, e2, e3⟩ := delay_pos h1 s.srcDelay s.ready
  rw [e2]
  have h2 := h.2
  rw [show latency - 1 - k = 0 by omega, List.drop_zero] at h2
  have : x ∈ norm (latency - 1) s.srcDelay ++ [s.ready] := by rw [e1]; simp
  rcases List.mem_append.mp this with hx | hx
  · exact h2 x hx
  · rw [List.mem_singleton.mp hx]; exact h.1

theorem warm_next {α} {latency k : Nat} {s s' : St α} (h : Warm latency k s) (h1 : s'.ready = true)
    (h2 : s'.srcDelay = (delay (latency - 1) s.srcDelay s.ready).2) : Warm latency (k + 1) s' := by
  refine ⟨h1, ?_⟩
  rcases Nat.eq_zero_or_pos (latency - 1) with h0 | h0
  · rw [h0]
    intro x hx
    have := List.mem_of_mem_drop hx
    rw [List.eq_nil_of_length_eq_zero (norm_length 0 _)] at this
    cases this
  obtain ⟨y, l, e1, e2, e3⟩ := delay_pos h0 s.srcDelay s.ready
  rw [h2, e2]
  simp only [e3]
  intro x hx
  have hl : l = (norm (latency - 1) s.srcDelay ++ [s.ready]).tail := by rw [e1]; rfl
  have hn := norm_length (latency - 1) s.srcDelay
  by_cases hk : k < latency - 1
  · rw [hl, ← List.drop_one, List.drop_drop, List.drop_append] at hx
    rcases List.mem_append.mp hx with hx | hx
    · apply h.2 x
      rwa [show latency - 1 - k = 1 + (latency - 1 - (k + 1)) by omega]
    · have := List.mem_of_mem_drop hx
      rw [List.mem_singleton.mp this]; exact h.1
  · have : x ∈ norm (latency - 1) s.srcDelay ++ [s.ready] := by
      rw [e1]; exact List.mem_cons_of_mem _ (List.mem_of_mem_drop hx)
    rcases List.mem_append.mp this with hx | hx
    · apply h.2 x
      rwa [show latency - 1 - k = 0 by omega, List.drop_zero]
    · rw [List.mem_singleton.mp hx]; exact h.1

/-- The events of clock cycles without pauses. -/
def cycles {α} : Nat → List (Ev α)
  | 0 => []
  | n + 1 => .load :: .edge false false :: cycles n

theorem load_left {α} (s : St α) : left s.load = left s ∧ (s.load.drive = none → s.load.todo = []) ∧
    s.load.ready = s.ready ∧ s.load.srcDelay = s.srcDelay := by
  obtain ⟨todo, drive, valid, bus, ready, sd, kd, got⟩ := s
  cases drive <;> cases todo <;> exact ⟨by simp [St.load, left] <;> rfl, by simp [St.load], rfl, rfl⟩

theorem cycle_ok {α} {latency k : Nat} {nz : α → Bool} {s : St α} (h : Inv latency s) (hz : Nz nz s) :
    ∃ s', St.run latency nz s [.load, .edge false false] = .ok s' ∧ Inv latency s' ∧ Nz nz s' ∧ s'.ready = true ∧
      (Warm latency k s → Warm latency (k + 1) s' ∧ (latency ≤ k + 1 → left s' ≤ left s - 1)) := by
  have hl := load_left s
  obtain ⟨s1, a1, a2, a3, _⟩ := step_ok h hz .load (by intro a ha; cases ha)
  have es : s1 = s.load := (Except.ok.inj a1).symm
  obtain ⟨s2, b1, b2, b3, b4, b5, b6, _, b8, b9⟩ := edge_ok (nz := nz) a2 false false (fun a ha => a3 a (by simp [Option.mem_def.mp ha]))
  obtain ⟨s2', c1, _, c3, _⟩ := step_ok a2 a3 (.edge false false) (by intro a ha; cases ha)
  have : s2' = s2 := Except.ok.inj (c1.symm.trans b1)
  subst this
  refine ⟨s2', by simp only [St.run, a1, b1], b2, c3, b6, fun hw => ?_⟩
  rw [← es] at hl
  have hw1 : Warm latency k s1 := ⟨hl.2.2.1.trans hw.1, by rw [hl.2.2.2]; exact hw.2⟩
  refine ⟨warm_next hw1 b6 b8, fun hk => ?_⟩
  obtain ⟨d1, d2⟩ := b9 rfl (warm_delay hw1 hk)
  rw [← hl.1]
  cases hd : s1.drive with
  | none =>
    have := d2 hd
    simp only [left, d1, b4, hl.2.1 hd, this]
    simp
  | some a =>
    simp only [left, d1, b4, hd]
    simp
    split <;> omega

theorem cycles_ok {α} {latency : Nat} {nz : α → Bool} : ∀ (n k : Nat) (s : St α), Inv latency s → Nz nz s → Warm latency k s →
    ∃ s', St.run latency nz s (cycles n) = .ok s' ∧ Inv latency s' ∧ Nz nz s' ∧ Warm latency (k + n) s' ∧ (latency ≤ k + 1 → left s' ≤ left s - n)
  | 0, k, s, h, hz, hw => ⟨s, rfl, h, hz, hw, fun _ => by omega⟩
  | n + 1, k, s, h, hz, hw => by
    obtain ⟨s1, a1, a2, a3, a4, a5⟩ := cycle_ok (k := k) h hz
    obtain ⟨b1, b2⟩ := a5 hw
    obtain ⟨s2, c1, c2, c3, c4, c5⟩ := cycles_ok n (k + 1) s1 a2 a3 b1
    refine ⟨s2, ?_, c2, c3, by rwa [show k + (n + 1) = k + 1 + n by omega], fun hk => ?_⟩
    · have := run_append [.load, .edge false false] (cycles n) s s1 a1
      simp only [List.cons_append, List.nil_append] at this
      rw [cycles, this, c1]
    · have := b2 hk; have := c5 (by omega); omega

theorem cycles_append {α} (n m : Nat) : (cycles (n + m) : List (Ev α)) = cycles n ++ cycles m := by
  induction n with
  | zero => simp [cycles]
  | succ n ih => rw [show n + 1 + m = (n + m) + 1 by omega]; simp [cycles, ih]

theorem cycles_given {α} (n : Nat) : hsGiven (cycles n : List (Ev α)) = [] := by
  induction n with
  | zero => rfl
  | succ n ih => simpa [cycles, hsGiven] using ih

/-- Enough cycles without pauses deliver everything. -/
theorem drain {α} {latency : Nat} {nz : α → Bool} {s : St α} (h : Inv latency s) (hz : Nz nz s) :
    ∃ n s', St.run latency nz s (cycles n) = .ok s' ∧ hsWay s' = [] := by
  obtain ⟨s1, a1, a2, a3, a4, _⟩ := cycle_ok (k := 0) h hz
  have hw : Warm latency 0 s1 := ⟨a4, by
    rw [Nat.sub_zero, List.drop_of_length_le (by rw [norm_length]; exact Nat.le_refl _)]; simp⟩
  obtain ⟨s2, b1, b2, b3, b4, _⟩ := cycles_ok latency 0 s1 a2 a3 hw
  obtain ⟨s3, c1, _, _, _, c5⟩ := cycles_ok (left s2) (0 + latency) s2 b2 b3 b4
  refine ⟨1 + (latency + left s2), s3, ?_, left_zero (by have := c5 (by omega); omega)⟩
  rw [cycles_append, run_append (cycles 1) _ s s1 a1, cycles_append, run_append _ _ s1 s2 b1, c1]

end Hs

namespace Axis

/-- When a task sleeps, nothing is transferred; the sink sleeps with `tready` off only when it is paused or full. -/
structure Inv {α} (s : St α) : Prop where
  bus : s.valid = true → s.bus.isSome = true
  src : s.srcAsleep = true → s.drive = none ∧ s.valid = false
  snk : s.snkAsleep = true → s.ready = true → s.valid = false
  paused : s.snkAsleep = true → s.ready = false → s.pause = true ∨ s.full = true

theorem wake_inv {α} {s : St α} (h1 : s.valid = true → s.bus.isSome = true) (h2 : s.srcAsleep = true → s.drive = none ∧ s.valid = false) : Inv s.wake := by
  rw [St.wake]
  split
  · exact ⟨h1, h2, by simp, by simp⟩
  · rename_i h
    exact ⟨h1, h2, fun x => absurd x h, fun x => absurd x h⟩

theorem wake_way {α} (s : St α) : axisWay s.wake = axisWay s ∧ s.wake.got = s.got := by
  rw [St.wake]; split <;> exact ⟨rfl, rfl⟩

theorem edge_ok {α} {s : St α} (h : Inv s) (p : Bool) :
    Inv (s.step (.edge p)) ∧ (s.step (.edge p)).got ++ axisWay (s.step (.edge p)) = s.got ++ axisWay s := by
  obtain ⟨todo, drive, valid, bus, ready, sa, ka, pause, ps, full, got⟩ := s
  obtain ⟨h1, h2, h3, h4⟩ := h
  simp only at h1 h2 h3 h4
  cases hv : valid <;> cases hr : ready <;> cases hsa : sa <;> cases hka : ka <;> cases hd : drive <;> subst hv hr hsa hka hd <;>
    simp at h1 h2 h3 h4 <;>
    cases hp : p <;> cases hps : ps <;> cases hf : full <;> cases hpa : pause <;> subst hp hps hf hpa <;>
    simp_all [St.step, St.sink, St.source, St.monitor, St.wake, axisWay] <;> constructor <;> simp_all

theorem load_way {α} (s : St α) : axisWay s.load = axisWay s ∧ s.load.got = s.got := by
  obtain ⟨todo, drive, valid, bus, ready, sa, ka, pause, ps, full, got⟩ := s
  cases drive <;> cases todo <;> exact ⟨by simp [St.load, axisWay] <;> rfl, rfl⟩

theorem load_inv {α} {s : St α} (h : Inv s) : Inv s.load := by
  obtain ⟨todo, drive, valid, bus, ready, sa, ka, pause, ps, full, got⟩ := s
  obtain ⟨h1, h2, h3, h4⟩ := h
  cases drive <;> cases todo <;> first | exact ⟨h1, h2, h3, h4⟩ | exact ⟨h1, by simp [St.load], h3, h4⟩

theorem step_ok {α} {s : St α} (h : Inv s) (e : Ev α) :
    Inv (s.step e) ∧ (s.step e).got ++ axisWay (s.step e) = s.got ++ axisWay s ++ axisGiven [e] := by
  cases e with
  | give a => exact ⟨⟨h.bus, h.src, h.snk, h.paused⟩, by simp [St.step, axisWay, axisGiven] <;> rfl⟩
  | load => exact ⟨load_inv h, by simp only [St.step, (load_way s).1, (load_way s).2]; simp [axisGiven]⟩
  | edge p => exact ⟨(edge_ok h p).1, by rw [(edge_ok h p).2]; simp [axisGiven]⟩
  | setPause v =>
    simp only [St.step]
    split
    · refine ⟨wake_inv h.bus h.src, ?_⟩
      rw [(wake_way _).1, (wake_way _).2]; simp [axisGiven, axisWay]
    · exact ⟨h, by simp [axisGiven]⟩
  | queued f =>
    refine ⟨⟨h.bus, h.src, h.snk, fun h1 h2 => ?_⟩, by simp [St.step, axisWay, axisGiven] <;> rfl⟩
    rcases h.paused h1 h2 with hp | hf
    · exact .inl hp
    · right; simp [St.step, hf]
  | recv f =>
    refine ⟨wake_inv h.bus h.src, ?_⟩
    simp only [St.step]
    rw [(wake_way _).1, (wake_way _).2]; simp [axisGiven, axisWay]

theorem run_ok {α} : ∀ (es : List (Ev α)) (s : St α), Inv s →
    Inv (s.run es) ∧ (s.run es).got ++ axisWay (s.run es) = s.got ++ axisWay s ++ axisGiven es
  | [], s, h => ⟨h, by simp [axisGiven, St.run]⟩
  | e :: es, s, h => by
    have hcons : axisGiven (e :: es) = axisGiven [e] ++ axisGiven es := by
      simp only [axisGiven, ← List.filterMap_append]; rfl
    obtain ⟨a1, a2⟩ := step_ok h e
    obtain ⟨b1, b2⟩ := run_ok es (s.step e) a1
    exact ⟨b1, by rw [hcons, ← List.append_assoc, ← a2]; exact b2⟩

theorem inv_zero {α} : Inv ({} : St α) := ⟨by simp, by simp, by simp, by simp⟩

/-- The sink takes what comes. -/
structure Good {α} (s : St α) : Prop where
  inv : Inv s
  pause : s.pause = false
  full : s.full = false
  ready : s.ready = true
  sample : s.snkAsleep = false → s.pauseSample = false

def left {α} (s : St α) : Nat := 2 * (s.drive.toList ++ s.todo).length + (if s.valid then 1 else 0)

theorem left_zero {α} {s : St α} (h : left s = 0) : axisWay s = [] := by
  simp only [left] at h
  have h1 : (s.drive.toList ++ s.todo).length = 0 := by omega
  have h2 : ¬ s.valid = true := by intro hv; simp [hv] at h
  have h3 := List.eq_nil_of_length_eq_zero h1
  simp only [axisWay, if_neg h2, List.nil_append]; exact h3

def cycles {α} : Nat → List (Ev α)
  | 0 => []
  | n + 1 => .load :: .edge false :: cycles n

theorem load_left {α} {s : St α} (h : Inv s) : left s.load = left s ∧ (s.load.drive = none → s.load.todo = []) ∧
    s.load.pause = s.pause ∧ s.load.full = s.full ∧ s.load.ready = s.ready ∧ s.load.snkAsleep = s.snkAsleep ∧
    s.load.pauseSample = s.pauseSample := by
  obtain ⟨todo, drive, valid, bus, ready, sa, ka, pause, ps, full, got⟩ := s
  cases drive <;> cases todo <;> exact ⟨by simp [St.load, left] <;> rfl, by simp [St.load], rfl, rfl, rfl, rfl, rfl⟩

/-- Without pauses the sink gets ready in two cycles. -/
theorem edge_ready {α} {s : St α} (h : Inv s) (h1 : s.pause = false) (h2 : s.full = false) :
    (s.step (.edge false)).pause = false ∧ (s.step (.edge false)).full = false ∧
    ((s.snkAsleep = false → s.pauseSample = false) → Good (s.step (.edge false))) ∧
    ((s.step (.edge false)).snkAsleep = false → (s.step (.edge false)).pauseSample = false) := by
  have hi := (edge_ok h false).1
  refine ⟨?_, ?_, fun hp => ⟨hi, ?_, ?_, ?_, ?_⟩, ?_⟩ <;> clear hi <;>
  · obtain ⟨todo, drive, valid, bus, ready, sa, ka, pause, ps, full, got⟩ := s
    obtain ⟨i1, i2, i3, i4⟩ := h
    simp only at h1 h2 i1 i2 i3 i4
    subst h1 h2
    cases valid <;> cases ready <;> cases sa <;> cases ka <;> cases drive <;> cases ps <;>
      (try simp at i2) <;> (try simp at i3) <;> (try simp at i4) <;> (try simp at hp) <;> simp [St.step, St.sink, St.source, St.monitor, St.wake]

theorem edge_left {α} {s : St α} (h : Good s) (hd : s.drive = none → s.todo = []) : left (s.step (.edge false)) ≤ left s - 1 := by
  obtain ⟨⟨i1, i2, i3, i4⟩, h1, h2, h3, h4⟩ := h
  obtain ⟨todo, drive, valid, bus, ready, sa, ka, pause, ps, full, got⟩ := s
  simp only at h1 h2 h3 h4 i1 i2 i3 i4 hd
  subst h1 h2 h3
  cases valid <;> cases sa <;> cases ka <;> cases drive <;> cases ps <;>
      (try simp at i2) <;> (try simp at i3) <;> (try simp at i4) <;> (try simp at h4) <;> (try simp at hd) <;> (try subst hd) <;>
      simp [St.step, St.sink, St.source, St.monitor, St.wake, left] <;> omega

theorem cycles_good {α} : ∀ (n : Nat) (s : St α), Good s → Good (s.run (cycles n)) ∧ left (s.run (cycles n)) ≤ left s - n
  | 0, s, h => ⟨h, by simp [cycles, St.run]⟩
  | n + 1, s, h => by
    obtain ⟨l1, l2, l3, l4, l5, l6, l7⟩ := load_left h.inv
    have hl : Good s.load := ⟨load_inv h.inv, l3.trans h.pause, l4.trans h.full, l5.trans h.ready, by rw [l6, l7]; exact h.sample⟩
    have hg := (edge_ready hl.inv hl.pause hl.full).2.2.1 hl.sample
    have he := edge_left hl l2
    obtain ⟨a1, a2⟩ := cycles_good n _ hg
    refine ⟨a1, ?_⟩
    have : left (s.run (cycles (n + 1))) ≤ left (s.load.step (.edge false)) - n := a2
    omega

theorem cycles_given {α} (n : Nat) : axisGiven (cycles n : List (Ev α)) = [] := by
  induction n with
  | zero => rfl
  | succ n ih => simpa [cycles, axisGiven] using ih

theorem drain {α} {s : St α} (h : Inv s) (h1 : s.pause = false) (h2 : s.full = false) : ∃ n, axisWay (s.run (cycles n)) = [] := by
  obtain ⟨_, _, l3, l4, _, _, _⟩ := load_left h
  obtain ⟨p1, p2, _, p4⟩ := edge_ready (load_inv h) (l3.trans h1) (l4.trans h2)
  have hi := (edge_ok (load_inv h) false).1
  obtain ⟨_, _, m3, m4, _, m6, m7⟩ := load_left hi
  have hg := (edge_ready (load_inv hi) (m3.trans p1) (m4.trans p2)).2.2.1 (by rw [m6, m7]; exact p4)
  obtain ⟨_, a2⟩ := cycles_good (left ((s.load.step (.edge false)).load.step (.edge false))) _ hg
  refine ⟨left ((s.load.step (.edge false)).load.step (.edge false)) + 2, left_zero ?_⟩
  have : left (s.run (cycles (left ((s.load.step (.edge false)).load.step (.edge false)) + 2))) ≤ _ := a2
  omega

end Axis
end Pcie
