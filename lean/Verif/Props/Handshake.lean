import Verif.Lemmas.Paused
import Verif.Props.PTileStream
/-
C50: handshakes neither lose, duplicate nor reorder transactions. C42: frames arrive through the handshake.
-/
namespace Pcie
open Spec

/-- Stratix 10 and P-Tile: for every ready latency, every pattern of pauses on both sides and every timing, there is no handshake error, and
what the sink has got followed by what is on its way is what the source was given. (`nz`: the transaction has a valid segment.) -/
theorem C50_latency {α : Type} (latency : Nat) (nz : α → Bool) (es : List (Hs.Ev α)) (hz : ∀ a ∈ hsGiven es, nz a = true) :
    ∃ s, Hs.St.run latency nz {} es = .ok s ∧ s.got ++ hsWay s = hsGiven es := by
  obtain ⟨s, h1, _, _, h2⟩ := Hs.run_ok es {} (Hs.inv_zero latency) (by intro a ha; simp at ha) hz
  exact ⟨s, h1, by simpa [hsWay] using h2⟩

/-- Whatever happened before, enough clock cycles without pauses deliver everything. -/
theorem C50_latency_delivered {α : Type} (latency : Nat) (nz : α → Bool) (es : List (Hs.Ev α)) (hz : ∀ a ∈ hsGiven es, nz a = true) :
    ∃ n s, Hs.St.run latency nz {} (es ++ Hs.cycles n) = .ok s ∧ s.got = hsGiven es := by
  obtain ⟨s, h1, h2, h3, _⟩ := Hs.run_ok es {} (Hs.inv_zero latency) (by intro a ha; simp at ha) hz
  obtain ⟨n, s', d1, d2⟩ := Hs.drain h2 h3
  have hr := (Hs.run_append es (Hs.cycles n) {} s h1).trans d1
  have hg : hsGiven (es ++ Hs.cycles n) = hsGiven es := by
    have := Hs.cycles_given (α := α) n
    simp only [hsGiven] at this ⊢
    rw [List.filterMap_append, this, List.append_nil]
  obtain ⟨s2, g1, g2⟩ := C50_latency latency nz (es ++ Hs.cycles n) (by rwa [hg])
  have : s2 = s' := Except.ok.inj (g1.symm.trans hr)
  subst this
  refine ⟨n, s2, hr, ?_⟩
  rw [hg, d2, List.append_nil] at g2
  exact g2

/-- UltraScale: likewise for the AXI stream handshake, in which both tasks sleep while there is nothing to do. -/
theorem C50_axis {α : Type} (es : List (Axis.Ev α)) :
    (Axis.St.run {} es).got ++ axisWay (Axis.St.run {} es) = axisGiven es := by
  simpa [axisWay] using (Axis.run_ok es {} Axis.inv_zero).2

/-- The sleeping tasks are woken: when the sink is neither paused nor full, enough clock cycles deliver everything. -/
theorem C50_axis_delivered {α : Type} (es : List (Axis.Ev α)) (h1 : axisPaused es = false) (h2 : axisFull es = false) :
    ∃ n, (Axis.St.run {} (es ++ Axis.cycles n)).got = axisGiven es := by
  rw [← (Axis.pause_eq es).1] at h1
  rw [← (Axis.pause_eq es).2] at h2
  obtain ⟨n, hn⟩ := Axis.drain (Axis.run_ok es {} Axis.inv_zero).1 h1 h2
  refine ⟨n, ?_⟩
  have hg : axisGiven (es ++ Axis.cycles n) = axisGiven es := by
    have := Axis.cycles_given (α := α) n
    simp only [axisGiven] at this ⊢
    rw [List.filterMap_append, this, List.append_nil]
  have := C50_axis (es ++ Axis.cycles n)
  have hr : Axis.St.run {} (es ++ Axis.cycles n) = (Axis.St.run {} es).run (Axis.cycles n) := List.foldl_append
  rw [hr, hn, List.append_nil, ← hr, hg] at this
  exact this

/-- A sink that is paused, or full, takes nothing any more: once it has been so for one clock edge more than the ready latency, it gets nothing
until the pause ends. -/
theorem C50_latency_paused {α : Type} (latency : Nat) (nz : α → Bool) (es es1 es2 : List (Hs.Ev α)) (hz : ∀ a ∈ hsGiven (es ++ es1 ++ es2), nz a = true)
    (h1 : hsPaused es1) (h2 : hsPaused es2) (hn : latency + 1 ≤ hsEdges es1) :
    ∃ s s', Hs.St.run latency nz {} (es ++ es1) = .ok s ∧ Hs.St.run latency nz {} (es ++ es1 ++ es2) = .ok s' ∧ s'.got = s.got := by
  obtain ⟨s0, r0, -⟩ := C50_latency latency nz es (fun a ha => hz a (by simp only [hsGiven, List.filterMap_append, List.mem_append] at ha ⊢; exact .inl (.inl ha)))
  obtain ⟨s, r1, -⟩ := C50_latency latency nz (es ++ es1) (fun a ha => hz a (by simp only [hsGiven, List.filterMap_append, List.mem_append] at ha ⊢; exact .inl ha))
  obtain ⟨s', r2, -⟩ := C50_latency latency nz (es ++ es1 ++ es2) hz
  have q1 := (Hs.run_append es es1 {} s0 r0).symm.trans r1
  have q2 := (Hs.run_append (es ++ es1) es2 {} s r1).symm.trans r2
  exact ⟨s, s', r1, r2, (Hs.cold_run es2 (Hs.cold_start es1 h1 q1 hn) h2 q2).2 (Nat.le_refl _)⟩

/-- Likewise for the AXI stream: after two clock edges in the pause. -/
theorem C50_axis_paused {α : Type} (es es1 es2 : List (Axis.Ev α)) (h : axisPaused es = true) (h1 : .setPause false ∉ es1) (h2 : .setPause false ∉ es2)
    (hn : 2 ≤ axisEdges es1) : (Axis.St.run {} (es ++ es1 ++ es2)).got = (Axis.St.run {} (es ++ es1)).got := by
  rw [← (Axis.pause_eq es).1] at h
  have hs : Axis.Seen (Axis.St.run ({} : Axis.St α) es) := Axis.seen_run es ⟨by simp, by simp⟩
  obtain ⟨q1, q2⟩ := Axis.stop_start es1 hs h h1 hn
  have := (Axis.stop_run es2 q1 h2).2.1 q2
  simp only [Axis.St.run, List.foldl_append] at this ⊢
  exact this.2

/-- Stratix 10 frames through the handshake: for every history of the source, every ready latency and every pattern of pauses, no side reports an error, and the
sink has the first of the frames that were sent; it has all of them when nothing is left on the way. Missing: function numbers that do not fit (C42_s10_violated). -/
theorem C42_s10_link_partial (b : S10.Bus) (hl : 0 < b.lanes) (hs : 0 < b.segs) (evs : List S10.Ev) (hok : ∀ f ∈ s10Sent evs, S10Ok f ∧ s10FuncFits b f) :
    ∃ s ts, S10.Src.run b {} evs = .ok (s, ts) ∧ ∀ (latency : Nat) (es : List (Hs.Ev S10.Txn)), hsGiven es = ts →
      ∃ h k fs, Hs.St.run latency (fun t => decide (t.valid ≠ 0)) {} es = .ok h ∧ S10.Snk.run b {} h.got = .ok (k, fs) ∧
        fs <+: (s10Sent evs).map (s10Seen b) ∧ (hsWay h = [] → s10Held s = [] → fs = (s10Sent evs).map (s10Seen b)) := by
  obtain ⟨s, ts, k, fs, h1, h2, h3⟩ := C42_s10_stream_partial b hl evs hok
  refine ⟨s, ts, h1, fun latency es hes => ?_⟩
  have hv := S10.run_valid hl hs evs none [] s ts (by intro f off h; cases h) (by simpa [Stream.pend] using hok) h1
  obtain ⟨h, g1, g2⟩ := C50_latency latency (fun t : S10.Txn => decide (t.valid ≠ 0)) es (by rw [hes]; simpa using hv)
  rw [hes] at g2
  rw [← g2] at h2
  obtain ⟨k1, f1, e1, e2⟩ := S10.snk_prefix _ _ _ _ _ h2
  refine ⟨h, k1, f1, g1, e1, ?_, fun hw hh => ?_⟩
  · rw [← h3]; exact e2.trans (List.prefix_append _ _)
  · rw [hw, List.append_nil, e1] at h2
    cases h2
    rw [← h3, hh]; simp

/-- P-Tile frames through the handshake: for every history of the source, every ready latency and every pattern of pauses, no side reports an error, and the
sink has the first of the frames that were sent; it has all of them when nothing is left on the way. -/
theorem C42_ptile_link (b : PTile.Bus) (hl : 0 < b.lanes) (hs : 0 < b.segs) (evs : List PTile.Ev) (hok : ∀ f ∈ ptSent evs, PTileOk f) :
    ∃ s ts, PTile.Src.run b {} evs = .ok (s, ts) ∧ ∀ (latency : Nat) (es : List (Hs.Ev PTile.Txn)), hsGiven es = ts →
      ∃ h k fs, Hs.St.run latency (fun t => decide (t.valid ≠ 0)) {} es = .ok h ∧ PTile.Snk.run b {} h.got = .ok (k, fs) ∧
        fs <+: (ptSent evs).map (ptSeen b) ∧ (hsWay h = [] → ptHeld s = [] → fs = (ptSent evs).map (ptSeen b)) := by
  obtain ⟨s, ts, k, fs, h1, h2, h3⟩ := C42_ptile_stream b hl evs hok
  refine ⟨s, ts, h1, fun latency es hes => ?_⟩
  have hv := PTile.run_valid hl hs evs none [] s ts (by intro f off h; cases h) (by simpa [Stream.pend] using hok) h1
  obtain ⟨h, g1, g2⟩ := C50_latency latency (fun t : PTile.Txn => decide (t.valid ≠ 0)) es (by rw [hes]; simpa using hv)
  rw [hes] at g2
  rw [← g2] at h2
  obtain ⟨k1, f1, e1, e2⟩ := PTile.snk_prefix _ _ _ _ _ h2
  refine ⟨h, k1, f1, g1, e1, ?_, fun hw hh => ?_⟩
  · rw [← h3]; exact e2.trans (List.prefix_append _ _)
  · rw [hw, List.append_nil, e1] at h2
    cases h2
    rw [← h3, hh]; simp

/- Three transactions, ready latency 3, pauses on both sides: nothing is driven until three cycles after
`ready`; at the end the third transaction is still on the bus. -/
example : ((Hs.St.run 3 (fun _ => true) {} ([.give 1, .give 2, .load, .edge false true, .edge false false, .edge false false, .edge true false, .give 3] ++
    Hs.cycles 3)).toOption.map fun s => (s.got, s.valid, s.bus)) = some ([1, 2], true, some 3) := by decide
/- Latency 0, where the source waits with `valid` on. -/
example : ((Hs.St.run 0 (fun _ => true) {} ([.give 1, .give 2, .load, .edge false true, .edge false true, .load, .edge false false, .edge false true, .edge true true])).toOption.map
    fun s => (s.got, s.valid, s.bus, s.ready)) = some ([1], true, some 2, false) := by decide
/- AXI stream: the sink sleeps while it is paused, and is woken. -/
example : (Axis.St.run {} [.give 1, .give 2, .edge false, .setPause true, .edge false, .load, .edge false, .edge false]).snkAsleep = true ∧
    (Axis.St.run {} [.give 1, .give 2, .edge false, .setPause true, .edge false, .load, .edge false, .edge false]).valid = true ∧
    (Axis.St.run {} ([.give 1, .give 2, .edge false, .setPause true, .edge false, .load, .edge false, .edge false, .setPause false] ++ Axis.cycles 3)).got = [1, 2] ∧
    (Axis.St.run {} ([.give 1, .setPause true, .setPause false] : List (Axis.Ev Nat))).pause = false := by decide
/- The sink of an interface with ready latency 3 is paused for four clock edges: three transactions arrive meanwhile, and then none. -/
example : hsPaused ([.load, .edge false true, .load, .edge false true, .edge false true, .edge false true] : List (Hs.Ev Nat)) ∧
    3 + 1 ≤ hsEdges ([.load, .edge false true, .load, .edge false true, .edge false true, .edge false true] : List (Hs.Ev Nat)) ∧
    ((Hs.St.run 3 (fun _ => true) {} ([.give 1, .give 2, .give 3, .give 4] ++ Hs.cycles 4 ++
      [.load, .edge false true, .load, .edge false true, .edge false true, .edge false true])).toOption.map fun s => s.got) = some [1, 2, 3] := by
  refine ⟨?_, by decide, by decide⟩
  intro p q h
  simp at h
  exact h.2
example : axisPaused ([.give 1, .give 2, .load, .edge false, .setPause true] : List (Axis.Ev Nat)) = true ∧
    (Axis.St.run {} ([.give 1, .give 2, .load, .edge false, .setPause true, .edge false, .edge false, .load, .edge false, .edge false] : List (Axis.Ev Nat))).got = [1] := by
  decide

end Pcie
