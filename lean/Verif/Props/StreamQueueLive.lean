import Verif.Lemmas.StreamQueueLive
import Verif.Spec.StreamQueueLive
import Verif.Props.StreamQueue
/-
C82: `wait` of a source returns in bounded time, and then everything has been delivered.
-/
namespace Pcie
open Spec Sq

/-- Stratix 10: after any history, when neither side pauses, `wait` returns after at most a number of clock edges that depends only on the ready latency and on the frames accepted; then the
sink has got exactly these, in order. Missing: `clear`, and clock edges that come before the source's tasks are done (C82_wait_violated). -/
theorem C82_s10_returns_partial (b : S10.Bus) (hl : 0 < b.lanes) (hs : 0 < b.segs) (latency : Nat) (l : Sq.Limits) (es more : List (SrcEv S10Frame (Hs.Ev S10.Txn))) (hc : .clear ∉ es)
    (hm : HsRunning more) (hq : Settled (s10 b) (Sq.hs latency fun t => decide (t.valid ≠ 0)) l (es ++ more)) (s s' : Src S10Frame S10.Cur S10.Txn (Hs.St S10.Txn) (Hs.Ev S10.Txn))
    (hr : (fresh (Sq.hs latency fun t => decide (t.valid ≠ 0))).run (s10 b) (Sq.hs latency fun t => decide (t.valid ≠ 0)) l es = some (.ok s))
    (hr' : s.run (s10 b) (Sq.hs latency fun t => decide (t.valid ≠ 0)) l more = some (.ok s'))
    (hok : ∀ f ∈ accepted s, S10Ok f ∧ s10FuncFits b f) (hn : cycles (fun f => f.data.length) (accepted s) + latency + 2 ≤ edges more) :
    s'.idleEvent = true ∧ ∃ k, S10.Snk.run b {} s'.wires.got = .ok (k, (accepted s).map (s10Seen b)) := by
  have hg : Going hsGo more := fun e he => (hm e he).imp id fun h => ⟨_, h, rfl⟩
  obtain ⟨w, bd⟩ := live_run (hs_law latency _) (s10_live b hl hs) es hc (settled_prefix hq) s hr
  obtain ⟨n, n1, n2⟩ := bd hok
  have hi : s'.idleEvent = true := settle (hs_law latency _) (s10_live b hl hs) (hs_lively latency _) more es hg hq 0 n s s' hr w
    (.inr ⟨n1, trivial, by simp only [cycles] at hn; simp only [s10] at n2 ⊢; omega⟩) hr'
  have ha := going_accepted hg hr'
  have hc' : .clear ∉ es ++ more := fun h => (List.mem_append.mp h).elim hc (going_clear hg)
  refine ⟨hi, ?_⟩
  rw [← ha]
  exact C82_s10_partial b hl hs latency l (es ++ more) hc' hq s' (by rw [run_append es more _ s hr]; exact hr') (by rw [ha]; exact hok) hi

/-- P-tile: likewise. -/
theorem C82_ptile_returns_partial (b : PTile.Bus) (hl : 0 < b.lanes) (hs : 0 < b.segs) (latency : Nat) (l : Sq.Limits) (es more : List (SrcEv PTileFrame (Hs.Ev PTile.Txn))) (hc : .clear ∉ es)
    (hm : HsRunning more) (hq : Settled (ptile b) (Sq.hs latency fun t => decide (t.valid ≠ 0)) l (es ++ more)) (s s' : Src PTileFrame PTile.Cur PTile.Txn (Hs.St PTile.Txn) (Hs.Ev PTile.Txn))
    (hr : (fresh (Sq.hs latency fun t => decide (t.valid ≠ 0))).run (ptile b) (Sq.hs latency fun t => decide (t.valid ≠ 0)) l es = some (.ok s))
    (hr' : s.run (ptile b) (Sq.hs latency fun t => decide (t.valid ≠ 0)) l more = some (.ok s'))
    (hok : ∀ f ∈ accepted s, PTileOk f) (hn : cycles (fun f => f.data.length) (accepted s) + latency + 2 ≤ edges more) :
    s'.idleEvent = true ∧ ∃ k, PTile.Snk.run b {} s'.wires.got = .ok (k, (accepted s).map (ptSeen b)) := by
  have hg : Going hsGo more := fun e he => (hm e he).imp id fun h => ⟨_, h, rfl⟩
  obtain ⟨w, bd⟩ := live_run (hs_law latency _) (ptile_live b hl hs) es hc (settled_prefix hq) s hr
  obtain ⟨n, n1, n2⟩ := bd hok
  have hi : s'.idleEvent = true := settle (hs_law latency _) (ptile_live b hl hs) (hs_lively latency _) more es hg hq 0 n s s' hr w
    (.inr ⟨n1, trivial, by simp only [cycles] at hn; simp only [ptile] at n2 ⊢; omega⟩) hr'
  have ha := going_accepted hg hr'
  have hc' : .clear ∉ es ++ more := fun h => (List.mem_append.mp h).elim hc (going_clear hg)
  refine ⟨hi, ?_⟩
  rw [← ha]
  exact C82_ptile_partial b hl hs latency l (es ++ more) hc' hq s' (by rw [run_append es more _ s hr]; exact hr') (by rw [ha]; exact hok) hi

/-- UltraScale: likewise, when the sink is neither paused nor full. -/
theorem C82_us_returns_partial (b : Us.Bus) (hb : UsBus b) (l : Sq.Limits) (es more : List (SrcEv UsFrame (Axis.Ev Us.Txn))) (hc : .clear ∉ es)
    (hm : AxisRunning more) (hq : Settled (us b) axis l (es ++ more)) (s s' : Src UsFrame Us.Cur Us.Txn (Axis.St Us.Txn) (Axis.Ev Us.Txn))
    (hr : (fresh axis).run (us b) axis l es = some (.ok s)) (hr' : s.run (us b) axis l more = some (.ok s'))
    (hp : s.wires.pause = false) (hf : s.wires.full = false)
    (hok : ∀ f ∈ accepted s, UsOk b.kind f) (hn : cycles (fun f => f.data.length) (accepted s) + 3 ≤ edges more) :
    s'.idleEvent = true ∧ ∃ k fs, Us.Snk.run b (Us.Snk.init b) s'.wires.got = .ok (k, fs) ∧ fs.map usPlain = (accepted s).map (usSeen b) := by
  have hg : Going axisGo more := fun e he => (hm e he).imp id fun h => ⟨_, h, rfl⟩
  obtain ⟨w, bd⟩ := live_run axis_law (us_live b hb) es hc (settled_prefix hq) s hr
  obtain ⟨n, n1, n2⟩ := bd hok
  obtain ⟨r1, _⟩ := axis_rec hc hr
  have gi := (Axis.run_ok s.ran ({} : Axis.St Us.Txn) Axis.inv_zero).1
  rw [r1] at gi
  have hi : s'.idleEvent = true := settle axis_law (us_live b hb) axis_lively more es hg hq 0 n s s' hr w
    (.inr ⟨n1, ⟨gi, hp, hf⟩, by simp only [cycles] at hn; simp only [us] at n2 ⊢; omega⟩) hr'
  have ha := going_accepted hg hr'
  have hc' : .clear ∉ es ++ more := fun h => (List.mem_append.mp h).elim hc (going_clear hg)
  refine ⟨hi, ?_⟩
  rw [← ha]
  exact C82_us_partial b hb l (es ++ more) hc' hq s' (by rw [run_append es more _ s hr]; exact hr') (by rw [ha]; exact hok) hi

/- Examples: the hypotheses can be met. Two frames (3 and 12 dwords), ready latency 0, the first one half sent while the sink pauses: 19 edges are enough. -/
abbrev sqPre : List (SrcEv S10Frame (Hs.Ev S10.Txn)) :=
  [.send s10Read, .work, .work, .bus (.edge true true), .send s10Write, .work, .bus (.edge true false)]
abbrev sqMore : List (SrcEv S10Frame (Hs.Ev S10.Txn)) :=
  [.bus (.edge false false), .work, .work, .bus (.edge false false), .work] ++ List.replicate 17 (.bus (.edge false false))
example : (sqSee (sqRun {} sqPre) = some ((0, 0, 0), (false, false), (2, 0), [])) ∧ (sqSee (sqRun {} (sqPre ++ sqMore)) = some ((0, 0, 0), (true, true), (3, 3), [])) ∧
    cycles (fun f => f.data.length) [s10Read, s10Write] + 0 + 2 ≤ edges sqMore ∧ .clear ∉ sqPre ∧
    Settled (s10 s10Bus) (hs 0 fun t => decide (t.valid ≠ 0)) {} (sqPre ++ sqMore) ∧ HsRunning sqMore :=
  ⟨by decide +kernel, by decide +kernel, by decide +kernel, by simp, settled_of (by decide +kernel), by simp [HsRunning]⟩

/- UltraScale: a request in two transactions of 128 bits, after a pause of the sink. -/
abbrev usPre : List (SrcEv UsFrame (Axis.Ev Us.Txn)) := [.send usReq, .work, .work, .work, .bus (.setPause true), .bus (.edge false), .work, .bus (.edge true), .bus (.setPause false)]
abbrev usMore : List (SrcEv UsFrame (Axis.Ev Us.Txn)) := List.replicate 12 (.bus (.edge false))
example : (((fresh axis).run (us ⟨.rq, 128, 62, 1⟩) axis {} usPre).bind (·.toOption)).map (fun s => ((s.idleEvent, s.wires.pause, s.wires.full), s.wires.got.length, accepted s)) =
      some ((false, false, false), 1, [usReq]) ∧
    (((fresh axis).run (us ⟨.rq, 128, 62, 1⟩) axis {} (usPre ++ usMore)).bind (·.toOption)).map (fun s => (s.idleEvent, s.wires.got.length)) = some (true, 2) ∧
    cycles (fun f => f.data.length) [usReq] + 3 ≤ edges usMore ∧ .clear ∉ usPre ∧ Settled (us ⟨.rq, 128, 62, 1⟩) axis {} (usPre ++ usMore) ∧ AxisRunning usMore :=
  ⟨by decide +kernel, by decide +kernel, by decide +kernel, by simp, settled_of (by decide +kernel), by simp [AxisRunning]⟩

end Pcie
