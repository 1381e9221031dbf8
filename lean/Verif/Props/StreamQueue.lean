import Verif.Lemmas.StreamQueueBus
import Verif.Props.Handshake
import Verif.Props.S10Stream
import Verif.Props.UsStream
/-
C82: the queues of sources and sinks: limits, back-pressure, `wait`, `idle`, `clear`. The same theorems hold for the three interfaces (`s10`, `ptile`, `us`) and for the two
handshakes (`hs` with any ready latency, `axis`).
-/
namespace Pcie
open Spec Sq

section
variable {F C T B V : Type} (P : Packer F C T) (W : Wires T B V) (l : Sq.Limits)

/-- The three interfaces take the frames from the front of the queue. -/
theorem C82_order (b1 : S10.Bus) (b2 : PTile.Bus) (b3 : Us.Bus) : (s10 b1).Front ∧ (ptile b2).Front ∧ (us b3).Front := ⟨s10_front b1, ptile_front b2, us_front b3⟩

/-- Without `clear`, the occupancy counters of a source are the number of frames in its queue and the sum of their lengths. -/
theorem C82_occupancy_partial (hP : P.Front) (es : List (SrcEv F V)) (hc : .clear ∉ es) (s : Src F C T B V) (hr : (fresh W).run P W l es = some (.ok s)) :
    s.frames = s.queue.length ∧ s.bytes = bytesIn P.size s.queue := by
  have h : Counted P s := run_ind es (fresh W) s ⟨rfl, rfl⟩ (fun _ he _ _ h hs => counted_step hP h (fun x => hc (x ▸ he)) hs) hr
  exact ⟨h.frames, h.bytes⟩

/-- Whatever happens, the queue never holds more than one frame above the limit of frames, and the frames in it without the last one are within the limit of bytes. -/
theorem C82_limit (hP : P.Front) (es : List (SrcEv F V)) (s : Src F C T B V) (hr : (fresh W).run P W l es = some (.ok s)) :
    (0 < l.frames → (s.queue.length : Int) ≤ l.frames + 1) ∧ (0 < l.bytes → ∀ q f, s.queue = q ++ [f] → (bytesIn P.size q : Int) ≤ l.bytes) := by
  have h : Limited P l s := run_ind es (fresh W) s ⟨by simp [fresh], by simp [fresh, bytesIn], by simp [fresh]; omega, by simp [fresh]⟩
    (fun _ _ _ _ h hs => limited_step hP h hs) hr
  exact ⟨fun hl => Int.le_trans h.frames (h.limF hl), h.limB⟩

/-- No sender is forgotten: a task sleeps in `send` only while the queue is full; then there is a frame in the queue, and when that one is taken all the senders are woken. -/
theorem C82_senders_partial (hP : P.Front) (es : List (SrcEv F V)) (hc : .clear ∉ es) (s : Src F C T B V) (hr : (fresh W).run P W l es = some (.ok s)) (f : F)
    (hf : (f, false) ∈ s.waiting) :
    s.full l = true ∧ s.queue ≠ [] ∧ ∀ s', s.step P W l .work = some (.ok s') → s'.queue ≠ s.queue → ∀ x ∈ s'.waiting, x.2 = true := by
  have ha : Awake l s := run_ind es (fresh W) s (by intro f hf; simp [fresh] at hf) (fun _ _ _ _ h hs => awake_step h hs) hr
  have hfull := ha f hf
  obtain ⟨h1, h2⟩ := C82_occupancy_partial P W l hP es hc s hr
  refine ⟨hfull, ?_, ?_⟩
  · intro hq
    rw [hq] at h1 h2
    simp only [Src.full, Limits.full, h1, h2, bytesIn] at hfull
    simp at hfull
    omega
  · intro s' hs hne x hx
    rcases work_cases (show s.work P W = some (.ok s') from hs) with ⟨t, r, b, h1, h2, h3, rfl⟩ | ⟨c, q, t, b, h1, h2, h3, h4, rfl⟩
    · exact absurd rfl hne
    · obtain ⟨m, hm⟩ := hP _ _ _ _ _ h3
      rw [front_take hm] at hx hne
      simp only [Src.took] at hx hne
      split at hx
      · rename_i he
        rw [List.isEmpty_iff.mp he] at hm
        exact absurd (by simpa using hm.symm) hne
      · simp only [List.mem_map] at hx
        obtain ⟨y, _, rfl⟩ := hx
        rfl

/-- No frame is lost or doubled: every frame passed to `send` has been put in the queue exactly once, or its task still waits. -/
theorem C82_send (es : List (SrcEv F V)) (hn : ∀ f, .sendNowait f ∉ es) (s : Src F C T B V) (hr : (fresh W).run P W l es = some (.ok s)) :
    (accepted s ++ s.waiting.map (·.1)).Perm (calls es) := by
  have := calls_run es (fresh W) s hn hr
  simpa [fresh, accepted] using this

/-- `send_nowait` refuses a frame exactly if the queue is full, and then changes nothing. -/
theorem C82_send_nowait (s : Src F C T B V) (f : F) :
    (s.full l = true → s.step P W l (.sendNowait f) = some (.ok s)) ∧
    (s.full l = false → ∃ s', s.step P W l (.sendNowait f) = some (.ok s') ∧ s'.queue = s.queue ++ [f]) := by
  refine ⟨fun h => by simp [Src.step, h], fun h => ⟨s.put P f, by simp [Src.step, h], rfl⟩⟩

end

/-- When `wait` of a source returns (the event is set), nothing is left in the source or on the bus, and the other side has got all the transactions. Missing: clock edges that come before the
source's task has seen the frame (C82_wait_violated), and `clear`. -/
theorem C82_wait_partial {F C T : Type} (P : Packer F C T) (latency : Nat) (nz : T → Bool) (l : Sq.Limits) (es : List (SrcEv F (Hs.Ev T))) (hc : .clear ∉ es)
    (hq : Settled P (hs latency nz) l es) (s : Src F C T (Hs.St T) (Hs.Ev T)) (hr : (fresh (hs latency nz)).run P (hs latency nz) l es = some (.ok s))
    (hz : ∀ t ∈ s.given, nz t = true) (hi : s.idleEvent = true) : s.queue = [] ∧ s.cur = none ∧ hsWay s.wires = [] ∧ s.wires.got = s.given := by
  have h := (winv_run (hs_law latency nz) es hc hq s hr).idle hi
  obtain ⟨r1, r2, _⟩ := hs_rec hc hr
  obtain ⟨w, g1, g2⟩ := C50_latency latency nz s.ran (by rw [r2]; exact hz)
  have hw : w = s.wires := Except.ok.inj (g1.symm.trans r1)
  subst hw
  have way : hsWay s.wires = [] := by
    have h1 : s.wires.drive = none := h.drive
    have h2 : s.wires.todo = [] := h.todo
    have h3 : s.wires.valid = false := h.valid
    simp [hsWay, h1, h2, h3]
  rw [way, List.append_nil, r2] at g2
  exact ⟨h.queue, h.cur, way, g2⟩

/-- Likewise for the AXI stream. -/
theorem C82_axis_wait_partial {F C T : Type} (P : Packer F C T) (l : Sq.Limits) (es : List (SrcEv F (Axis.Ev T))) (hc : .clear ∉ es)
    (hq : Settled P axis l es) (s : Src F C T (Axis.St T) (Axis.Ev T)) (hr : (fresh axis).run P axis l es = some (.ok s))
    (hi : s.idleEvent = true) : s.queue = [] ∧ s.cur = none ∧ axisWay s.wires = [] ∧ s.wires.got = s.given := by
  have h := (winv_run axis_law es hc hq s hr).idle hi
  obtain ⟨r1, r2, _⟩ := axis_rec hc hr
  have g2 := C50_axis s.ran
  have way : axisWay s.wires = [] := by
    have h1 : s.wires.drive = none := h.drive
    have h2 : s.wires.todo = [] := h.todo
    have h3 : s.wires.valid = false := h.valid
    simp [axisWay, h1, h2, h3]
  rw [r1, way, List.append_nil, r2] at g2
  exact ⟨h.queue, h.cur, way, g2⟩

/-- Conversely: when the other side has got everything, the next clock edge lets `wait` return; right after a clock edge, the event tells exactly whether everything has been delivered. -/
theorem C82_wait_returns_partial {F C T : Type} (P : Packer F C T) (latency : Nat) (nz : T → Bool) (l : Sq.Limits) (es : List (SrcEv F (Hs.Ev T))) (p q : Bool)
    (hc : .clear ∉ es) (hq : Settled P (hs latency nz) l (es ++ [.bus (.edge p q)])) (s : Src F C T (Hs.St T) (Hs.Ev T))
    (hr : (fresh (hs latency nz)).run P (hs latency nz) l (es ++ [.bus (.edge p q)]) = some (.ok s)) (hz : ∀ t ∈ s.given, nz t = true) :
    s.idleEvent = true ↔ s.queue = [] ∧ s.cur = none ∧ s.wires.got = s.given := by
  have hc' : .clear ∉ es ++ [.bus (.edge p q)] := by simpa using hc
  refine ⟨fun h => ?_, fun ⟨h1, h2, h3⟩ => ?_⟩
  · obtain ⟨h1, h2, _, h4⟩ := C82_wait_partial P latency nz l _ hc' hq s hr hz h
    exact ⟨h1, h2, h4⟩
  · obtain ⟨s0, r0, hs⟩ := run_snoc es _ _ _ hr
    have w0 := winv_run (hs_law latency nz) es hc (settled_init hq) s0 r0
    obtain ⟨e1, e2, _⟩ := hs_rec hc' hr
    obtain ⟨w, g1, gi, _, g2⟩ := Hs.run_ok s.ran {} (Hs.inv_zero latency) (by intro a ha; simp at ha) (nz := nz) (by rw [e2]; exact hz)
    have hw : w = s.wires := Except.ok.inj (g1.symm.trans e1)
    subst hw
    have way : hsWay s.wires = [] := by
      have : s.wires.got ++ hsWay s.wires = s.given := by rw [← e2]; simpa [hsWay] using g2
      rw [h3] at this
      simpa using this
    have hv : s.wires.valid = false := by
      cases hv : s.wires.valid with
      | false => rfl
      | true =>
        obtain ⟨t, ht⟩ := Option.isSome_iff_exists.mp (gi.bus hv)
        simp [hsWay, hv, ht] at way
    simp only [hsWay, List.append_eq_nil_iff] at way
    refine edge_idle (hs_law latency nz) w0 ?_ rfl hs ⟨h1, h2, way.2, ?_, hv⟩
    · intro t ht
      obtain ⟨a1, a2, _⟩ := hs_rec hc r0
      have hgiven : s0.given = s.given := by
        simp only [Src.step] at hs
        split at hs
        · split at hs
          · cases hs
          · split at hs <;> cases hs <;> rfl
        · cases hs
      obtain ⟨w', k1, k2⟩ := C50_latency latency nz s0.ran (by rw [a2, hgiven]; exact hz)
      have hw : w' = s0.wires := Except.ok.inj (k1.symm.trans a1)
      subst hw
      apply hz
      rw [← hgiven, ← a2, ← k2]
      have hd : s0.wires.drive = some t := ht
      simp [hsWay, hd]
    · show s.wires.drive = none
      cases hd : s.wires.drive with
      | none => rfl
      | some t => simp [hd] at way

/-- Likewise for the AXI stream. -/
theorem C82_axis_wait_returns_partial {F C T : Type} (P : Packer F C T) (l : Sq.Limits) (es : List (SrcEv F (Axis.Ev T))) (p : Bool)
    (hc : .clear ∉ es) (hq : Settled P axis l (es ++ [.bus (.edge p)])) (s : Src F C T (Axis.St T) (Axis.Ev T))
    (hr : (fresh axis).run P axis l (es ++ [.bus (.edge p)]) = some (.ok s)) :
    s.idleEvent = true ↔ s.queue = [] ∧ s.cur = none ∧ s.wires.got = s.given := by
  have hc' : .clear ∉ es ++ [.bus (.edge p)] := by simpa using hc
  refine ⟨fun h => ?_, fun ⟨h1, h2, h3⟩ => ?_⟩
  · obtain ⟨h1, h2, _, h4⟩ := C82_axis_wait_partial P l _ hc' hq s hr h
    exact ⟨h1, h2, h4⟩
  · obtain ⟨s0, r0, hs⟩ := run_snoc es _ _ _ hr
    have w0 := winv_run axis_law es hc (settled_init hq) s0 r0
    obtain ⟨e1, e2, _⟩ := axis_rec hc' hr
    obtain ⟨gi, g2⟩ := Axis.run_ok s.ran ({} : Axis.St T) Axis.inv_zero
    rw [e1] at gi g2
    have way : axisWay s.wires = [] := by
      have : s.wires.got ++ axisWay s.wires = s.given := by rw [← e2]; simpa [axisWay] using g2
      rw [h3] at this
      simpa using this
    have hv : s.wires.valid = false := by
      cases hv : s.wires.valid with
      | false => rfl
      | true =>
        obtain ⟨t, ht⟩ := Option.isSome_iff_exists.mp (gi.bus hv)
        simp [axisWay, hv, ht] at way
    simp only [axisWay, List.append_eq_nil_iff] at way
    refine edge_idle axis_law w0 (fun _ _ => rfl) rfl hs ⟨h1, h2, way.2, ?_, hv⟩
    show s.wires.drive = none
    cases hd : s.wires.drive with
    | none => rfl
    | some t => simp [hd] at way

/-- `idle()` of a source, called right after a clock edge: it is true only if everything has been delivered. Missing: other moments (C82_idle_violated), unsettled clock edges and `clear`. -/
theorem C82_idle_partial {F C T : Type} (P : Packer F C T) (latency : Nat) (nz : T → Bool) (l : Sq.Limits) (es : List (SrcEv F (Hs.Ev T))) (p q : Bool)
    (hc : .clear ∉ es) (hq : Settled P (hs latency nz) l (es ++ [.bus (.edge p q)])) (s : Src F C T (Hs.St T) (Hs.Ev T))
    (hr : (fresh (hs latency nz)).run P (hs latency nz) l (es ++ [.bus (.edge p q)]) = some (.ok s)) (hz : ∀ t ∈ s.given, nz t = true) (hi : s.idle = true) :
    s.queue = [] ∧ s.cur = none ∧ s.wires.got = s.given := by
  have hc' : .clear ∉ es ++ [.bus (.edge p q)] := by simpa using hc
  obtain ⟨s0, r0, hs⟩ := run_snoc es _ _ _ hr
  have w0 := winv_run (hs_law latency nz) es hc (settled_init hq) s0 r0
  have d := edge_not_active (hs_law latency nz) w0 (winv_run (hs_law latency nz) _ hc' hq s hr) (hq es _ [] rfl rfl s0 r0) rfl hs hi
  obtain ⟨e1, e2, _⟩ := hs_rec hc' hr
  obtain ⟨w, g1, g2⟩ := C50_latency latency nz s.ran (by rw [e2]; exact hz)
  have hw : w = s.wires := Except.ok.inj (g1.symm.trans e1)
  subst hw
  have h1 : s.wires.drive = none := d.drive
  have h2 : s.wires.todo = [] := d.todo
  have h3 : s.wires.valid = false := d.valid
  exact ⟨d.queue, d.cur, by rw [← e2, ← g2]; simp [hsWay, h1, h2, h3]⟩

/-- Likewise for the AXI stream. -/
theorem C82_axis_idle_partial {F C T : Type} (P : Packer F C T) (l : Sq.Limits) (es : List (SrcEv F (Axis.Ev T))) (p : Bool)
    (hc : .clear ∉ es) (hq : Settled P axis l (es ++ [.bus (.edge p)])) (s : Src F C T (Axis.St T) (Axis.Ev T))
    (hr : (fresh axis).run P axis l (es ++ [.bus (.edge p)]) = some (.ok s)) (hi : s.idle = true) :
    s.queue = [] ∧ s.cur = none ∧ s.wires.got = s.given := by
  have hc' : .clear ∉ es ++ [.bus (.edge p)] := by simpa using hc
  obtain ⟨s0, r0, hs⟩ := run_snoc es _ _ _ hr
  have w0 := winv_run axis_law es hc (settled_init hq) s0 r0
  have d := edge_not_active axis_law w0 (winv_run axis_law _ hc' hq s hr) (hq es _ [] rfl rfl s0 r0) rfl hs hi
  obtain ⟨e1, e2, _⟩ := axis_rec hc' hr
  have g2 := C50_axis s.ran
  rw [e1, e2] at g2
  have h1 : s.wires.drive = none := d.drive
  have h2 : s.wires.todo = [] := d.todo
  have h3 : s.wires.valid = false := d.valid
  exact ⟨d.queue, d.cur, by rw [← g2]; simp [axisWay, h1, h2, h3]⟩

/-- Stratix 10: when `wait` returns, the sink has got exactly the frames that the queue has accepted, in order. -/
theorem C82_s10_partial (b : S10.Bus) (hl : 0 < b.lanes) (hs : 0 < b.segs) (latency : Nat) (l : Sq.Limits) (es : List (SrcEv S10Frame (Hs.Ev S10.Txn))) (hc : .clear ∉ es)
    (hq : Settled (s10 b) (Sq.hs latency fun t => decide (t.valid ≠ 0)) l es) (s : Src S10Frame S10.Cur S10.Txn (Hs.St S10.Txn) (Hs.Ev S10.Txn))
    (hr : (fresh (Sq.hs latency fun t => decide (t.valid ≠ 0))).run (s10 b) (Sq.hs latency fun t => decide (t.valid ≠ 0)) l es = some (.ok s))
    (hok : ∀ f ∈ accepted s, S10Ok f ∧ s10FuncFits b f) (hi : s.idleEvent = true) :
    ∃ k, S10.Snk.run b {} s.wires.got = .ok (k, (accepted s).map (s10Seen b)) := by
  have h := (winv_run (hs_law latency _) es hc hq s hr).idle hi
  obtain ⟨r1, r2, r3⟩ := hs_rec hc hr
  have r4 := s10_run b _ _ _ _ _ _ r3
  have hs' : s10Sent (s10Evs s.log) = accepted s := s10_sent s.log
  obtain ⟨s1, ts, k1, k2⟩ := C42_s10_link_partial b hl hs (s10Evs s.log) (by rw [hs']; exact hok)
  cases k1.symm.trans r4
  obtain ⟨w, k, fs, g1, g2, _, g3⟩ := k2 latency s.ran r2
  have hw : w = s.wires := Except.ok.inj (g1.symm.trans r1)
  subst hw
  have h1 : s.wires.drive = none := h.drive
  have h2 : s.wires.todo = [] := h.todo
  have h3 : s.wires.valid = false := h.valid
  have := g3 (by simp [hsWay, h1, h2, h3]) (by simp [s10Held, h.cur, h.queue])
  rw [hs'] at this
  exact ⟨k, by rw [← this]; exact g2⟩

/-- P-tile: likewise. -/
theorem C82_ptile_partial (b : PTile.Bus) (hl : 0 < b.lanes) (hs : 0 < b.segs) (latency : Nat) (l : Sq.Limits) (es : List (SrcEv PTileFrame (Hs.Ev PTile.Txn))) (hc : .clear ∉ es)
    (hq : Settled (ptile b) (Sq.hs latency fun t => decide (t.valid ≠ 0)) l es) (s : Src PTileFrame PTile.Cur PTile.Txn (Hs.St PTile.Txn) (Hs.Ev PTile.Txn))
    (hr : (fresh (Sq.hs latency fun t => decide (t.valid ≠ 0))).run (ptile b) (Sq.hs latency fun t => decide (t.valid ≠ 0)) l es = some (.ok s))
    (hok : ∀ f ∈ accepted s, PTileOk f) (hi : s.idleEvent = true) :
    ∃ k, PTile.Snk.run b {} s.wires.got = .ok (k, (accepted s).map (ptSeen b)) := by
  have h := (winv_run (hs_law latency _) es hc hq s hr).idle hi
  obtain ⟨r1, r2, r3⟩ := hs_rec hc hr
  have r4 := ptile_run b _ _ _ _ _ _ r3
  have hs' : ptSent (ptileEvs s.log) = accepted s := ptile_sent s.log
  obtain ⟨s1, ts, k1, k2⟩ := C42_ptile_link b hl hs (ptileEvs s.log) (by rw [hs']; exact hok)
  cases k1.symm.trans r4
  obtain ⟨w, k, fs, g1, g2, _, g3⟩ := k2 latency s.ran r2
  have hw : w = s.wires := Except.ok.inj (g1.symm.trans r1)
  subst hw
  have h1 : s.wires.drive = none := h.drive
  have h2 : s.wires.todo = [] := h.todo
  have h3 : s.wires.valid = false := h.valid
  have := g3 (by simp [hsWay, h1, h2, h3]) (by simp [ptHeld, h.cur, h.queue])
  rw [hs'] at this
  exact ⟨k, by rw [← this]; exact g2⟩

/-- UltraScale: likewise. -/
theorem C82_us_partial (b : Us.Bus) (hb : UsBus b) (l : Sq.Limits) (es : List (SrcEv UsFrame (Axis.Ev Us.Txn))) (hc : .clear ∉ es)
    (hq : Settled (us b) axis l es) (s : Src UsFrame Us.Cur Us.Txn (Axis.St Us.Txn) (Axis.Ev Us.Txn))
    (hr : (fresh axis).run (us b) axis l es = some (.ok s)) (hok : ∀ f ∈ accepted s, UsOk b.kind f) (hi : s.idleEvent = true) :
    ∃ k fs, Us.Snk.run b (Us.Snk.init b) s.wires.got = .ok (k, fs) ∧ fs.map usPlain = (accepted s).map (usSeen b) := by
  have h := (winv_run axis_law es hc hq s hr).idle hi
  obtain ⟨r1, r2, r3⟩ := axis_rec hc hr
  have r4 := us_run b _ _ _ _ _ _ r3
  have hs' : usSent (usEvs s.log) = accepted s := us_sent s.log
  obtain ⟨s1, ts, k1, k2⟩ := C40_link_partial b hb (usEvs s.log) (by rw [hs']; exact hok)
  cases k1.symm.trans r4
  obtain ⟨k, fs, g2, _, g3⟩ := k2 s.ran r2
  rw [r1] at g2 g3
  have h1 : s.wires.drive = none := h.drive
  have h2 : s.wires.todo = [] := h.todo
  have h3 : s.wires.valid = false := h.valid
  have := g3 (by simp [axisWay, h1, h2, h3]) (by simp [usHeld, h.cur, h.queue])
  rw [hs'] at this
  exact ⟨k, fs, g2, this⟩

/-- The queue of a sink: the user gets the frames in the order of their arrival, `wait` returns exactly if there is a frame, and the counters are right; without `clear`. -/
theorem C82_sink_partial {F : Type} (size : F → Nat) (es : List (SnkEv F)) (hc : .clear ∉ es) (s : Snk F) (hr : Snk.run size {} es = some s) :
    s.got ++ s.queue = s.came ∧ (s.ready = true ↔ s.queue ≠ []) ∧ s.frames = s.queue.length ∧ s.bytes = bytesIn size s.queue := by
  obtain ⟨h1, h2, h3, h4⟩ := snk_run es {} s ⟨rfl, by simp, rfl, rfl⟩ hc hr
  refine ⟨h1, ?_, h3, h4⟩
  simp only [Snk.ready, h2]
  cases s.queue <;> simp

/-- With `clear`, `wait` is still right. -/
theorem C82_sink_wait {F : Type} (size : F → Nat) (es : List (SnkEv F)) (s : Snk F) (hr : Snk.run size {} es = some s) : s.ready = true ↔ s.queue ≠ [] := by
  have := snk_active (size := size) es {} s rfl hr
  simp only [Snk.ready, this]
  cases s.queue <;> simp

/- Examples: the hypotheses can be met, and the violations. -/

/-- Two frames, one segment of four dwords, no ready latency: the histories of the source. -/
abbrev sqEvs : List (SrcEv S10Frame (Hs.Ev S10.Txn)) :=
  [.send s10Read, .work, .work, .send s10Write, .work, .bus (.edge false false), .work, .work, .bus (.edge false false), .work, .bus (.edge false false),
   .bus (.edge true false), .bus (.edge false false), .bus (.edge false false)]

abbrev sqRun (l : Sq.Limits) (es : List (SrcEv S10Frame (Hs.Ev S10.Txn))) := (fresh (hs 0 fun t => decide (t.valid ≠ 0))).run (s10 s10Bus) (hs 0 fun t => decide (t.valid ≠ 0)) l es

abbrev sqSee (r : Option (Py (Src S10Frame S10.Cur S10.Txn (Hs.St S10.Txn) (Hs.Ev S10.Txn)))) := (r.bind (·.toOption)).map fun s =>
  ((s.queue.length, s.frames, s.bytes), (s.idleEvent, s.idle), (s.given.length, s.wires.got.length), s.waiting.map (·.2))

example : sqSee (sqRun {} sqEvs) = some ((0, 0, 0), (true, true), (3, 3), []) := by decide +kernel

/-- Settled, for lists that are given. -/
def settledB {F C T B V : Type} (P : Packer F C T) (W : Wires T B V) (l : Sq.Limits) (es : List (SrcEv F V)) : Bool :=
  (List.range es.length).all fun i => match es[i]? with
    | some (.bus e) => !W.edge e || (match (fresh W : Src F C T B V).run P W l (es.take i) with | some (.ok s) => !s.canWork W | _ => true)
    | _ => true

theorem settled_of {F C T B V : Type} {P : Packer F C T} {W : Wires T B V} {l : Sq.Limits} {es : List (SrcEv F V)} (h : settledB P W l es = true) : Settled P W l es := by
  intro pre e post hes he s hs
  simp only [settledB, List.all_eq_true, List.mem_range] at h
  have := h pre.length (by rw [hes]; simp)
  rw [hes] at this
  simp [he, hs] at this
  exact this

example : Settled (s10 s10Bus) (hs 0 fun t => decide (t.valid ≠ 0)) {} sqEvs ∧ .clear ∉ sqEvs := ⟨settled_of (by decide +kernel), by simp⟩

/- A queue with the limit of one frame: two are accepted, and the third sender waits until `_run` has taken a frame. -/
example : sqSee (sqRun { frames := 1 } [.send s10Read, .send s10Read, .send s10Write]) = some ((2, 2, 6), (false, false), (0, 0), [false]) := by decide +kernel
example : sqSee (sqRun { frames := 1 } [.send s10Read, .send s10Read, .send s10Write, .work]) = some ((0, 0, 0), (false, true), (1, 0), [true]) := by decide +kernel
example : sqSee (sqRun { frames := 1 } [.send s10Read, .send s10Read, .send s10Write, .work, .retry 0]) = some ((1, 1, 12), (false, false), (1, 0), []) := by decide +kernel

/- UltraScale: a request in two transactions of 128 bits, the sink paused in between. -/
abbrev sqUs : List (SrcEv UsFrame (Axis.Ev Us.Txn)) :=
  [.send usReq, .work, .work, .work, .bus (.edge false), .work, .bus (.setPause true), .bus (.edge false), .bus (.edge true), .bus (.setPause false), .bus (.edge false), .bus (.edge false),
   .bus (.edge false), .bus (.edge false)]
example : UsBus ⟨.rq, 128, 62, 1⟩ ∧ UsOk .rq usReq ∧ Settled (us ⟨.rq, 128, 62, 1⟩) axis {} sqUs ∧ .clear ∉ sqUs ∧
    (((fresh axis).run (us ⟨.rq, 128, 62, 1⟩) axis {} sqUs).bind (·.toOption)).map (fun s => (s.idleEvent, s.idle, s.given.length, s.wires.got.length, accepted s)) =
      some (true, true, 2, 2, [usReq]) :=
  ⟨by simp [UsBus, Us.Bus.Accepted], ⟨by decide, by decide, by decide, by decide, by decide⟩, settled_of (by decide +kernel), by simp, by decide +kernel⟩

/-- `wait` can return too early: when the frame is sent at a clock edge before the source looks at that edge, the source sees nothing to drive and sets the event, while the frame is in
the queue. -/
theorem C82_wait_violated : ∃ s, sqRun {} [.send s10Read, .bus (.edge false false)] = some (.ok s) ∧ s.idleEvent = true ∧ s.queue = [s10Read] ∧ s.wires.got = [] :=
  ⟨_, rfl, rfl, rfl, rfl⟩

/-- `idle()` is true while a frame is being sent: between the moment when the source's task takes it from the queue and the next clock edge. -/
theorem C82_idle_violated : ∃ s, sqRun {} [.send s10Read, .work, .work] = some (.ok s) ∧ s.idle = true ∧ s.given.length = 1 ∧ s.wires.got = [] ∧
    Settled (s10 s10Bus) (hs 0 fun t => decide (t.valid ≠ 0)) {} [.send s10Read, .work, .work] :=
  ⟨_, rfl, rfl, rfl, rfl, settled_of (by decide +kernel)⟩

/-- `clear` empties the queue but not the counters: a source whose queue was over the limit of frames stays full for ever, and no frame is accepted any more, whatever happens. -/
theorem C82_clear_violated {F C T : Type} (P : Packer F C T) (latency : Nat) (nz : T → Bool) (f : F) :
    ∃ s, (fresh (hs latency nz) : Src F C T _ _).run P (hs latency nz) { frames := 1 } [.send f, .send f, .clear] = some (.ok s) ∧ s.queue = [] ∧
      ∀ es s', s.run P (hs latency nz) { frames := 1 } es = some (.ok s') → s'.full { frames := 1 } = true ∧ accepted s' = [f, f] :=
  clear_stuck (hs_law latency nz) f

theorem C82_axis_clear_violated {F C T : Type} (P : Packer F C T) (f : F) :
    ∃ s, (fresh axis : Src F C T _ _).run P axis { frames := 1 } [.send f, .send f, .clear] = some (.ok s) ∧ s.queue = [] ∧
      ∀ es s', s.run P axis { frames := 1 } es = some (.ok s') → s'.full { frames := 1 } = true ∧ accepted s' = [f, f] :=
  clear_stuck axis_law f

/-- Likewise for a sink: it is full for ever and takes nothing from the bus any more, though its queue is empty. -/
theorem C82_sink_clear_violated {F : Type} (size : F → Nat) (f : F) : ∃ s, Snk.run size {} [.frame f, .frame f, .clear] = some s ∧ s.queue = [] ∧
    ∀ es s', Snk.run size s es = some s' → s'.full { frames := 1 } = true := by
  refine ⟨{ frames := 2, bytes := (size f : Int) + size f, came := [f, f] }, by simp [Snk.run, Snk.step], rfl, fun es s' hr => ?_⟩
  have key : ∀ (es : List (SnkEv F)) (s s' : Snk F), 2 + (s.queue.length : Int) ≤ s.frames → Snk.run size s es = some s' → 2 + (s'.queue.length : Int) ≤ s'.frames := by
    intro es
    induction es with
    | nil => intro s s' h hr; cases hr; exact h
    | cons e es ih =>
      intro s s' h hr
      simp only [Snk.run] at hr
      split at hr
      · cases hr
      · rename_i s1 h1
        refine ih s1 s' ?_ hr
        cases e with
        | frame g => cases h1; simp; omega
        | recv =>
          simp only [Snk.step] at h1
          split at h1
          · cases h1
          · rename_i hq
            cases h1
            rw [hq] at h
            simp at h ⊢
            omega
        | clear => cases h1; simp; omega
  have := key es _ s' (by simp) hr
  simp [Snk.full, Limits.full]
  omega

/-- The limit in bytes does not count bytes but dwords: with a limit of 16 bytes, a source accepts two frames of 48 bytes. -/
theorem C82_bytes_violated : s10Write.data.length * 4 = 48 ∧ sqSee (sqRun { bytes := 16 } [.send s10Write, .send s10Write]) = some ((2, 2, 24), (false, false), (0, 0), []) := by
  decide +kernel

example : Snk.run List.length {} [.frame [1, 2], .frame [3], .recv] = some { queue := [[3]], bytes := 1, frames := 1, activeEvent := true, came := [[1, 2], [3]], got := [[1, 2]] } := by decide

end Pcie
