import Verif.Lemmas.UsStream
import Verif.Props.Handshake
/-
C40: the UltraScale sources and sinks reassemble the same frames.
-/
namespace Pcie
open Spec Us

/-- For every interface, bus width and straddle mode, every sequence of frames and every timing (sends and transactions in any order): neither side
reports an error, and what the sink has received followed by what the source still holds is what was sent, in order. Missing: requester completion interfaces of
64 and 128 bits with two segments (C40_straddle_violated). The discontinue flag is left out here; it is in `C40_discontinue_partial`. -/
theorem C40_stream_partial (b : Us.Bus) (h : UsBus b) (evs : List Us.Ev) (hok : ∀ f ∈ usSent evs, UsOk b.kind f) :
    ∃ s ts k fs, Src.run b {} evs = .ok (s, ts) ∧ Snk.run b (Snk.init b) ts = .ok (k, fs) ∧
      fs.map usPlain ++ (usHeld s).map (usSeen b) = (usSent evs).map (usSeen b) := by
  obtain ⟨c, q, ts, k, fs, out, h1, h2, h3, h4, _, _⟩ := run_ok h (bad := True) evs none [] (Snk.init b) (by intro f off h; cases h)
    (by simpa [Stream.pend] using hok) (fun _ _ _ _ => trivial) (init_rel b)
  refine ⟨_, ts, k, fs, h1, h2, ?_⟩
  rw [usHeld, toCur_frame, got_plain h3, ← List.map_append]
  rw [show out ++ ((c.map (·.1)).toList ++ q) = usSent evs from h4]

/-- The discontinue flag: a frame that is sent with it arrives with it; without straddling, one that is sent without it arrives without it; and
if no frame is sent with it, none arrives with it. Missing: straddled buses (C40_discontinue_violated). -/
theorem C40_discontinue_partial (b : Us.Bus) (h : UsBus b) (evs : List Us.Ev) (hok : ∀ f ∈ usSent evs, UsOk b.kind f) :
    ∃ s ts k fs, Src.run b {} evs = .ok (s, ts) ∧ Snk.run b (Snk.init b) ts = .ok (k, fs) ∧ fs.length + (usHeld s).length = (usSent evs).length ∧
      ∀ (i : Nat) (r f : UsFrame), fs[i]? = some r → (usSent evs)[i]? = some f →
        (f.discontinue = true → r.discontinue = true) ∧ (b.segs = 1 ∨ (∀ g ∈ usSent evs, g.discontinue = false) → r.discontinue = f.discontinue) := by
  obtain ⟨c, q, ts, k, fs, out, h1, h2, h3, h4, _, _⟩ := run_ok h (bad := b.segs ≠ 1 ∧ ∃ g ∈ usSent evs, g.discontinue = true) evs none [] (Snk.init b)
    (by intro f off h; cases h) (by simpa [Stream.pend] using hok) (fun hs f hf hd => ⟨hs, f, by simpa [Stream.pend] using hf, hd⟩) (init_rel b)
  have h4' : out ++ Stream.pend c q = usSent evs := by simpa [Stream.pend] using h4
  refine ⟨_, ts, k, fs, h1, h2, ?_, fun i r f hr hf => ?_⟩
  · rw [usHeld, toCur_frame, ← h4', got_length h3, Stream.pend]; simp only [List.length_append]
  · have hi : i < out.length := by rw [← got_length h3]; exact (List.getElem?_eq_some_iff.mp hr).1
    rw [← h4', List.getElem?_append_left hi] at hf
    obtain ⟨d, rfl, d1, d2⟩ := got_get h3 hr hf
    refine ⟨d1, fun hh => ?_⟩
    show d = f.discontinue
    cases hd : d with
    | true =>
      rcases d2 hd with hfd | ⟨hs, g, hg, hgd⟩
      · exact hfd.symm
      · rcases hh with hh | hh
        · exact absurd hh hs
        · rw [hh g hg] at hgd; cases hgd
    | false =>
      cases hfd : f.discontinue with
      | false => rfl
      | true => rw [d1 hfd] at hd; cases hd

/-- After enough further transactions, everything that was sent has been received. Missing: as in `C40_stream_partial`. -/
theorem C40_delivered_partial (b : Us.Bus) (h : UsBus b) (evs : List Us.Ev) (hok : ∀ f ∈ usSent evs, UsOk b.kind f) :
    ∃ n ts k fs, Src.run b {} (evs ++ List.replicate n .beat) = .ok ({}, ts) ∧ Snk.run b (Snk.init b) ts = .ok (k, fs) ∧
      fs.map usPlain = (usSent evs).map (usSeen b) := by
  obtain ⟨c, q, ts, k, fs, out, h1, h2, h3, h4, h5, h6⟩ := run_ok h (bad := True) evs none [] (Snk.init b) (by intro f off h; cases h)
    (by simpa [Stream.pend] using hok) (fun _ _ _ _ => trivial) (init_rel b)
  obtain ⟨ts', hd⟩ := drain_ok h (Stream.work len c q) c q h6 (fun f hf => hok f (by
    have : f ∈ out ++ Stream.pend c q := List.mem_append_right _ hf
    rw [h4] at this; simpa [Stream.pend] using this)) (Nat.le_refl _)
  have hr := run_append _ _ _ _ _ _ _ h1 hd
  have hsame : usSent (evs ++ List.replicate (Stream.work len c q) Ev.beat) = usSent evs := by
    simp [usSent, List.filterMap_append, List.filterMap_replicate]
  obtain ⟨s, ts2, k2, fs, g1, g2, g3⟩ := C40_stream_partial b h (evs ++ List.replicate (Stream.work len c q) .beat) (by rwa [hsame])
  have he : (({} : Src), ts ++ ts') = (s, ts2) := Except.ok.inj (hr.symm.trans g1)
  cases he
  refine ⟨_, _, k2, fs, hr, g2, ?_⟩
  rw [hsame] at g3
  simpa [usHeld] using g3

/-- Through the handshake: for every history of the source and every pattern of pauses and full queues, the sink has the first of the frames that were sent; it has
all of them when nothing is left on the way. Missing: as in `C40_stream_partial`. -/
theorem C40_link_partial (b : Us.Bus) (h : UsBus b) (evs : List Us.Ev) (hok : ∀ f ∈ usSent evs, UsOk b.kind f) :
    ∃ s ts, Src.run b {} evs = .ok (s, ts) ∧ ∀ es : List (Axis.Ev Us.Txn), axisGiven es = ts →
      ∃ k fs, Snk.run b (Snk.init b) (Axis.St.run {} es).got = .ok (k, fs) ∧ fs.map usPlain <+: (usSent evs).map (usSeen b) ∧
        (axisWay (Axis.St.run {} es) = [] → usHeld s = [] → fs.map usPlain = (usSent evs).map (usSeen b)) := by
  obtain ⟨s, ts, k, fs, h1, h2, h3⟩ := C40_stream_partial b h evs hok
  refine ⟨s, ts, h1, fun es hes => ?_⟩
  have g2 := C50_axis es
  rw [hes] at g2
  rw [← g2] at h2
  obtain ⟨k1, f1, e1, e2⟩ := snk_prefix _ _ _ _ _ h2
  refine ⟨k1, f1, e1, ?_, fun hw hh => ?_⟩
  · rw [← h3]; exact (e2.map usPlain).trans (List.prefix_append _ _)
  · rw [hw, List.append_nil, e1] at h2
    cases h2
    rw [← h3, hh]; simp

/-- A requester request of five dwords. -/
def usReq : UsFrame := { data := [0x1000, 0, 0x80000801, 0x10, 0xdeadbeef], parity := [0xe, 0xf, 0xc, 0xe, 0x2], firstBe := 0xf, lastBe := 0x3, seqNum := 37 }

/-- A requester request of four dwords. -/
def usReq4 : UsFrame := { data := [0x2000, 0, 0x80000800, 0x20], parity := [0xe, 0xf, 0xd, 0xe], firstBe := 0x1, seqNum := 21 }

/-- A requester completion. -/
def usCpl : UsFrame := { data := [0x40001, 0x1000001, 0x100, 0x12345678, 0x9abcdef0], parity := [0xb, 0xa, 0xd, 0xf, 0xf], byteEn := [0, 0, 0, 0xf, 0x3] }

/- The hypotheses can be met. -/
example : UsBus ⟨.rq, 512, 137, 2⟩ ∧ UsBus ⟨.rc, 512, 161, 4⟩ ∧ UsBus ⟨.rc, 256, 75, 2⟩ ∧ UsBus ⟨.cq, 64, 85, 1⟩ ∧ UsBus ⟨.cc, 128, 33, 1⟩ := by
  simp [UsBus, Bus.Accepted]
example : UsOk .rq usReq ∧ UsOk .rq usReq4 ∧ UsOk .rc usCpl :=
  ⟨⟨by decide, by decide, by decide, by decide, by decide⟩, ⟨by decide, by decide, by decide, by decide, by decide⟩,
   ⟨by decide, by decide, by decide, by decide, by decide⟩⟩
/- Two segments: three requests in two transactions; the second starts in the second segment of the first. -/
example : ((Src.run ⟨.rq, 512, 137, 2⟩ {} [.send usReq, .send usReq4, .send usReq, .beat, .beat, .beat]).toOption.bind fun r =>
    (Snk.run ⟨.rq, 512, 137, 2⟩ (Snk.init ⟨.rq, 512, 137, 2⟩) r.2).toOption.map fun k => (r.2.map (·.tkeep), k.2)) =
      some ([0x0f1f, 0x001f], [usReq, usReq4, usReq]) := by decide +kernel
/- Two segments of four dwords: completions that straddle. -/
example : ((Src.run ⟨.rc, 256, 75, 2⟩ {} [.send usCpl, .send usCpl, .send usCpl, .beat, .beat, .beat]).toOption.bind fun r =>
    (Snk.run ⟨.rc, 256, 75, 2⟩ (Snk.init ⟨.rc, 256, 75, 2⟩) r.2).toOption.map fun k => (r.2.map (·.tkeep), k.2)) =
      some ([0x1f, 0x1f, 0x1f], [usCpl, usCpl, usCpl]) := by decide +kernel

/-- The discontinue flag spreads: on a straddled bus, a frame that shares a transaction with a discontinued frame arrives with the flag. -/
theorem C40_discontinue_violated : UsBus ⟨.rq, 512, 137, 2⟩ ∧ UsOk .rq usReq ∧ UsOk .rq { usReq4 with discontinue := true } ∧
    ((Src.run ⟨.rq, 512, 137, 2⟩ {} [.send usReq, .send { usReq4 with discontinue := true }, .beat]).toOption.bind fun r =>
      (Snk.run ⟨.rq, 512, 137, 2⟩ (Snk.init ⟨.rq, 512, 137, 2⟩) r.2).toOption.map (·.2)) =
        some [{ usReq with discontinue := true }, { usReq4 with discontinue := true }] :=
  ⟨by simp [UsBus, Bus.Accepted], ⟨by decide, by decide, by decide, by decide, by decide⟩, ⟨by decide, by decide, by decide, by decide, by decide⟩, by decide +kernel⟩

/-- Straddling on a narrow requester completion bus: the constructors accept it, the source sends, and the sink raises an exception on the first transaction. -/
theorem C40_straddle_violated : (⟨.rc, 128, 75, 2⟩ : Us.Bus).Accepted ∧ UsOk .rc usCpl ∧
    ((Src.run ⟨.rc, 128, 75, 2⟩ {} [.send usCpl, .beat]).toOption.map fun r =>
      decide (Snk.run ⟨.rc, 128, 75, 2⟩ (Snk.init ⟨.rc, 128, 75, 2⟩) r.2 = .error "AttributeError")) = some true :=
  ⟨by simp [Bus.Accepted], ⟨by decide, by decide, by decide, by decide, by decide⟩, by decide +kernel⟩

end Pcie
