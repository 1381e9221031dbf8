import Verif.Lemmas.IntelLayout
import Verif.Props.S10Stream
import Verif.Props.PTileStream
/-
C52: what the Intel sources drive on the bus has the layout that the vendor documents. C42: what the Intel sinks deliver is well formed, whatever is on the bus.
-/
namespace Pcie
open Spec

/-- C52, Stratix 10: whatever is sent and however the transactions are taken, each transaction has the documented layout for some parts of frames (`S10Beat`), and these
parts are, in order, the parts of the frames that were sent; what is missing at the end is held by the source. Missing: frames whose function number makes
the source raise an exception (C42_s10_violated), and the place of the function number (next theorem). -/
theorem C52_s10_layout_partial (b : S10.Bus) (hl : 0 < b.lanes) (hs : 0 < b.segs) (evs : List S10.Ev) (hok : ∀ f ∈ s10Sent evs, S10Ok f ∧ s10FuncFits b f) :
    ∃ s ts pss rest, S10.Src.run b {} evs = .ok (s, ts) ∧ List.Forall₂ (S10Beat b) ts pss ∧
      (pss.flatMap fun ps => ps.filterMap id) ++ rest = (s10Sent evs).flatMap (fun f => cuts b.lanes f.data.length f) ∧ (s10Held s = [] → rest = []) := by
  obtain ⟨c, q, ts, pss, h1, h2, _, h4⟩ := S10.run_layout hl hs evs none [] (fun _ _ h => by cases h) (by simpa [Stream.pend] using hok)
  refine ⟨_, ts, pss, Stream.left S10.len b.lanes c q, h1, h2, by rw [h4]; simp [Stream.left], fun hh => ?_⟩
  cases c with
  | none => cases q with
    | nil => rfl
    | cons f q => simp [s10Held] at hh
  | some c => simp [s10Held] at hh

/-- C52, Stratix 10, the function number, on a bus with one segment. Missing, and false (C52_s10_func_violated): several segments. -/
theorem C52_s10_func_partial (b : S10.Bus) (hl : 0 < b.lanes) (hs : b.segs = 1) (evs : List S10.Ev) (hok : ∀ f ∈ s10Sent evs, S10Ok f ∧ f.funcNum < 4) :
    ∃ s ts pss rest, S10.Src.run b {} evs = .ok (s, ts) ∧ List.Forall₂ (S10Beat b) ts pss ∧ List.Forall₂ (S10BeatFunc b) ts pss ∧
      (pss.flatMap fun ps => ps.filterMap id) ++ rest = (s10Sent evs).flatMap (fun f => cuts b.lanes f.data.length f) := by
  obtain ⟨c, q, ts, pss, h1, h2, h3, h4⟩ := S10.run_layout hl (by omega) evs none [] (fun _ _ h => by cases h) (by
    simp only [Stream.pend, Option.toList_none, List.map_nil, List.nil_append, List.append_nil]
    intro f hf
    obtain ⟨k1, k2⟩ := hok f (by simpa using hf)
    refine ⟨k1, fun _ => ?_⟩
    rw [hs]
    simpa using k2)
  exact ⟨_, ts, pss, Stream.left S10.len b.lanes c q, h1, h2, h3 hs, by rw [h4]; simp [Stream.left]⟩

/-- With two segments, function number 1 in the second segment is at the place where the bus has function number 2. -/
theorem C52_s10_func_violated : S10Ok s10Read ∧ S10Ok { s10Read with funcNum := 1 } ∧ s10FuncFits s10Bus { s10Read with funcNum := 1 } ∧
    ((S10.Src.run s10Bus {} [.send s10Read, .send { s10Read with funcNum := 1 }, .beat]).toOption.map fun r => r.2.map fun t => (elem 1 t.sop 1, elem 2 t.funcNum 1)) =
      some [(1, 2)] :=
  ⟨⟨by decide, ⟨_, rfl, by decide⟩, by decide, by decide, by decide, by decide, by decide, by decide⟩,
   ⟨by decide, ⟨_, rfl, by decide⟩, by decide, by decide, by decide, by decide, by decide, by decide⟩, by intro _; decide, by decide +kernel⟩

/-- C52, P-Tile: the same, with the header and the prefix on the first segment of a frame. -/
theorem C52_ptile_layout (b : PTile.Bus) (hl : 0 < b.lanes) (hs : 0 < b.segs) (evs : List PTile.Ev) (hok : ∀ f ∈ ptSent evs, PTileOk f) :
    ∃ s ts pss rest, PTile.Src.run b {} evs = .ok (s, ts) ∧ List.Forall₂ (PTileBeat b) ts pss ∧
      (pss.flatMap fun ps => ps.filterMap id) ++ rest = (ptSent evs).flatMap (fun f => cuts b.lanes f.data.length f) ∧ (ptHeld s = [] → rest = []) := by
  obtain ⟨c, q, ts, pss, h1, h2, h4⟩ := PTile.run_layout hl hs evs none [] (fun _ _ h => by cases h) (by simpa [Stream.pend] using hok)
  refine ⟨_, ts, pss, Stream.left PTile.len b.lanes c q, h1, h2, by rw [h4]; simp [Stream.left], fun hh => ?_⟩
  cases c with
  | none => cases q with
    | nil => rfl
    | cons f q => simp [ptHeld] at hh
  | some c => simp [ptHeld] at hh

/-- C42: whatever is on the bus, the frames that the Stratix 10 sink delivers have as many dwords as their header says, and every field within its width;
anything else is reported as a framing error. -/
theorem C42_s10_sink_sound (b : S10.Bus) (hl : 0 < b.lanes) (ts : List S10.Txn) (k : S10.Snk) (fs : List S10Frame) (h : S10.Snk.run b {} ts = .ok (k, fs)) :
    ∀ f ∈ fs, S10Ok f :=
  (S10.run_sink hl ts {} (fun f hf => by cases hf) h).2

/-- C42: the same for the P-Tile sink. -/
theorem C42_ptile_sink_sound (b : PTile.Bus) (ts : List PTile.Txn) (k : PTile.Snk) (fs : List PTileFrame) (h : PTile.Snk.run b {} ts = .ok (k, fs)) :
    ∀ f ∈ fs, PTileOk f :=
  (PTile.run_sink ts {} (fun f hf => by cases hf) h).2

/-! ### The hypotheses can hold -/

/- Frames and buses are in Props/S10Stream and Props/PTileStream. The second transaction of this history has the last eight dwords of the write. -/
example : ((S10.Src.run s10Bus {} [.send s10Read, .send s10Write, .beat, .beat]).toOption.map fun r => r.2.map fun t =>
    [elem 1 t.sop 0, elem 1 t.sop 1, elem 32 t.data 4, elem 32 t.data 7, elem 2 t.empty 0, elem 2 t.empty 1, elem 11 t.vfNum 1, elem 3 t.barRange 0]) =
    some [[1, 1, 0x40000009, 1, 1, 0, 5, 2], [0, 0, 6, 9, 0, 0, 5, 1]] := by decide +kernel
example : ((PTile.Src.run ptBus {} [.send ptRead, .send ptWrite, .beat, .beat]).toOption.map fun r => r.2.map fun t =>
    [elem 1 t.sop 0, elem 1 t.sop 1, elem 32 t.data 4, elem 32 t.data 7, elem 2 t.empty 1, elem 11 t.vfNum 1, elem 128 t.hdr 1]) =
    some [[1, 1, 1, 4, 0, 5, 0x40000009_010000ff_00002000_00000000], [0, 0, 9, 0, 3, 5, 0]] := by decide +kernel
/- A read of one dword in one segment arrives; with the end marker in the wrong place, it is an error. -/
example : ((S10.Snk.run s10Bus {} [{ data := 0x1000_0100000f_00000001, sop := 1, eop := 1, valid := 1, empty := 1 }]).toOption.map fun r => r.2.map (·.data)) =
    some [[0x00000001, 0x0100000f, 0x1000]] := by decide +kernel
example : S10.Snk.run s10Bus {} [{ data := 0x1000_010000ff_40000009, sop := 1, eop := 1, valid := 1 }] = .error "framing error: incorrect length or early eop" := by rfl
example : ((PTile.Snk.run ptBus {} [{ hdr := 0x00000001_0100000f_00001000_00000000, sop := 1, eop := 1, valid := 1 }]).toOption.map fun r => r.2.map (·.data)) =
    some [[]] := by decide +kernel

end Pcie
