import Verif.Lemmas.UsLayout
/-
C52: what the UltraScale sources drive on the bus has the layout that the vendor documents.
-/
namespace Pcie
open Spec

/-- C52: whatever is sent and however the transactions are taken, each transaction on the bus has the documented layout for some parts of frames (`UsBeat`:
data, `tkeep`, `tlast`, start and end markers with their pointers, sequence numbers, byte enables and parity of the dwords, `discontinue`; zero elsewhere), and
these parts are, in order, the parts of the frames that were sent. What is missing at the end is held by the source. The byte enables at the start of a frame are
in `C52_us_be_partial`. -/
theorem C52_us_layout {b : Us.Bus} (hb : UsBus b) (evs : List Us.Ev) (hok : ∀ f ∈ usSent evs, UsOk b.kind f) :
    ∃ s ts pss rest, Us.Src.run b {} evs = .ok (s, ts) ∧ List.Forall₂ (UsBeat b) ts pss ∧
      (pss.flatMap fun ps => ps.filterMap id) ++ rest = (usSent evs).flatMap (usCuts (usLanes b)) ∧ (usHeld s = [] → rest = []) := by
  obtain ⟨c, q, ts, pss, h1, h2, _, h4⟩ := Us.run_layout hb evs none [] (fun _ _ h => by cases h) (by simpa [Stream.pend] using hok)
  refine ⟨_, ts, pss, Us.partsLeft b.lanes c q, h1, h2, ?_, fun hh => ?_⟩
  · rw [h4]; simp [Us.partsLeft]; rfl
  · cases c with
    | none => cases q with
      | nil => rfl
      | cons f q => simp [usHeld] at hh
    | some c => simp [usHeld] at hh

/-- C52, the byte enables at the start of a frame: on every interface except the completer request interface with two segments, element `j` belongs to the `j`-th
frame that starts in the transaction. -/
theorem C52_us_be_partial {b : Us.Bus} (hb : UsBus b) (hc : b.kind = .cq → b.segs = 1) (evs : List Us.Ev) (hok : ∀ f ∈ usSent evs, UsOk b.kind f) :
    ∃ s ts pss rest, Us.Src.run b {} evs = .ok (s, ts) ∧ List.Forall₂ (UsBeat b) ts pss ∧ List.Forall₂ (UsBeatBe b) ts pss ∧
      (pss.flatMap fun ps => ps.filterMap id) ++ rest = (usSent evs).flatMap (usCuts (usLanes b)) := by
  obtain ⟨c, q, ts, pss, h1, h2, h3, h4⟩ := Us.run_layout hb evs none [] (fun _ _ h => by cases h) (by simpa [Stream.pend] using hok)
  refine ⟨_, ts, pss, Us.partsLeft b.lanes c q, h1, h2, h3 hc, ?_⟩
  rw [h4]; simp [Us.partsLeft]; rfl

/-! ### The completer request interface with two segments -/

/-- A frame with `n` dwords and all the byte enables set. -/
def lbFrame (n : Nat) : UsFrame := { data := List.replicate n 7, byteEn := List.replicate n 15, parity := List.replicate n 3, firstBe := 15, lastBe := 15 }

def lbEvs : List Us.Ev := [.send (lbFrame 20), .send (lbFrame 8), .beat, .beat]

theorem lbFrame_ok (k : Us.Kind) {n : Nat} (hn : 0 < n) : UsOk k (lbFrame n) := by
  refine ⟨?_, ?_, ?_, ?_, fun _ => ⟨?_, ?_⟩⟩
  · intro h
    have := congrArg List.length h
    simp [lbFrame] at this
    omega
  · intro d hd; rw [List.eq_of_mem_replicate hd]; decide
  · intro d hd; rw [List.eq_of_mem_replicate hd]; decide
  · simp [lbFrame]
  · simp [lbFrame]
  · intro d hd; rw [List.eq_of_mem_replicate hd]; decide

theorem lb_two {x : Py (Us.Src × List Us.Txn)} {g1 g2 g3 : Us.Txn → Option Nat} {a1 a2 a3 b1 b2 b3 : Option Nat}
    (h : (x.toOption.map fun r => r.2.map fun t => (g1 t, g2 t, g3 t)) = some [(a1, a2, a3), (b1, b2, b3)]) :
    ∃ s t t', x = .ok (s, [t, t']) ∧ g1 t' = b1 ∧ g2 t' = b2 ∧ g3 t' = b3 := by
  cases x with
  | error e => simp [Except.toOption] at h
  | ok r =>
    obtain ⟨s, ts⟩ := r
    rcases ts with _ | ⟨t, _ | ⟨t', _ | ⟨_, _⟩⟩⟩ <;> simp [Except.toOption] at h
    exact ⟨s, t, t', rfl, h.2⟩

/-- The second transaction of this history has the end of the first frame in segment 0 and the second frame in segment 1: one start, whose byte enables are not in
the first element. -/
theorem C52_us_cq_be_violated : ∃ (b : Us.Bus) (evs : List Us.Ev) (s : Us.Src) (t t' : Us.Txn), UsBus b ∧ (∀ f ∈ usSent evs, UsOk b.kind f) ∧
    (∀ f ∈ usSent evs, f.firstBe = 15) ∧ Us.Src.run b {} evs = .ok (s, [t, t']) ∧
    usSig b t' .isSop 0 = some 1 ∧ usSig b t' .isSop 1 = some 0 ∧ usSig b t' .firstBe 0 = some 0 := by
  have h1 : ((Us.Src.run ⟨.cq, 512, 183, 2⟩ {} lbEvs).toOption.map fun r => r.2.map fun t =>
      (usSig ⟨.cq, 512, 183, 2⟩ t .isSop 0, usSig ⟨.cq, 512, 183, 2⟩ t .isSop 1, usSig ⟨.cq, 512, 183, 2⟩ t .firstBe 0)) =
      some [(some 1, some 0, some 15), (some 1, some 0, some 0)] := by decide +kernel
  obtain ⟨s, t, t', hr, h2⟩ := lb_two h1
  refine ⟨_, lbEvs, s, t, t', ⟨⟨by decide, by decide⟩, by decide⟩, ?_, ?_, hr, h2⟩
  · intro f hf
    simp [lbEvs, usSent] at hf
    rcases hf with rfl | rfl <;> exact lbFrame_ok _ (by decide)
  · intro f hf
    simp [lbEvs, usSent] at hf
    rcases hf with rfl | rfl <;> rfl

/-! ### The hypotheses can hold -/

/-- On the requester request bus with two segments the same history has the byte enables in the first element, and the hypotheses hold. -/
example : UsBus ⟨.rq, 512, 137, 2⟩ ∧ (∀ f ∈ usSent lbEvs, UsOk .rq f) ∧
    ((Us.Src.run ⟨.rq, 512, 137, 2⟩ {} lbEvs).toOption.map fun r => r.2.map fun t =>
      (usSig ⟨.rq, 512, 137, 2⟩ t .isSop 0, usSig ⟨.rq, 512, 137, 2⟩ t .isSopPtr 0, usSig ⟨.rq, 512, 137, 2⟩ t .firstBe 0, usSig ⟨.rq, 512, 137, 2⟩ t .isEopPtr 0)) =
      some [(some 1, some 0, some 15, some 0), (some 1, some 2, some 15, some 3)] := by
  refine ⟨⟨⟨by decide, by decide⟩, by decide⟩, ?_, by decide +kernel⟩
  intro f hf
  simp [lbEvs, usSent] at hf
  rcases hf with rfl | rfl <;> exact lbFrame_ok _ (by decide)

end Pcie
