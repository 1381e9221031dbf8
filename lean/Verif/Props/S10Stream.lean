import Verif.Lemmas.S10Stream
import Verif.Props.FrameTlp
/-
C42: the Stratix 10 source and sink reassemble the same frames.
-/
namespace Pcie
open Spec S10

/-- For every bus, every sequence of frames and every timing (sends and transactions in any order): neither side reports an error,
and what the sink has received followed by what the source still holds is what was sent, in order. Missing (and false, see below): function
numbers that do not fit, because the code shifts them by 3 bits for each segment on a bus with 2 bits for each segment. -/
theorem C42_s10_stream_partial (b : S10.Bus) (hl : 0 < b.lanes) (evs : List Ev) (hok : ∀ f ∈ s10Sent evs, S10Ok f ∧ s10FuncFits b f) :
    ∃ s ts k fs, Src.run b {} evs = .ok (s, ts) ∧ Snk.run b {} ts = .ok (k, fs) ∧
      fs ++ (s10Held s).map (s10Seen b) = (s10Sent evs).map (s10Seen b) := by
  obtain ⟨c, q, ts, k, out, h1, h2, h3, _, _⟩ := run_ok hl evs none [] {} (by intro f off h; cases h) (by simpa [Stream.pend] using hok) rfl
  refine ⟨_, ts, k, _, h1, h2, ?_⟩
  rw [← List.map_append]
  congr 1
  rw [s10Held, toCur_frame]
  simpa [Stream.pend] using h3

/-- After enough further transactions, everything that was sent has been received. -/
theorem C42_s10_delivered_partial (b : S10.Bus) (hl : 0 < b.lanes) (hs : 0 < b.segs) (evs : List Ev)
    (hok : ∀ f ∈ s10Sent evs, S10Ok f ∧ s10FuncFits b f) :
    ∃ n ts k, Src.run b {} (evs ++ List.replicate n .beat) = .ok ({}, ts) ∧ Snk.run b {} ts = .ok (k, (s10Sent evs).map (s10Seen b)) := by
  obtain ⟨c, q, ts, k, out, h1, h2, h3, h4, h5⟩ := run_ok hl evs none [] {} (by intro f off h; cases h) (by simpa [Stream.pend] using hok) rfl
  obtain ⟨ts', hd⟩ := drain_ok hl hs (Stream.work len c q) c q h5 (fun f hf => hok f (by
    have : f ∈ out ++ Stream.pend c q := List.mem_append_right _ hf
    rw [h3] at this; simpa [Stream.pend] using this)) (Nat.le_refl _)
  have hr := run_append _ _ _ _ _ _ _ h1 hd
  obtain ⟨s, ts2, k2, fs, g1, g2, g3⟩ := C42_s10_stream_partial b hl (evs ++ List.replicate (Stream.work len c q) .beat) (by
    intro f hf
    apply hok f
    simpa [s10Sent, List.filterMap_append, List.filterMap_replicate] using hf)
  have he : (({} : Src), ts ++ ts') = (s, ts2) := Except.ok.inj (hr.symm.trans g1)
  cases he
  refine ⟨_, _, k2, hr, ?_⟩
  rw [g2]
  have : s10Sent (evs ++ List.replicate (Stream.work len c q) Ev.beat) = s10Sent evs := by
    simp [s10Sent, List.filterMap_append, List.filterMap_replicate]
  rw [this] at g3
  simp only [s10Held, Option.map_none, Option.toList_none, List.append_nil, List.map_nil] at g3
  rw [g3]

/-- A Stratix 10 frame for a TLP whose length field is right can be sent. -/
theorem C42_s10_tlp_ok (ty : TlpType) (t : Tlp) (h : Encodable ty t) (hd : t.data.length = if t.hasData then 4 * t.length else 0)
    {f : S10Frame} (hf : S10Frame.fromTlp t = .ok f) : S10Ok f := by
  obtain ⟨hdr, h1, h2, _⟩ := packHeader_length t ty h
  obtain ⟨hw, a1, a2, a3, a4⟩ := beDwords_ok hdr (by omega)
  obtain ⟨dw, b1, b2, b3, b4⟩ := leDwords_ok t.data (by rw [hd]; split <;> omega)
  simp only [S10Frame.fromTlp, h1, a1, b1, bind, Except.bind] at hf
  cases hf
  have hfirst := beDwords_first t ty h h1 a1
  obtain ⟨c1, c2, c3⟩ := dw0_count t ty h
  have hs : t.headerSizeDw = 3 ∨ t.headerSizeDw = 4 := by rw [Tlp.headerSizeDw]; split <;> simp
  have hp : ∀ d, dwordParity d ^^^ 0xf < 16 := fun d => Nat.xor_lt_two_pow (n := 4) (dwordParity_lt d) (by decide)
  refine ⟨?_, ⟨t.headerDw0, ?_, ?_⟩, ?_, ?_, ?_, ?_, ?_, ?_⟩
  · intro d hd
    rcases List.mem_append.mp hd with hd | hd
    · exact a4 d hd
    · exact b4 d hd
  · simp only [S10Frame.updateParity]
    rw [List.getElem?_append_left (by omega), hfirst]
  · simp only [S10Frame.updateParity, List.length_append, tlpDwords, c1, c2]
    by_cases hdt : t.hasData = true
    · rw [if_pos hdt] at hd
      rw [c3 hdt]
      rcases hs with hs | hs <;> simp [hs, hdt] <;> omega
    · rw [if_neg hdt] at hd
      rcases hs with hs | hs <;> simp [hs, hdt] <;> omega
  · intro p hp'
    simp only [S10Frame.updateParity, List.mem_map] at hp'
    obtain ⟨d, _, rfl⟩ := hp'
    exact hp d
  · simp [S10Frame.updateParity]
  all_goals simp [S10Frame.updateParity]

/-- TLPs that are sent as frames are all received, in order, for every timing. -/
theorem C42_s10_tlps (b : S10.Bus) (hl : 0 < b.lanes) (hs : 0 < b.segs) (evs : List Ev) (tlps : List Tlp)
    (ht : ∀ t ∈ tlps, ∃ ty, Encodable ty t ∧ t.data.length = if t.hasData then 4 * t.length else 0)
    (hsent : (s10Sent evs).map Except.ok = tlps.map S10Frame.fromTlp) :
    ∃ n ts k fs, Src.run b {} (evs ++ List.replicate n .beat) = .ok ({}, ts) ∧ Snk.run b {} ts = .ok (k, fs) ∧
      fs.map S10Frame.toTlp = tlps.map Except.ok := by
  have key : ∀ f ∈ s10Sent evs, ∃ t ∈ tlps, S10Frame.fromTlp t = .ok f := by
    intro f hf
    have : Except.ok f ∈ tlps.map S10Frame.fromTlp := by rw [← hsent]; exact List.mem_map_of_mem hf
    obtain ⟨t, h1, h2⟩ := List.mem_map.mp this
    exact ⟨t, h1, h2⟩
  obtain ⟨n, ts, k, h1, h2⟩ := C42_s10_delivered_partial b hl hs evs (by
    intro f hf
    obtain ⟨t, t1, t2⟩ := key f hf
    obtain ⟨ty, hty, hd⟩ := ht t t1
    refine ⟨C42_s10_tlp_ok ty t hty hd t2, fun _ => ?_⟩
    have h0 : f.funcNum = 0 := by
      simp only [S10Frame.fromTlp, bind, Except.bind] at t2
      split at t2
      · cases t2
      split at t2
      · cases t2
      split at t2
      · cases t2
      cases t2
      rfl
    rw [h0, Nat.zero_mul]; exact Nat.two_pow_pos _)
  refine ⟨n, ts, k, _, h1, h2, ?_⟩
  rw [List.map_map]
  have e : ∀ (l : List S10Frame) (m : List Tlp), l.map Except.ok = m.map S10Frame.fromTlp →
      (∀ t ∈ m, ∃ ty, Encodable ty t ∧ t.data.length = if t.hasData then 4 * t.length else 0) →
      l.map (S10Frame.toTlp ∘ s10Seen b) = m.map Except.ok := by
    intro l
    induction l with
    | nil => intro m h _; cases m <;> simp_all
    | cons f l ih =>
      intro m h hm
      cases m with
      | nil => simp at h
      | cons t m =>
        simp only [List.map_cons, List.cons.injEq] at h ⊢
        refine ⟨?_, ih m h.2 (fun x hx => hm x (List.mem_cons_of_mem _ hx))⟩
        obtain ⟨ty, hty, hd⟩ := hm t (by simp)
        obtain ⟨f', g1, g2, _⟩ := C42_s10_tlp ty t hty (by rw [hd]; split <;> omega)
        rw [← h.1] at g1
        cases g1
        exact g2
  exact e _ _ hsent ht

/-- A frame of three dwords (a read request). -/
def s10Read : S10Frame := S10Frame.updateParity { data := [0x00000001, 0x0100000f, 0x1000], barRange := 2 }

/-- A frame of 3 + 9 dwords (a write). -/
def s10Write : S10Frame :=
  S10Frame.updateParity { data := [0x40000009, 0x010000ff, 0x2000, 1, 2, 3, 4, 5, 6, 7, 8, 9], barRange := 1, vfNum := some 5, funcNum := 1 }

/- The hypotheses can be met; two segments of four dwords, with a frame that starts in the second segment. -/
def s10Bus : S10.Bus := { segs := 2, lanes := 4 }

example : S10Ok s10Read ∧ s10FuncFits s10Bus s10Read :=
  ⟨⟨by decide, ⟨_, rfl, by decide⟩, by decide, by decide, by decide, by decide, by decide, by decide⟩, by intro _; decide⟩
example : S10Ok s10Write ∧ s10FuncFits s10Bus s10Write :=
  ⟨⟨by decide, ⟨_, rfl, by decide⟩, by decide, by decide, by decide, by decide, by decide, by decide⟩, by intro _; decide⟩
example : ((Src.run s10Bus {} [.send s10Read, .send s10Write, .beat, .send s10Read, .beat, .beat, .beat]).toOption.map
    fun r => (r.2.map (·.sop), r.2.map (·.eop), r.2.map (·.valid), r.1)) = some ([0b11, 0b00, 0b01], [0b01, 0b10, 0b01], [0b11, 0b11, 0b01], {}) := by decide +kernel

/-- The property is violated for function number 2 in the second segment: the source raises an exception. -/
theorem C42_s10_violated : S10Ok s10Read ∧ S10Ok { s10Read with funcNum := 2 } ∧
    Src.run s10Bus {} [.send s10Read, .send { s10Read with funcNum := 2 }, .beat] = .error "OverflowError" :=
  ⟨⟨by decide, ⟨_, rfl, by decide⟩, by decide, by decide, by decide, by decide, by decide, by decide⟩,
   ⟨by decide, ⟨_, rfl, by decide⟩, by decide, by decide, by decide, by decide, by decide, by decide⟩, by rfl⟩

end Pcie
