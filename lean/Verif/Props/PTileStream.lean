import Verif.Lemmas.PTileStream
import Verif.Props.S10Stream
/-
C42: the P-Tile source and sink reassemble the same frames.
-/
namespace Pcie
open Spec PTile

/-- For every bus, every sequence of frames and every timing (sends and transactions in any order): neither side reports an error,
and what the sink has received followed by what the source still holds is what was sent, in order (except for the abort flag, which is not
carried; see below). -/
theorem C42_ptile_stream (b : PTile.Bus) (hl : 0 < b.lanes) (evs : List Ev) (hok : ∀ f ∈ ptSent evs, PTileOk f) :
    ∃ s ts k fs, Src.run b {} evs = .ok (s, ts) ∧ Snk.run b {} ts = .ok (k, fs) ∧
      fs ++ (ptHeld s).map (ptSeen b) = (ptSent evs).map (ptSeen b) := by
  obtain ⟨c, q, ts, k, out, h1, h2, h3, _, _⟩ := run_ok hl evs none [] {} (by intro f off h; cases h) (by simpa [Stream.pend] using hok) rfl
  refine ⟨_, ts, k, _, h1, h2, ?_⟩
  rw [← List.map_append]
  congr 1
  rw [ptHeld, toCur_frame]
  simpa [Stream.pend] using h3

/-- After enough further transactions, everything that was sent has been received. -/
theorem C42_ptile_delivered (b : PTile.Bus) (hl : 0 < b.lanes) (hs : 0 < b.segs) (evs : List Ev)
    (hok : ∀ f ∈ ptSent evs, PTileOk f) :
    ∃ n ts k, Src.run b {} (evs ++ List.replicate n .beat) = .ok ({}, ts) ∧ Snk.run b {} ts = .ok (k, (ptSent evs).map (ptSeen b)) := by
  obtain ⟨c, q, ts, k, out, h1, h2, h3, h4, h5⟩ := run_ok hl evs none [] {} (by intro f off h; cases h) (by simpa [Stream.pend] using hok) rfl
  obtain ⟨ts', hd⟩ := drain_ok hl hs (Stream.work len c q) c q h5 (fun f hf => hok f (by
    have : f ∈ out ++ Stream.pend c q := List.mem_append_right _ hf
    rw [h3] at this; simpa [Stream.pend] using this)) (Nat.le_refl _)
  have hr := run_append _ _ _ _ _ _ _ h1 hd
  obtain ⟨s, ts2, k2, fs, g1, g2, g3⟩ := C42_ptile_stream b hl (evs ++ List.replicate (Stream.work len c q) .beat) (by
    intro f hf
    apply hok f
    simpa [ptSent, List.filterMap_append, List.filterMap_replicate] using hf)
  have he : (({} : Src), ts ++ ts') = (s, ts2) := Except.ok.inj (hr.symm.trans g1)
  cases he
  refine ⟨_, _, k2, hr, ?_⟩
  rw [g2]
  have : ptSent (evs ++ List.replicate (Stream.work len c q) Ev.beat) = ptSent evs := by
    simp [ptSent, List.filterMap_append, List.filterMap_replicate]
  rw [this] at g3
  simp only [ptHeld, Option.map_none, Option.toList_none, List.append_nil, List.map_nil] at g3
  rw [g3]

/-- A P-Tile frame for a TLP whose length field is right can be sent. -/
theorem C42_ptile_tlp_ok (ty : TlpType) (t : Tlp) (h : Encodable ty t) (hd : t.data.length = if t.hasData then 4 * t.length else 0)
    {f : PTileFrame} (hf : PTileFrame.fromTlp t = .ok f) : PTileOk f := by
  obtain ⟨hdr, h1, h2, _⟩ := packHeader_length t ty h
  obtain ⟨dw, b1, b2, b3, b4⟩ := leDwords_ok t.data (by rw [hd]; split <;> omega)
  simp only [PTileFrame.fromTlp, h1, b1, bind, Except.bind] at hf
  cases hf
  obtain ⟨r, r1, r2⟩ := ljust_top t ty h h1
  obtain ⟨c1, c2, c3⟩ := dw0_count t ty h
  have h0 := headerDw0_lt t ty h
  have hlt : t.headerDw0 * 2 ^ 96 + r < 2 ^ 128 := by omega
  refine ⟨?_, ?_, b4, ?_, ?_, ?_, ?_, ?_, ?_, ?_, ?_, ?_⟩
  · simp [PTileFrame.updateParity]
  · simp only [PTileFrame.updateParity]; rw [r1]; exact hlt
  · simp only [PTileFrame.updateParity]
    have e1 : (t.headerDw0 * 2 ^ 96 + r).testBit 126 = t.hasData := by
      rw [← c2, Nat.mul_comm, Nat.testBit_two_pow_mul_add _ r2]; rfl
    have e2 : (t.headerDw0 * 2 ^ 96 + r) / 2 ^ 96 = t.headerDw0 := by omega
    rw [r1, hdrDwords, e1, e2]
    by_cases hdt : t.hasData = true
    · rw [if_pos hdt] at hd ⊢
      rw [c3 hdt]; omega
    · rw [if_neg hdt] at hd ⊢
      omega
  · exact dwordParity_lt _
  · simp only [PTileFrame.updateParity]
    rw [r1]
    exact parityOf_lt (n := 16) (by omega)
  · intro p hp'
    simp only [PTileFrame.updateParity, List.mem_map] at hp'
    obtain ⟨d, _, rfl⟩ := hp'
    exact Nat.xor_lt_two_pow (n := 4) (dwordParity_lt d) (by decide)
  all_goals simp [PTileFrame.updateParity]

/-- TLPs that are sent as frames are all received, in order, for every timing. -/
theorem C42_ptile_tlps (b : PTile.Bus) (hl : 0 < b.lanes) (hs : 0 < b.segs) (evs : List Ev) (tlps : List Tlp)
    (ht : ∀ t ∈ tlps, ∃ ty, Encodable ty t ∧ t.data.length = if t.hasData then 4 * t.length else 0)
    (hsent : (ptSent evs).map Except.ok = tlps.map PTileFrame.fromTlp) :
    ∃ n ts k fs, Src.run b {} (evs ++ List.replicate n .beat) = .ok ({}, ts) ∧ Snk.run b {} ts = .ok (k, fs) ∧
      fs.map PTileFrame.toTlp = tlps.map Except.ok := by
  have key : ∀ f ∈ ptSent evs, ∃ t ∈ tlps, PTileFrame.fromTlp t = .ok f := by
    intro f hf
    have : Except.ok f ∈ tlps.map PTileFrame.fromTlp := by rw [← hsent]; exact List.mem_map_of_mem hf
    obtain ⟨t, h1, h2⟩ := List.mem_map.mp this
    exact ⟨t, h1, h2⟩
  obtain ⟨n, ts, k, h1, h2⟩ := C42_ptile_delivered b hl hs evs (by
    intro f hf
    obtain ⟨t, t1, t2⟩ := key f hf
    obtain ⟨ty, hty, hd⟩ := ht t t1
    exact C42_ptile_tlp_ok ty t hty hd t2)
  refine ⟨n, ts, k, _, h1, h2, ?_⟩
  rw [List.map_map]
  have e : ∀ (l : List PTileFrame) (m : List Tlp), l.map Except.ok = m.map PTileFrame.fromTlp →
      (∀ t ∈ m, ∃ ty, Encodable ty t ∧ t.data.length = if t.hasData then 4 * t.length else 0) →
      l.map (PTileFrame.toTlp ∘ ptSeen b) = m.map Except.ok := by
    intro l
    induction l with
    | nil => intro m h _; cases m <;> simp_all
    | cons f l ih =>
      intro m h hm
      cases m with
      | nil => simp at h
      | cons t m =>
        simp only [List.map_cons, List.cons.injEq] at h ⊢
        refine ⟨?_, ih m h.2 (fun x hx => hm x (List.mem_cons_of_mem _ hx))⟩
        obtain ⟨ty, hty, hd⟩ := hm t (by simp)
        obtain ⟨f', g1, g2, _⟩ := C42_ptile_tlp ty t hty (by rw [hd]; split <;> omega)
        rw [← h.1] at g1
        cases g1
        exact g2
  exact e _ _ hsent ht

/-- A read request: no data. -/
def ptRead : PTileFrame := PTileFrame.updateParity { hdr := 0x00000001_0100000f_00001000_00000000, barRange := 2 }

/-- A write of nine dwords. -/
def ptWrite : PTileFrame :=
  PTileFrame.updateParity { hdr := 0x40000009_010000ff_00002000_00000000, data := [1, 2, 3, 4, 5, 6, 7, 8, 9], barRange := 1, vfNum := some 5, funcNum := 7 }

/- The hypotheses can be met; two segments of four dwords, with a frame that starts in the second segment. -/
def ptBus : PTile.Bus := { segs := 2, lanes := 4 }

example : PTileOk ptRead :=
  ⟨by decide, by decide, by decide, by decide, by decide, by decide +kernel, by decide, by decide, by decide, by decide, by decide, by decide⟩
example : PTileOk ptWrite :=
  ⟨by decide, by decide, by decide, by decide, by decide, by decide +kernel, by decide, by decide, by decide, by decide, by decide, by decide⟩
example : ((Src.run ptBus {} [.send ptRead, .send ptWrite, .beat, .send ptRead, .beat, .beat, .beat]).toOption.map
    fun r => (r.2.map (·.sop), r.2.map (·.eop), r.2.map (·.valid), r.1)) = some ([0b11, 0b00, 0b01], [0b01, 0b10, 0b01], [0b11, 0b11, 0b01], {}) := by decide +kernel

/- A TLP for `C42_s10_tlps` and `C42_ptile_tlps`. -/
example : Encodable .MEM_WRITE frameTlp ∧ frameTlp.data.length = if frameTlp.hasData then 4 * frameTlp.length else 0 := by
  refine ⟨⟨?_, ?_, ?_, ?_, ?_, ?_, ?_, ?_, ?_, ?_, ?_⟩, by decide⟩
  case refine_9 => simp only [frameTlp]; decide
  case refine_10 => simp only [frameTlp]; decide
  case refine_11 => simp only [frameTlp, kind]; decide
  all_goals decide

/-- The abort flag is lost: a frame that has it arrives without it, although the bus has a signal for it. -/
theorem C42_ptile_violated : PTileOk { ptRead with abort := 1 } ∧
    ((Src.run ptBus {} [.send { ptRead with abort := 1 }, .beat]).toOption.bind fun r =>
      (Snk.run ptBus {} r.2).toOption.map (·.2)) = some [ptRead] ∧ ptRead.abort = 0 :=
  ⟨⟨by decide, by decide, by decide, by decide, by decide, by decide +kernel, by decide, by decide, by decide, by decide, by decide, by decide⟩,
   by decide +kernel, rfl⟩

end Pcie
