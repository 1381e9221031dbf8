import Verif.Lemmas.UsPieces
/-
What the UltraScale source puts on the bus.
-/
namespace Pcie
namespace Us
open Spec
open S10 (item signal)

theorem bus_facts {b : Bus} (h : UsBus b) : (b.width ≠ 512 → b.kind ≠ .rc → b.segs = 1) ∧
    (b.width = 512 → b.byteLanes = 16 ∧ b.lanes % 4 = 0 ∧ b.segs ≤ (if b.kind = .rc then 4 else 2)) ∧
    (b.width ≠ 512 → b.byteLanes ≤ 8 ∧ b.segs ≤ 2) ∧
    (b.segs ≠ 1 → b.width = 512 ∨ b.kind = .rc ∧ b.width = 256 ∧ b.lanes = 4 ∧ b.segs = 2) ∧
    (b.kind = .rq → b.width ≠ 512 → b.tuser = 60 ∨ b.tuser = 62) ∧ (b.kind = .rq → b.width = 512 → b.tuser = 137) := by
  refine bus_cases (P := fun b => (b.width ≠ 512 → b.kind ≠ .rc → b.segs = 1) ∧
    (b.width = 512 → b.byteLanes = 16 ∧ b.lanes % 4 = 0 ∧ b.segs ≤ (if b.kind = .rc then 4 else 2)) ∧
    (b.width ≠ 512 → b.byteLanes ≤ 8 ∧ b.segs ≤ 2) ∧
    (b.segs ≠ 1 → b.width = 512 ∨ b.kind = .rc ∧ b.width = 256 ∧ b.lanes = 4 ∧ b.segs = 2) ∧
    (b.kind = .rq → b.width ≠ 512 → b.tuser = 60 ∨ b.tuser = 62) ∧ (b.kind = .rq → b.width = 512 → b.tuser = 137)) h ?_ ?_ ?_ ?_ ?_ ?_ ?_ ?_ ?_ <;> decide +kernel

theorem table_lanes {b : Bus} (h : UsBus b) : 1 ≤ b.segs ∧ 1 ≤ b.lanes ∧ b.lanes * b.segs = b.byteLanes := by
  have := table_ok h
  simp only [table, Bool.and_eq_true, decide_eq_true_eq] at this
  exact ⟨this.1.1.2, this.1.2, this.2⟩

theorem lane_lt {b : Bus} (h : UsBus b) {seg k : Nat} (hs : seg < b.segs) (hk : k < b.lanes) : k + seg * b.lanes < b.byteLanes := by
  rw [← (table_lanes h).2.2]
  calc k + seg * b.lanes < b.lanes + seg * b.lanes := by omega
    _ = b.lanes * (seg + 1) := by ring
    _ ≤ _ := Nat.mul_le_mul_left _ hs

/-- The pieces of the start of a frame. -/
def sopP (b : Bus) (f : UsFrame) (seg sc : Nat) : List Piece :=
  if b.width = 512 then
    (match b.kind with
      | .rq => [(.first, sc, f.firstBe &&& 0xf), (.last, sc, f.lastBe &&& 0xf), (.seq, sc, f.seqNum &&& 0x3f)]
      | .cq => [(.first, seg, f.firstBe &&& 0xf), (.last, seg, f.lastBe &&& 0xf)]
      | _ => []) ++ [(.sop, sc, 1), (.sopPtr, sc, seg * b.lanes / 4)]
  else match b.kind with
    | .rq => [(.first, sc, f.firstBe &&& 0xf), (.last, sc, f.lastBe &&& 0xf), (.seq, sc, f.seqNum &&& 0xf)] ++
        if b.tuser = 62 then [(.seqHi, sc, (f.seqNum >>> 4) &&& 0x3)] else []
    | .rc => [(.sop, sc, 1)]
    | .cq => [(.first, seg, f.firstBe &&& 0xf), (.last, seg, f.lastBe &&& 0xf), (.sop, sc, 1)]
    | .cc => []

/-- The pieces of the end of a frame. -/
def eopP (b : Bus) (ec last : Nat) : List Piece :=
  if b.width = 512 then [(.eop, ec, 1), (.eopPtr, ec, last)]
  else match b.kind with
    | .rc => [(.eopN, ec, 1 ||| last <<< 1)]
    | _ => []

/-- The pieces of a lane. -/
def laneP (b : Bus) (f : UsFrame) (lane off : Nat) : List Piece :=
  if off < f.data.length then
    [(.data, lane, f.data.getD off 0), (.keep, lane, 1)] ++ (if b.ben.isSome then [(.be, lane, f.byteEn.getD off 0)] else []) ++
      [(.par, lane, f.parity.getD off 0)]
  else [(.par, lane, 0xf)]

/-- The pieces of a segment. -/
def segP (b : Bus) (seg sc ec : Nat) (f : UsFrame) (off : Nat) : List Piece :=
  (if off = 0 then sopP b f seg sc else []) ++ (if f.discontinue then [(.disc, 0, 1)] else []) ++
    ((List.range b.lanes).flatMap fun k => laneP b f (k + seg * b.lanes) (off + k)) ++
    (if f.data.length ≤ off + b.lanes then eopP b ec (f.data.length - off - 1 + seg * b.lanes) else [])

/-- The pieces of a transaction. -/
def beatP (b : Bus) : Nat → Nat → Nat → List (Option (UsFrame × Nat)) → List Piece
  | _, _, _, [] => []
  | seg, sc, ec, none :: r => beatP b (seg + 1) sc ec r
  | seg, sc, ec, some (f, off) :: r =>
    segP b seg sc ec f off ++ beatP b (seg + 1) (if off = 0 then sc + 1 else sc) (if f.data.length ≤ off + b.lanes then ec + 1 else ec) r

theorem putSop_eq {b : Bus} (h : UsBus b) (f : UsFrame) {seg sc : Nat} (hs : seg < b.segs) (hc : sc ≤ seg) (t : Txn) :
    { t with tuser := putSop b f seg sc t.tuser } = (sopP b f seg sc).foldl (put b) t := by
  obtain ⟨h1, _⟩ := bus_facts h
  obtain ⟨kind, width, tuser, segs⟩ := b
  simp only at h1 hs
  by_cases hw : width = 512
  · subst hw
    cases kind <;> simp [putSop, sopP, put, Fld.word, Bus.base, Bus.wid, loc, Bus.sop, Bus.sopPtr, Nat.add_comm, Nat.or_assoc]
  · by_cases hk : kind = .rc
    · subst hk
      simp [putSop, sopP, put, Fld.word, Bus.base, Bus.wid, loc, hw]
    · have := h1 hw hk
      have e1 : seg = 0 := by omega
      have e2 : sc = 0 := by omega
      subst e1 e2
      cases kind with
      | rq => by_cases hu : tuser = 62 <;> simp [putSop, sopP, put, Fld.word, Bus.base, Bus.wid, loc, hw, hu]
      | rc => exact absurd rfl hk
      | cq => simp [putSop, sopP, put, Fld.word, Bus.base, Bus.wid, loc, hw]
      | cc => simp [putSop, sopP, hw]

theorem putEop_eq {b : Bus} (ec last : Nat) (t : Txn) : { t with tuser := putEop b ec last t.tuser } = (eopP b ec last).foldl (put b) t := by
  obtain ⟨kind, width, tuser, segs⟩ := b
  by_cases hw : width = 512
  · subst hw
    cases kind <;> simp [putEop, eopP, put, Fld.word, Bus.base, Bus.wid, loc, Bus.eop, Bus.eopPtr]
  · cases kind <;> simp [putEop, eopP, put, Fld.word, Bus.base, Bus.wid, loc, hw]
    rw [Nat.or_assoc]; congr 1
    rw [Nat.shiftLeft_or_distrib, ← Nat.shiftLeft_add]; congr 2; omega

theorem putDisc_eq {b : Bus} (f : UsFrame) (t : Txn) :
    (if f.discontinue then { t with tuser := t.tuser ||| 1 <<< b.disc } else t) = (if f.discontinue then [((.disc, 0, 1) : Piece)] else []).foldl (put b) t := by
  by_cases hd : f.discontinue = true <;> simp [hd, put, Fld.word, Bus.base, Bus.wid, loc]

theorem ben_kind (b : Bus) : b.ben.isSome = usByteEn b.kind := by
  obtain ⟨kind, width, tuser, segs⟩ := b
  cases kind <;> rfl

theorem putLane_eq {b : Bus} {f : UsFrame} {seg off k : Nat} (hf : UsOk b.kind f) (ks : List Nat) (t : Txn) (last : Nat) :
    putLanes b f seg (k :: ks) t (min off f.data.length) last =
      putLanes b f seg ks ((laneP b f (k + seg * b.lanes) off).foldl (put b) t) (min (off + 1) f.data.length)
        (if off < f.data.length then k + seg * b.lanes else last) := by
  by_cases ho : off < f.data.length
  · have hp : off < f.parity.length := by rw [hf.parityLength]; exact ho
    rw [Nat.min_eq_left (by omega), Nat.min_eq_left (by omega), putLanes, if_pos ho, if_pos ho, S10.item_ok ho, S10.item_ok hp]
    simp only
    have hk := ben_kind b
    rcases hb : b.ben with _ | o
    · simp only [hb]
      congr 1
      simp [laneP, ho, hb, put, Fld.word, Bus.base, Bus.wid, loc, List.getD, hp, Nat.add_comm]
    · rw [hb] at hk
      have he : off < f.byteEn.length := by rw [(hf.byteEn hk.symm).1]; exact ho
      simp only [hb, S10.item_ok he, Except.map]
      congr 1
      simp [laneP, ho, hb, put, Fld.word, Bus.base, Bus.wid, loc, List.getD, hp, he, Nat.add_comm]
  · rw [Nat.min_eq_right (by omega), Nat.min_eq_right (by omega), putLanes, if_neg (by omega), if_neg ho]
    congr 1
    simp [laneP, ho, put, Fld.word, Bus.base, Bus.wid, loc, Nat.add_comm]

theorem putLanes_eq {b : Bus} {f : UsFrame} {seg off : Nat} (hf : UsOk b.kind f) : ∀ (n k : Nat) (t : Txn) (last : Nat),
    putLanes b f seg (List.range' k n) t (min (off + k) f.data.length) last =
      .ok (((List.range' k n).flatMap fun k => laneP b f (k + seg * b.lanes) (off + k)).foldl (put b) t, min (off + k + n) f.data.length,
        if 0 < n ∧ off + k < f.data.length then min (k + n) (f.data.length - off) - 1 + seg * b.lanes else last)
  | 0, k, t, last => by simp [putLanes]
  | n + 1, k, t, last => by
    rw [List.range'_succ, putLane_eq hf, Nat.add_assoc, putLanes_eq hf n (k + 1), List.flatMap_cons, List.foldl_append]
    congr 3
    · congr 1; omega
    · split <;> split <;> (try split) <;> omega

theorem putSeg_eq {b : Bus} (h : UsBus b) {f : UsFrame} (hf : UsOk b.kind f) {seg sc ec off : Nat} (hs : seg < b.segs) (hc : sc ≤ seg)
    (ho : off < f.data.length) (t : Txn) (first : Bool) (h1 : first = true ↔ off = 0) :
    ∃ l, putSeg b seg ⟨t, sc, ec⟩ ⟨f, off, first⟩ =
      .ok (⟨{ (segP b seg sc ec f off).foldl (put b) t with tlast := l }, if off = 0 then sc + 1 else sc, if f.data.length ≤ off + b.lanes then ec + 1 else ec⟩,
        if f.data.length ≤ off + b.lanes then none else some ⟨f, off + b.lanes, false⟩) ∧
      l = (if f.data.length ≤ off + b.lanes ∧ b.segs = 1 then 1 else t.tlast) := by
  refine ⟨_, ?_, rfl⟩
  have hl := (table_lanes h).2.1
  have e0 : (if first = true then ({ t := { t with tuser := putSop b f seg sc t.tuser }, sopCnt := sc + 1, eopCnt := ec } : Acc) else ⟨t, sc, ec⟩) =
      ⟨(if off = 0 then sopP b f seg sc else []).foldl (put b) t, if off = 0 then sc + 1 else sc, ec⟩ := by
    by_cases h0 : off = 0
    · rw [if_pos (h1.mpr h0), if_pos h0, if_pos h0, putSop_eq h f hs hc]
    · have : ¬ first = true := fun hh => h0 (h1.mp hh)
      rw [if_neg this, if_neg h0, if_neg h0]; rfl
  simp only [putSeg]
  rw [e0]
  generalize hA : (if off = 0 then sopP b f seg sc else []).foldl (put b) t = t1
  have e1 : (if f.discontinue = true then ({ t := { t1 with tuser := t1.tuser ||| 1 <<< b.disc }, sopCnt := if off = 0 then sc + 1 else sc, eopCnt := ec } : Acc)
      else ⟨t1, if off = 0 then sc + 1 else sc, ec⟩) =
      ⟨(if f.discontinue then [((.disc, 0, 1) : Piece)] else []).foldl (put b) t1, if off = 0 then sc + 1 else sc, ec⟩ := by
    rw [← putDisc_eq]; split <;> rfl
  rw [e1]
  generalize hB : (if f.discontinue then [((.disc, 0, 1) : Piece)] else []).foldl (put b) t1 = t2
  have hp := putLanes_eq (b := b) (seg := seg) (off := off) hf b.lanes 0 t2 0
  simp only [Nat.add_zero] at hp
  rw [Nat.min_eq_left (by omega), ← List.range_eq_range'] at hp
  simp only [hp]
  generalize hC : ((List.range b.lanes).flatMap fun k => laneP b f (k + seg * b.lanes) (off + k)).foldl (put b) t2 = t3
  have htl : t3.tlast = t.tlast := by rw [← hC, ← hB, ← hA, puts_tlast, puts_tlast, puts_tlast]
  have hfold : (segP b seg sc ec f off).foldl (put b) t = (if f.data.length ≤ off + b.lanes then eopP b ec (f.data.length - off - 1 + seg * b.lanes) else []).foldl (put b) t3 := by
    rw [segP, List.foldl_append, List.foldl_append, List.foldl_append, hA, hB, hC]
  rw [hfold]
  by_cases he : f.data.length ≤ off + b.lanes
  · have hge : min (off + b.lanes) f.data.length = f.data.length := by omega
    have hz : 0 < b.lanes ∧ off < f.data.length := by omega
    simp only [hge, he, hz, ge_iff_le, if_true, true_and, and_self, Nat.le_refl]
    rw [← putEop_eq]
    have hm : min (0 + b.lanes) (f.data.length - off) - 1 = f.data.length - off - 1 := by omega
    rw [hm, htl]
  · have hge : min (off + b.lanes) f.data.length = off + b.lanes := by omega
    simp only [hge, he, ge_iff_le, if_false, false_and, List.foldl_nil]
    congr 3
    rw [← htl]

abbrev len (f : UsFrame) : Nat := f.data.length

/-- The state of `_run`. -/
def toCur (c : UsFrame × Nat) : Cur := ⟨c.1, c.2, decide (c.2 = 0)⟩

theorem puts_set (b : Bus) (l : Nat) : ∀ (ps : List Piece) (t : Txn), ps.foldl (put b) { t with tlast := l } = { ps.foldl (put b) t with tlast := l }
  | [], _ => rfl
  | p :: ps, t => by
    rw [List.foldl_cons, List.foldl_cons, ← puts_set b l ps]
    congr 1
    unfold put
    split <;> rfl

/-- What `putSegs` does to `tlast`. -/
def LastOk (b : Bus) (n : Nat) (c : Option (UsFrame × Nat)) (q : List UsFrame) (t : Txn) (l : Nat) : Prop :=
  (n = 0 → l = t.tlast) ∧ (n = 1 → ¬ (c = none ∧ q = []) → l = if (Stream.plan b.lanes len n c q).2.1 = none ∧ b.segs = 1 then 1 else t.tlast)

theorem next_cur {b : Bus} (hl : 1 ≤ b.lanes) (f : UsFrame) (off : Nat) :
    (if f.data.length ≤ off + b.lanes then none else some (⟨f, off + b.lanes, false⟩ : Cur)) = (Stream.next b.lanes len (f, off)).map toCur := by
  unfold Stream.next
  by_cases he : f.data.length ≤ off + b.lanes
  · simp [len, he]
  · have hz : ¬ b.lanes = 0 := by omega
    simp [len, he, toCur, hz]

theorem putSegs_step {b : Bus} (h : UsBus b) {n seg sc ec : Nat} {t : Txn} {f : UsFrame} {off : Nat} {q : List UsFrame} {ps c' q'}
    (hplan : Stream.plan b.lanes len n (Stream.next b.lanes len (f, off)) q = (ps, c', q'))
    (hn : seg + (n + 1) ≤ b.segs) (hc : sc ≤ seg) (ho : off < f.data.length) (hok : ∀ g ∈ f :: q, UsOk b.kind g)
    (ih : ∀ (sc ec : Nat) (t : Txn), sc ≤ seg + 1 → ∃ l sc' ec', putSegs b (List.range' (seg + 1) n) ⟨t, sc, ec⟩ ((Stream.next b.lanes len (f, off)).map toCur) q =
      .ok (⟨{ (beatP b (seg + 1) sc ec ps).foldl (put b) t with tlast := l }, sc', ec'⟩, c'.map toCur, q') ∧ (n = 0 → l = t.tlast)) :
    ∃ a l sc' ec', putSeg b seg ⟨t, sc, ec⟩ ⟨f, off, decide (off = 0)⟩ = .ok (a, (Stream.next b.lanes len (f, off)).map toCur) ∧
      putSegs b (List.range' (seg + 1) n) a ((Stream.next b.lanes len (f, off)).map toCur) q =
        .ok (⟨{ (beatP b seg sc ec (some (f, off) :: ps)).foldl (put b) t with tlast := l }, sc', ec'⟩, c'.map toCur, q') ∧
      (n = 0 → l = if c' = none ∧ b.segs = 1 then 1 else t.tlast) := by
  obtain ⟨l, h1, h2⟩ := putSeg_eq h (hok f (by simp)) (seg := seg) (sc := sc) (ec := ec) (off := off) (by omega) hc ho t (decide (off = 0)) (by simp)
  rw [next_cur (table_lanes h).2.1] at h1
  obtain ⟨l', sc', ec', g1, g2⟩ := ih (if off = 0 then sc + 1 else sc) (if f.data.length ≤ off + b.lanes then ec + 1 else ec)
    { (segP b seg sc ec f off).foldl (put b) t with tlast := l } (by split <;> omega)
  refine ⟨_, l', sc', ec', h1, ?_, fun hn0 => ?_⟩
  · rw [g1, puts_set]
    simp only [beatP, List.foldl_append]
  · subst hn0
    rw [g2 rfl, h2]
    simp only [Stream.plan, Prod.mk.injEq] at hplan
    rw [← hplan.2.1]
    unfold Stream.next
    by_cases he : f.data.length ≤ off + b.lanes <;> simp [len, he]

theorem pend_next_mem {b : Bus} {f g : UsFrame} {off : Nat} {q : List UsFrame} (hg : g ∈ Stream.pend (Stream.next b.lanes len (f, off)) q) : g ∈ f :: q := by
  unfold Stream.pend Stream.next at *
  revert hg; split <;> simp_all

theorem putSegs_eq {b : Bus} (h : UsBus b) : ∀ (n seg sc ec : Nat) (t : Txn) (c : Option (UsFrame × Nat)) (q : List UsFrame), seg + n ≤ b.segs → sc ≤ seg →
    Stream.Mid len c → (∀ f ∈ Stream.pend c q, UsOk b.kind f) →
    ∃ l sc' ec', putSegs b (List.range' seg n) ⟨t, sc, ec⟩ (c.map toCur) q =
      .ok (⟨{ (beatP b seg sc ec (Stream.plan b.lanes len n c q).1).foldl (put b) t with tlast := l }, sc', ec'⟩,
        (Stream.plan b.lanes len n c q).2.1.map toCur, (Stream.plan b.lanes len n c q).2.2) ∧ LastOk b n c q t l
  | 0, seg, sc, ec, t, c, q, _, _, _, _ => ⟨t.tlast, sc, ec, rfl, fun _ => rfl, fun h => by omega⟩
  | n + 1, seg, sc, ec, t, some (f, off), q, hn, hc, hm, hok => by
    have hl := (table_lanes h).2.1
    obtain ⟨a, l, sc', ec', h1, h2, h3⟩ := putSegs_step h (t := t) (ec := ec) rfl hn hc (hm f off rfl).2 (by simpa [Stream.pend] using hok) (fun sc ec t hsc => by
      obtain ⟨l, s, e, g1, g2⟩ := putSegs_eq h n (seg + 1) sc ec t (Stream.next b.lanes len (f, off)) q (by omega) hsc (Stream.mid_next (by omega))
        (fun g hg => hok g (by simpa [Stream.pend] using pend_next_mem hg))
      exact ⟨l, s, e, g1, g2.1⟩)
    refine ⟨l, sc', ec', ?_, fun h => by omega, fun hn1 _ => h3 (by omega)⟩
    rw [List.range'_succ, Option.map_some, putSegs]
    simp only [toCur]
    rw [h1]
    exact h2
  | n + 1, seg, sc, ec, t, none, f :: q, hn, hc, hm, hok => by
    have hl := (table_lanes h).2.1
    have hf := hok f (by simp [Stream.pend])
    obtain ⟨a, l, sc', ec', h1, h2, h3⟩ := putSegs_step h (t := t) (ec := ec) (off := 0) rfl hn hc (List.length_pos_iff.mpr hf.nonempty) (by simpa [Stream.pend] using hok)
      (fun sc ec t hsc => by
      obtain ⟨l, s, e, g1, g2⟩ := putSegs_eq h n (seg + 1) sc ec t (Stream.next b.lanes len (f, 0)) q (by omega) hsc (Stream.mid_next (by omega))
        (fun g hg => hok g (by simpa [Stream.pend] using pend_next_mem hg))
      exact ⟨l, s, e, g1, g2.1⟩)
    refine ⟨l, sc', ec', ?_, fun h => by omega, fun hn1 _ => h3 (by omega)⟩
    rw [List.range'_succ, Option.map_none, putSegs]
    simp only [decide_true] at h1
    rw [h1]
    exact h2
  | n + 1, seg, sc, ec, t, none, [], hn, hc, hm, hok => by
    refine ⟨t.tlast, sc, ec, ?_, fun h => by omega, fun _ h => absurd ⟨rfl, rfl⟩ h⟩
    rw [List.range'_succ, Option.map_none, putSegs]
    have e : ∀ m seg, beatP b seg sc ec (List.replicate m none) = [] := by
      intro m
      induction m with
      | zero => intro seg; rfl
      | succ m ih => intro seg; rw [List.replicate_succ, beatP, ih]
    simp [Stream.plan, e]

end Us
end Pcie
