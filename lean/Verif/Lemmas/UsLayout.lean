import Verif.Lemmas.UsStream
import Verif.Spec.UsLayout
/-
Lemmas for C52: the transactions of the UltraScale sources have the layout of the specification.
-/
namespace Pcie
namespace Us
open Spec

theorem usStarts_eq (ps : UsSlots) : usStarts ps = starts 0 ps := by
  unfold usStarts
  generalize 0 = n
  induction ps generalizing n with
  | nil => rfl
  | cons p ps ih =>
    rw [List.zipIdx_cons, List.filterMap_cons, ih]
    cases p with
    | none => rfl
    | some p =>
      obtain ⟨f, off⟩ := p
      cases off with
      | zero => simp [starts]
      | succ o => simp [starts]

theorem usEnds_eq (L : Nat) (ps : UsSlots) : usEnds L ps = ends L 0 ps := by
  unfold usEnds
  generalize 0 = n
  induction ps generalizing n with
  | nil => rfl
  | cons p ps ih =>
    rw [List.zipIdx_cons, List.filterMap_cons, ih]
    cases p with
    | none => rfl
    | some p =>
      obtain ⟨f, off⟩ := p
      simp only [ends]
      by_cases h : f.data.length ≤ off + L
      · rw [if_pos h, if_pos h]
        simp only [List.cons.injEq, and_true]
        omega
      · rw [if_neg h, if_neg h]

/-- The field for a signal. -/
def fldOf : UsSig → Fld
  | .firstBe => .first | .lastBe => .last | .seqNum => .seq | .seqNumHigh => .seqHi | .isSop => .sop | .isSopPtr => .sopPtr
  | .isEop => .eop | .isEopPtr => .eopPtr | .discontinue => .disc | .byteEn => .be | .parity => .par

def posOk (b : Bus) (s : UsSig) : Bool :=
  match usPos b s with
  | some (lsb, dist, w, n) =>
    if b.width ≠ 512 ∧ (s = .isEop ∨ s = .isEopPtr) then
      decide (loc b .eopN = (34, 4, 2)) && decide ((lsb, dist, w, n) = if s = .isEop then (34, 4, 1, 2) else (35, 4, 3, 2))
    else decide (loc b (fldOf s) = (lsb, w, n)) && decide (dist = w)
  | none => true

theorem pos_ok {b : Bus} (h : UsBus b) (s : UsSig) : posOk b s = true := by
  refine bus_cases (P := fun b => posOk b s = true) h ?_ ?_ ?_ ?_ ?_ ?_ ?_ ?_ ?_ <;> cases s <;> decide +kernel

theorem rd_eq (b : Bus) (t : Txn) (c : Fld) (hc : c.word = 2) (i : Nat) : rd b t c i = t.tuser / 2 ^ (b.base c + i * b.wid c) % 2 ^ b.wid c := by
  rw [rd, hc, Nat.and_two_pow_sub_one_eq_mod, Nat.shiftRight_eq_div_pow]; rfl

/-- Signals that are fields of their own. -/
theorem sig_rd {b : Bus} (h : UsBus b) {t : Txn} {s : UsSig} {j v : Nat} (hs : ¬ (b.width ≠ 512 ∧ (s = .isEop ∨ s = .isEopPtr))) (hv : usSig b t s j = some v) :
    j < b.num (fldOf s) ∧ v = rd b t (fldOf s) j := by
  have hp := pos_ok h s
  unfold posOk at hp
  unfold usSig at hv
  cases hu : usPos b s with
  | none => rw [hu] at hv; cases hv
  | some p =>
    obtain ⟨lsb, dist, w, n⟩ := p
    rw [hu] at hp hv
    simp only [if_neg hs, Bool.and_eq_true, decide_eq_true_eq] at hp
    obtain ⟨h1, rfl⟩ := hp
    have hw : (fldOf s).word = 2 := by cases s <;> rfl
    simp only at hv
    by_cases hj : j < n
    · rw [if_pos hj] at hv
      have e1 : b.base (fldOf s) = lsb := by rw [Bus.base, h1]
      have e2 : b.wid (fldOf s) = dist := by rw [Bus.wid, h1]
      have e3 : b.num (fldOf s) = n := by rw [Bus.num, h1]
      refine ⟨by rw [e3]; exact hj, ?_⟩
      rw [rd_eq b t _ hw, e1, e2]
      exact (Option.some.inj hv).symm
    · rw [if_neg hj] at hv; cases hv

/-- The end markers of narrow requester completions. -/
theorem sig_eopN {b : Bus} (h : UsBus b) {t : Txn} {s : UsSig} {j v : Nat} (hw : b.width ≠ 512) (hs : s = .isEop ∨ s = .isEopPtr) (hv : usSig b t s j = some v) :
    b.kind = .rc ∧ j < b.num .eopN ∧ v = if s = .isEop then rd b t .eopN j % 2 else rd b t .eopN j / 2 := by
  have hp := pos_ok h s
  have hk : b.kind = .rc := by
    unfold usSig usPos at hv
    rw [if_neg hw] at hv
    rcases hs with rfl | rfl <;> (cases hk : b.kind <;> rw [hk] at hv <;> first | rfl | cases hv)
  unfold posOk at hp
  unfold usSig at hv
  cases hu : usPos b s with
  | none => rw [hu] at hv; cases hv
  | some p =>
    obtain ⟨lsb, dist, w, n⟩ := p
    rw [hu] at hp hv
    simp only [if_pos (And.intro hw hs), Bool.and_eq_true, decide_eq_true_eq] at hp
    obtain ⟨h1, h2⟩ := hp
    simp only at hv
    have e1 : b.base .eopN = 34 := by rw [Bus.base, h1]
    have e2 : b.wid .eopN = 4 := by rw [Bus.wid, h1]
    have e3 : b.num .eopN = 2 := by rw [Bus.num, h1]
    rw [rd_eq b t _ rfl, e1, e2, e3]
    by_cases hj : j < n
    · rw [if_pos hj] at hv
      have hv := (Option.some.inj hv).symm
      rcases hs with rfl | rfl
      · simp only [if_true, Prod.mk.injEq] at h2
        obtain ⟨rfl, rfl, rfl, rfl⟩ := h2
        refine ⟨hk, hj, ?_⟩
        rw [hv, if_pos rfl]; omega
      · simp only [if_neg (by decide : ¬ UsSig.isEopPtr = UsSig.isEop), Prod.mk.injEq] at h2
        obtain ⟨rfl, rfl, rfl, rfl⟩ := h2
        refine ⟨hk, hj, ?_⟩
        rw [hv, if_neg (by decide)]
        rw [show 35 + j * 4 = (34 + j * 4) + 1 by omega, Nat.pow_succ, ← Nat.div_div_eq_div_mul]
        omega
    · rw [if_neg hj] at hv; cases hv

theorem rd_start {b : Bus} {t : Txn} {ps : UsSlots} (hr : Reads b t ps) {c : Fld} (hc : c.byStart b = true) {j : Nat} (hj : j < b.num c) :
    rd b t c j = match (usStarts ps)[j]? with | some (s, f) => val (sopP b f s j) c j | none => 0 := by
  rw [hr c j hj, val_start hc, usStarts_eq, if_neg (by omega), Nat.sub_zero]
  cases (starts 0 ps)[j]? <;> rfl

theorem rd_end {b : Bus} {t : Txn} {ps : UsSlots} (hr : Reads b t ps) {c : Fld} (hc : c.eops = true) {j : Nat} (hj : j < b.num c) :
    rd b t c j = match (usEnds b.lanes ps)[j]? with | some l => val (eopP b j l) c j | none => 0 := by
  rw [hr c j hj, val_end hc, usEnds_eq, if_neg (by omega), Nat.sub_zero]
  cases (ends b.lanes 0 ps)[j]? <;> rfl

theorem val_none_lane {b : Bus} {c : Fld} (hc : c.lane = true) {k : Nat} (hk : k < b.lanes) :
    ∀ (ps : List (Option (UsFrame × Nat))) (seg sc ec r : Nat), ps[r]? = some none → val (beatP b seg sc ec ps) c (k + (seg + r) * b.lanes) = 0
  | [], _, _, _, r, h => by simp at h
  | none :: ps, seg, sc, ec, 0, h => by
    rw [beatP]
    refine val_zero fun p hp h1 => ?_
    have := beat_lane_range ps _ _ _ p hp (by rw [h1]; exact hc)
    rw [Nat.add_mul] at this
    rw [Nat.add_zero]; omega
  | none :: ps, seg, sc, ec, r + 1, h => by
    rw [beatP]
    have := val_none_lane hc hk ps (seg + 1) sc ec r (by simpa using h)
    rw [show seg + 1 + r = seg + (r + 1) by omega] at this
    exact this
  | some (f', off') :: ps, seg, sc, ec, 0, h => by simp at h
  | some (f', off') :: ps, seg, sc, ec, r + 1, h => by
    rw [beatP, val_append]
    have := val_none_lane hc hk ps (seg + 1) (if off' = 0 then sc + 1 else sc) (if f'.data.length ≤ off' + b.lanes then ec + 1 else ec) r (by simpa using h)
    rw [show seg + 1 + r = seg + (r + 1) by omega] at this
    rw [this, val_zero (l := segP _ _ _ _ _ _), Nat.zero_or]
    intro p hp h1
    have := (seg_lane_range p hp (by rw [h1]; exact hc)).2
    have h2 : (seg + 1) * b.lanes ≤ (seg + (r + 1)) * b.lanes := Nat.mul_le_mul_right _ (by omega)
    omega

/-- A lane, in terms of what is in it. -/
theorem rd_lane {b : Bus} {t : Txn} {ps : UsSlots} (hlen : ps.length = b.segs) (hr : Reads b t ps) {c : Fld} (hc : c.lane = true) {seg k : Nat}
    (hs : seg < b.segs) (hk : k < b.lanes) (hi : seg * b.lanes + k < b.num c) :
    rd b t c (seg * b.lanes + k) = match ps[seg]? with
      | some (some (f, off)) => val (laneP b f (k + seg * b.lanes) (off + k)) c (k + seg * b.lanes)
      | _ => 0 := by
  rw [hr c _ hi, Nat.add_comm]
  have hg : ps[seg]? = some ps[seg] := List.getElem?_eq_getElem (by omega)
  rw [hg]
  cases hp : ps[seg] with
  | none =>
    have := val_none_lane hc hk ps 0 0 0 seg (by rw [hg, hp])
    rw [Nat.zero_add] at this
    exact this
  | some p =>
    obtain ⟨f, off⟩ := p
    have := val_lane hc hk ps 0 0 0 seg (by rw [hg, hp])
    rw [Nat.zero_add] at this
    exact this

theorem usAt_val {ps : UsSlots} {seg k : Nat} {α : Type} (g : UsFrame → Nat → α) (d : α) :
    ((usAt ps seg k).map fun p => g p.1 p.2).getD d = match ps[seg]? with
      | some (some (f, off)) => if off + k < f.data.length then g f (off + k) else d
      | _ => d := by
  unfold usAt
  rcases ps[seg]? with _ | _ | ⟨f, off⟩
  · rfl
  · rfl
  · simp only
    split <;> rfl

theorem lane_data {b : Bus} {f : UsFrame} {lane off : Nat} : val (laneP b f lane off) .data lane = if off < f.data.length then f.data.getD off 0 else 0 := by
  unfold laneP
  split
  · by_cases hb : b.ben.isSome = true <;> simp [val, hb]
  · simp [val]

theorem lane_keep {b : Bus} {f : UsFrame} {lane off : Nat} : val (laneP b f lane off) .keep lane = if off < f.data.length then 1 else 0 := by
  unfold laneP
  split
  · by_cases hb : b.ben.isSome = true <;> simp [val, hb]
  · simp [val]

theorem lane_be {b : Bus} {f : UsFrame} {lane off : Nat} (hb : b.ben.isSome = true) : val (laneP b f lane off) .be lane = if off < f.data.length then f.byteEn.getD off 0 else 0 := by
  unfold laneP
  split <;> simp [val, hb]

theorem lane_par {b : Bus} {f : UsFrame} {lane off : Nat} (h : off < f.data.length) : val (laneP b f lane off) .par lane = f.parity.getD off 0 := by
  unfold laneP
  rw [if_pos h]
  by_cases hb : b.ben.isSome = true <;> simp [val, hb]

theorem sop_vals {b : Bus} (h : UsBus b) (f : UsFrame) (s i : Nat) :
    (0 < b.num .sop → val (sopP b f s i) .sop i = 1) ∧ (0 < b.num .sopPtr → val (sopP b f s i) .sopPtr i = s * b.lanes / 4) ∧
    (0 < b.num .seq → val (sopP b f s i) .seq i = f.seqNum % (if b.width = 512 then 64 else 16)) ∧
    (0 < b.num .seqHi → val (sopP b f s i) .seqHi i = f.seqNum / 16 % 4) ∧
    (0 < b.num .first → b.kind ≠ .cq → val (sopP b f s i) .first i = f.firstBe % 16) ∧
    (0 < b.num .last → b.kind ≠ .cq → val (sopP b f s i) .last i = f.lastBe % 16) := by
  have e4 : ∀ x, x &&& 15 = x % 16 := fun x => Nat.and_two_pow_sub_one_eq_mod x 4
  have e6 : ∀ x, x &&& 63 = x % 64 := fun x => Nat.and_two_pow_sub_one_eq_mod x 6
  have e2 : ∀ x, x &&& 3 = x % 4 := fun x => Nat.and_two_pow_sub_one_eq_mod x 2
  have es : ∀ x, x >>> 4 = x / 16 := fun x => Nat.shiftRight_eq_div_pow x 4
  generalize hL : b.lanes = L
  obtain ⟨kind, width, tuser, segs⟩ := b
  by_cases hw : width = 512
  · subst hw
    cases kind <;> simp [sopP, val, Bus.num, loc, e4, e6, ← hL]
  · cases kind <;> simp [sopP, val, Bus.num, loc, hw]
    · by_cases hu : tuser = 62 <;> simp [hu, val, e4, e2, es]

theorem eop_vals {b : Bus} (l i : Nat) : (0 < b.num .eop → val (eopP b i l) .eop i = 1) ∧ (0 < b.num .eopPtr → val (eopP b i l) .eopPtr i = l) ∧
    (0 < b.num .eopN → val (eopP b i l) .eopN i = 1 + 2 * l) := by
  obtain ⟨kind, width, tuser, segs⟩ := b
  by_cases hw : width = 512
  · subst hw
    cases kind <;> simp [eopP, val, Bus.num, loc]
  · cases kind <;> simp [eopP, val, Bus.num, loc, hw]
    rw [Nat.shiftLeft_eq, Nat.or_comm, show l * 2 ^ 1 = 2 ^ 1 * l by ring, ← Nat.two_pow_add_eq_or_of_lt (by decide)]
    omega

/-! ### Bits outside the fields -/

theorem puts_bit {b : Bus} {i : Nat} : ∀ (l : List Piece) (t : Txn), (∀ p ∈ l, Fit b p) → (l.foldl (put b) t).tuser.testBit i = true →
    t.tuser.testBit i = true ∨ ∃ c, c.word = 2 ∧ ∃ j, j < b.num c ∧ b.base c + j * b.wid c ≤ i ∧ i < b.base c + j * b.wid c + b.wid c
  | [], t, _, h => .inl h
  | p :: l, t, hf, h => by
    rcases puts_bit l _ (fun q hq => hf q (List.mem_cons_of_mem _ hq)) h with h | h
    · have e := get_put b t p 2
      simp only [get] at e
      rw [e, Nat.testBit_or, Bool.or_eq_true] at h
      rcases h with h | h
      · exact .inl h
      · right
        split at h
        · rename_i hw
          obtain ⟨f1, f2⟩ := hf p (by simp)
          rw [Nat.testBit_shiftLeft, Bool.and_eq_true, decide_eq_true_eq] at h
          refine ⟨p.1, hw.symm, p.2.1, f1, h.1, ?_⟩
          by_contra hc
          rw [Nat.testBit_lt_two_pow (Nat.lt_of_lt_of_le f2 (Nat.pow_le_pow_right (by omega) (by omega)))] at h
          exact absurd h.2 (by decide)
        · simp at h
    · exact .inr h

def coverOk (b : Bus) : Bool :=
  Fld.all.all fun c => decide (c.word ≠ 2) || (List.range (b.num c)).all fun j => (List.range (b.wid c)).all fun k =>
    UsSig.all.any fun s => usCovers b s (b.base c + j * b.wid c + k)

theorem cover_ok {b : Bus} (h : UsBus b) : coverOk b = true := by
  refine bus_cases (P := fun b => coverOk b = true) h ?_ ?_ ?_ ?_ ?_ ?_ ?_ ?_ ?_ <;> decide +kernel

theorem other_zero {b : Bus} (h : UsBus b) {l : List Piece} (hl : ∀ p ∈ l, Fit b p) {i : Nat} (hi : ∀ s, usCovers b s i = false) :
    (l.foldl (put b) {}).tuser.testBit i = false := by
  by_contra hc
  rw [Bool.not_eq_false] at hc
  rcases puts_bit l {} hl hc with h0 | ⟨c, hw, j, hj, h1, h2⟩
  · simp at h0
  · have := cover_ok h
    simp only [coverOk, List.all_eq_true, Bool.or_eq_true, decide_eq_true_eq, List.any_eq_true] at this
    rcases this c (Fld.mem_all c) with h3 | h3
    · exact h3 hw
    · obtain ⟨s, _, hs⟩ := h3 j (List.mem_range.mpr hj) (i - (b.base c + j * b.wid c)) (List.mem_range.mpr (by omega))
      rw [show b.base c + j * b.wid c + (i - (b.base c + j * b.wid c)) = i by omega, hi s] at hs
      cases hs

/-! ### `tlast` -/

theorem putSeg_nolast {b : Bus} (hs : b.segs ≠ 1) {seg : Nat} {a a' : Acc} {c : Cur} {c' : Option Cur} (h : putSeg b seg a c = .ok (a', c')) (hl : a.t.tlast = 0) :
    a'.t.tlast = 0 := by
  unfold putSeg at h
  simp only at h
  split at h
  · cases h
  rename_i t off last hp
  have := putLanes_tlast _ _ _ _ hp
  have h2 : t.tlast = 0 := by
    rw [this]
    split <;> split <;> exact hl
  split at h
  · cases h
    simp only [if_neg hs]
    exact h2
  · cases h
    exact h2

theorem putSegs_nolast {b : Bus} (hs : b.segs ≠ 1) : ∀ (l : List Nat) (a : Acc) (c : Option Cur) (q : List UsFrame) {a' : Acc} {c' : Option Cur} {q' : List UsFrame},
    putSegs b l a c q = .ok (a', c', q') → a.t.tlast = 0 → a'.t.tlast = 0
  | [], a, c, q, a', c', q', h, hl => by cases h; exact hl
  | seg :: segs, a, some c, q, a', c', q', h, hl => by
    rw [putSegs] at h
    split at h
    · cases h
    rename_i hp
    exact putSegs_nolast hs segs _ _ _ h (putSeg_nolast hs hp hl)
  | _ :: _, a, none, [], a', c', q', h, hl => by cases h; exact hl
  | seg :: segs, a, none, f :: q, a', c', q', h, hl => by
    rw [putSegs] at h
    split at h
    · cases h
    rename_i hp
    exact putSegs_nolast hs segs _ _ _ h (putSeg_nolast hs hp hl)

/-! ### The slots -/

theorem plan_packed {lanes : Nat} : ∀ n (c : Option (UsFrame × Nat)) q, ∃ os m, (Stream.plan lanes len n c q).1 = os.map some ++ List.replicate m none ∧
    (0 < n → ¬ (c = none ∧ q = []) → os ≠ [])
  | 0, c, q => ⟨[], 0, rfl, fun h => by omega⟩
  | n + 1, some c, q => by
    obtain ⟨os, m, h, _⟩ := plan_packed (lanes := lanes) n (Stream.next lanes len c) q
    exact ⟨c :: os, m, by simp [Stream.plan, h], fun _ _ => by simp⟩
  | n + 1, none, f :: q => by
    obtain ⟨os, m, h, _⟩ := plan_packed (lanes := lanes) n (Stream.next lanes len (f, 0)) q
    exact ⟨(f, 0) :: os, m, by simp [Stream.plan, h], fun _ _ => by simp⟩
  | n + 1, none, [] => ⟨[], n + 1, rfl, fun _ h => absurd ⟨rfl, rfl⟩ h⟩

/-- The parts of a frame from an offset on. -/
def cutsFrom (L : Nat) (c : UsFrame × Nat) : List (UsFrame × Nat) := (List.range ((len c.1 - c.2 + L - 1) / L)).map fun i => (c.1, c.2 + i * L)

theorem cutsFrom_zero (L : Nat) (f : UsFrame) : cutsFrom L (f, 0) = usCuts L f := by simp [cutsFrom, usCuts, len]

theorem cutsFrom_step {L : Nat} (hL : 0 < L) {c : UsFrame × Nat} (h : c.2 < len c.1) :
    cutsFrom L c = c :: (Stream.next L len c).toList.flatMap (cutsFrom L) := by
  unfold Stream.next
  obtain ⟨f, off⟩ := c
  simp only at h ⊢
  by_cases he : len f ≤ off + L
  · rw [if_pos he]
    have : (len f - off + L - 1) / L = 1 := by
      rw [Nat.div_eq_iff hL]; omega
    simp [cutsFrom, this]
  · rw [if_neg he]
    have : (len f - off + L - 1) / L = (len f - (off + L) + L - 1) / L + 1 := by
      rw [show len f - off + L - 1 = (len f - (off + L) + L - 1) + L by omega, Nat.add_div_right _ hL]
    simp only [cutsFrom, this, List.range_succ_eq_map, List.map_cons, List.map_map, Nat.zero_mul, Nat.add_zero, Option.toList_some, List.flatMap_cons, List.flatMap_nil, List.append_nil]
    congr 1
    apply List.map_congr_left
    intro i _
    simp only [Function.comp, Nat.succ_mul, Prod.mk.injEq, true_and]
    omega

/-- What is left, as parts. -/
def partsLeft (L : Nat) (c : Option (UsFrame × Nat)) (q : List UsFrame) : List (UsFrame × Nat) := c.toList.flatMap (cutsFrom L) ++ q.flatMap (usCuts L)

theorem plan_parts {L : Nat} (hL : 0 < L) : ∀ n c q, Stream.Mid len c → (∀ f ∈ Stream.pend c q, 0 < len f) →
    (Stream.plan L len n c q).1.filterMap id ++ partsLeft L (Stream.plan L len n c q).2.1 (Stream.plan L len n c q).2.2 = partsLeft L c q
  | 0, c, q, _, _ => rfl
  | n + 1, some c, q, hm, hp => by
    have ih := plan_parts hL n (Stream.next L len c) q (Stream.mid_next hL) (fun f hf => by
      have := Stream.pend_next (lanes := L) (len := len) c q
      exact hp f (by rw [Stream.pend]; show f ∈ c.1 :: q; rw [← this]; exact List.mem_append_right _ hf))
    simp only [Stream.plan, List.filterMap_cons, id, List.cons_append]
    rw [ih]
    simp only [partsLeft, Option.toList_some, List.flatMap_cons, List.flatMap_nil, List.append_nil]
    rw [cutsFrom_step hL (hm c.1 c.2 rfl).2, List.cons_append]
  | n + 1, none, f :: q, hm, hp => by
    have ih := plan_parts hL n (Stream.next L len (f, 0)) q (Stream.mid_next hL) (fun g hg => by
      have := Stream.pend_next (lanes := L) (len := len) (f, 0) q
      exact hp g (by rw [Stream.pend]; show g ∈ f :: q; rw [← this]; exact List.mem_append_right _ hg))
    simp only [Stream.plan, List.filterMap_cons, id, List.cons_append]
    rw [ih]
    simp only [partsLeft, Option.toList_none, List.flatMap_cons, List.flatMap_nil, List.nil_append]
    rw [← cutsFrom_zero, cutsFrom_step hL (c := (f, 0)) (hp f (by simp [Stream.pend])), List.cons_append]
  | n + 1, none, [], _, _ => by
    simp [Stream.plan, partsLeft]

/-! ### A transaction -/

theorem lanes_eq (b : Bus) : usLanes b = b.lanes := rfl

theorem num_lane {b : Bus} (h : UsBus b) {seg k : Nat} (hs : seg < b.segs) (hk : k < b.lanes) : seg * b.lanes + k < b.byteLanes := by
  rw [Nat.add_comm]; exact lane_lt h hs hk

theorem opt_match {α : Type} (o : Option α) (g : α → Nat) : (match o with | some a => g a | none => 0) = (o.map g).getD 0 := by cases o <;> rfl

theorem ends_lt {b : Bus} (h : UsBus b) {ps : UsSlots} (hsl : SlotsOk b ps) (hlen : ps.length = b.segs) : ∀ l ∈ usEnds b.lanes ps, l < b.byteLanes := by
  intro l hl
  rw [usEnds_eq, ends_mem] at hl
  obtain ⟨r, f, off, h1, h2, rfl⟩ := hl
  have hr : r < ps.length := by
    by_contra hc
    rw [List.getElem?_eq_none (by omega)] at h1; cases h1
  have := hsl f off (List.mem_of_getElem? h1)
  rw [Nat.zero_add]
  exact lane_lt h (by omega) (by omega)

theorem layout {b : Bus} (h : UsBus b) {t : Txn} {ps : UsSlots} (hr : Reads b t ps) (hsl : SlotsOk b ps) (hlen : ps.length = b.segs)
    (hpk : ∃ os n, os ≠ [] ∧ ps = os.map some ++ List.replicate n none) (hd : t.tdata < 2 ^ b.width) (hk : t.tkeep < 2 ^ b.byteLanes)
    (hlast : t.tlast = if b.segs = 1 ∧ usEnds b.lanes ps ≠ [] then 1 else 0) (ho : ∀ i, (∀ s, usCovers b s i = false) → t.tuser.testBit i = false) :
    UsBeat b t ps := by
  have hn := fun {seg k} => num_lane h (seg := seg) (k := k)
  refine ⟨hlen, hpk, hd, ?_, hk, ?_, hlast, ?_, ?_, ?_, ?_, ?_, ?_, ?_, ?_, ?_, ho⟩
  · intro seg k hs hk
    have := rd_lane hlen hr (c := .data) rfl hs hk (hn hs hk)
    rw [rd, show get t Fld.data.word = t.tdata from rfl, Nat.and_two_pow_sub_one_eq_mod, Nat.shiftRight_eq_div_pow] at this
    simp only [Bus.base, Bus.wid, loc, Nat.zero_add, lane_data] at this
    rw [usAt_val (fun f i => f.data.getD i 0), lanes_eq, Nat.mul_comm 32, this]
  · intro seg k hs hk
    have := rd_lane hlen hr (c := .keep) rfl hs hk (hn hs hk)
    rw [rd, show get t Fld.keep.word = t.tkeep from rfl, Nat.and_two_pow_sub_one_eq_mod, Nat.shiftRight_eq_div_pow] at this
    simp only [Bus.base, Bus.wid, loc, Nat.zero_add, lane_keep, Nat.mul_one, pow_one] at this
    rw [lanes_eq, Nat.testBit_eq_decide_div_mod_eq, this]
    unfold usAt
    rcases ps[seg]? with _ | _ | ⟨f, off⟩
    · rfl
    · rfl
    · simp only
      split <;> rfl
  · intro j v hv
    obtain ⟨hj, rfl⟩ := sig_rd h (by simp) hv
    simp only [fldOf] at hj ⊢
    rw [rd_start hr (by simp [Fld.byStart, Fld.sops]) hj]
    cases (usStarts ps)[j]? with
    | none => rfl
    | some p => simp [(sop_vals h p.2 p.1 j).1 (Nat.lt_of_le_of_lt (Nat.zero_le _) hj)]
  · intro j v hv
    obtain ⟨hj, rfl⟩ := sig_rd h (by simp) hv
    simp only [fldOf] at hj ⊢
    rw [rd_start hr (by simp [Fld.byStart, Fld.sops]) hj]
    cases (usStarts ps)[j]? with
    | none => rfl
    | some p => simp [(sop_vals h p.2 p.1 j).2.1 (Nat.lt_of_le_of_lt (Nat.zero_le _) hj), lanes_eq]
  · intro j v hv
    rw [lanes_eq]
    by_cases hw : b.width = 512
    · obtain ⟨hj, rfl⟩ := sig_rd h (by simp [hw]) hv
      simp only [fldOf] at hj ⊢
      rw [rd_end hr rfl hj]
      cases (usEnds b.lanes ps)[j]? with
      | none => rfl
      | some l => simp [(eop_vals (b := b) l j).1 (Nat.lt_of_le_of_lt (Nat.zero_le _) hj)]
    · obtain ⟨_, hj, rfl⟩ := sig_eopN h hw (by simp) hv
      rw [if_pos rfl, rd_end hr rfl hj]
      cases (usEnds b.lanes ps)[j]? with
      | none => rfl
      | some l =>
        simp only [(eop_vals (b := b) l j).2.2 (Nat.lt_of_le_of_lt (Nat.zero_le _) hj), Option.isSome_some, if_true]
        omega
  · intro j v hv
    rw [lanes_eq]
    by_cases hw : b.width = 512
    · obtain ⟨hj, rfl⟩ := sig_rd h (by simp [hw]) hv
      simp only [fldOf] at hj ⊢
      rw [rd_end hr rfl hj]
      cases (usEnds b.lanes ps)[j]? with
      | none => rfl
      | some l => simp [(eop_vals (b := b) l j).2.1 (Nat.lt_of_le_of_lt (Nat.zero_le _) hj)]
    · obtain ⟨_, hj, rfl⟩ := sig_eopN h hw (by simp) hv
      rw [if_neg (by decide), rd_end hr rfl hj]
      cases (usEnds b.lanes ps)[j]? with
      | none => simp
      | some l =>
        simp only [(eop_vals (b := b) l j).2.2 (Nat.lt_of_le_of_lt (Nat.zero_le _) hj), Option.getD_some]
        omega
  · intro j v hv
    obtain ⟨hj, rfl⟩ := sig_rd h (by simp) hv
    simp only [fldOf] at hj ⊢
    rw [rd_start hr (by simp [Fld.byStart, Fld.sops]) hj]
    cases (usStarts ps)[j]? with
    | none => rfl
    | some p => simp [(sop_vals h p.2 p.1 j).2.2.1 (Nat.lt_of_le_of_lt (Nat.zero_le _) hj)]
  · intro j v hv
    obtain ⟨hj, rfl⟩ := sig_rd h (by simp) hv
    simp only [fldOf] at hj ⊢
    rw [rd_start hr (by simp [Fld.byStart, Fld.sops]) hj]
    cases (usStarts ps)[j]? with
    | none => rfl
    | some p => simp [(sop_vals h p.2 p.1 j).2.2.2.1 (Nat.lt_of_le_of_lt (Nat.zero_le _) hj)]
  · intro v hv
    obtain ⟨hj, rfl⟩ := sig_rd h (by simp) hv
    simp only [fldOf] at hj ⊢
    rw [hr .disc 0 hj, val_disc]
    have : anyDisc ps = true ↔ ∃ f off, some (f, off) ∈ ps ∧ f.discontinue = true := by
      unfold anyDisc
      rw [List.any_eq_true]
      constructor
      · rintro ⟨p, h1, h2⟩
        cases p with
        | none => cases h2
        | some p => exact ⟨p.1, p.2, h1, h2⟩
      · rintro ⟨f, off, h1, h2⟩
        exact ⟨_, h1, h2⟩
    rw [← this]
    by_cases hd : anyDisc ps = true <;> simp [hd]
  · intro seg k hs hk v hv
    obtain ⟨hj, rfl⟩ := sig_rd h (by simp) hv
    rw [lanes_eq] at hk hj ⊢
    have hb : b.ben.isSome = true := by
      rcases hb : b.ben with _ | o
      · simp [fldOf, Bus.num, loc, hb] at hj
      · rfl
    simp only [fldOf] at hj ⊢
    rw [rd_lane hlen hr (c := .be) rfl hs hk hj, usAt_val (fun f i => f.byteEn.getD i 0)]
    simp only [lane_be hb]
  · intro seg k hs hk v hv f i hf
    obtain ⟨hj, rfl⟩ := sig_rd h (by simp) hv
    rw [lanes_eq] at hk hj ⊢
    simp only [fldOf] at hj ⊢
    rw [rd_lane hlen hr (c := .par) rfl hs hk hj]
    unfold usAt at hf
    revert hf
    rcases ps[seg]? with _ | _ | ⟨g, off⟩
    · intro hf; cases hf
    · intro hf; cases hf
    · simp only
      intro hf
      split at hf
      · rename_i ho
        cases hf
        exact lane_par ho
      · cases hf

theorem layout_be {b : Bus} (h : UsBus b) {t : Txn} {ps : UsSlots} (hr : Reads b t ps) (hlen : ps.length = b.segs) (hc : b.kind = .cq → b.segs = 1)
    (hpk : ∃ os n, os ≠ [] ∧ ps = os.map some ++ List.replicate n none) : UsBeatBe b t ps := by
  have key : ∀ c, (c = Fld.first ∨ c = Fld.last) → ∀ j, j < b.num c → ∀ g : UsFrame → Nat, (∀ f s i, b.kind ≠ .cq → val (sopP b f s i) c i = g f) →
      (b.kind = .cq → ∀ f i, val (sopP b f 0 0) c i = if i = 0 then g f else 0) → rd b t c j = ((usStarts ps)[j]?.map fun p => g p.2).getD 0 := by
    intro c hcc j hj g h1 h2
    by_cases hk : b.kind = .cq
    · have h3 := hc hk
      rw [h3] at hlen
      obtain ⟨p, rfl⟩ := List.length_eq_one_iff.mp hlen
      rw [hr c j hj]
      cases p with
      | none =>
        obtain ⟨os, n, h4, h5⟩ := hpk
        cases os with
        | nil => exact absurd rfl h4
        | cons o os => simp at h5
      | some p =>
        obtain ⟨f, off⟩ := p
        rw [beatP, val_append, val_seg_sop (by rcases hcc with rfl | rfl <;> rfl), h2 hk, usStarts_eq]
        simp only [beatP, val, starts, Nat.or_zero]
        by_cases h0 : off = 0
        · rw [if_pos h0, if_pos h0]
          cases j with
          | zero => simp
          | succ j => simp
        · rw [if_neg h0, if_neg h0]; simp
    · rw [rd_start hr (by rcases hcc with rfl | rfl <;> simp [Fld.byStart, Fld.sops, hk]) hj]
      cases (usStarts ps)[j]? with
      | none => rfl
      | some p => simp [h1 p.2 p.1 j hk]
  have e4 : ∀ x, x &&& 15 = x % 16 := fun x => Nat.and_two_pow_sub_one_eq_mod x 4
  refine ⟨fun j v hv => ?_, fun j v hv => ?_⟩
  · obtain ⟨hj, rfl⟩ := sig_rd h (by simp) hv
    have hj0 : 0 < b.num .first := Nat.lt_of_le_of_lt (Nat.zero_le _) hj
    refine key .first (.inl rfl) j hj (fun f => f.firstBe % 16) (fun f s i hk => (sop_vals h f s i).2.2.2.2.1 hj0 hk) (fun hk f i => ?_)
    simp only [sopP, hk]
    split <;> simp [val, e4, eq_comm]
  · obtain ⟨hj, rfl⟩ := sig_rd h (by simp) hv
    have hj0 : 0 < b.num .last := Nat.lt_of_le_of_lt (Nat.zero_le _) hj
    refine key .last (.inr rfl) j hj (fun f => f.lastBe % 16) (fun f s i hk => (sop_vals h f s i).2.2.2.2.2 hj0 hk) (fun hk f i => ?_)
    simp only [sopP, hk]
    split <;> simp [val, e4, eq_comm]

theorem beat_layout {b : Bus} (h : UsBus b) {c : Option (UsFrame × Nat)} {q : List UsFrame} (hm : Stream.Mid len c) (hp : ¬ (c = none ∧ q = []))
    (hok : ∀ f ∈ Stream.pend c q, UsOk b.kind f) :
    ∃ a, putSegs b (List.range b.segs) {} (c.map toCur) q =
        .ok (a, (Stream.plan b.lanes len b.segs c q).2.1.map toCur, (Stream.plan b.lanes len b.segs c q).2.2) ∧
      b.carry a.t = .ok a.t ∧ UsBeat b a.t (Stream.plan b.lanes len b.segs c q).1 ∧
      ((b.kind = .cq → b.segs = 1) → UsBeatBe b a.t (Stream.plan b.lanes len b.segs c q).1) := by
  obtain ⟨h1, hl, _⟩ := table_lanes h
  have hlen := Stream.plan_length b.lanes len b.segs c q
  obtain ⟨l, sc', ec', e1, e2⟩ := putSegs_eq h b.segs 0 0 0 {} c q (by omega) (by omega) hm hok
  rw [← List.range_eq_range'] at e1
  have hlast := putSegs_tlast _ _ _ _ e1 (show (0 : Nat) ≤ 1 by omega)
  have hpm := plan_mem (b := b) hl b.segs c q hm hok
  have hsl : SlotsOk b (Stream.plan b.lanes len b.segs c q).1 := fun f off hf => ⟨hok f (hpm f off hf).1, (hpm f off hf).2⟩
  have hfit := fit_beat h _ 0 0 0 hsl (by omega) (by omega) (by omega)
  have hpk : ∃ os n, os ≠ [] ∧ (Stream.plan b.lanes len b.segs c q).1 = os.map some ++ List.replicate n none := by
    obtain ⟨os, m, h2, h3⟩ := plan_packed (lanes := b.lanes) b.segs c q
    exact ⟨os, m, h3 h1 hp, h2⟩
  have hl1 : l = if b.segs = 1 ∧ usEnds b.lanes (Stream.plan b.lanes len b.segs c q).1 ≠ [] then 1 else 0 := by
    by_cases hs1 : b.segs = 1
    · have := e2.2 hs1 hp
      rw [this, hs1]
      obtain ⟨f, off, r, g1, g2, g3⟩ := plan_head (b := b) (n := 0) hm hp
      rw [hs1] at hlen
      rw [g1] at hlen ⊢
      have hr0 : r = [] := List.length_eq_zero_iff.mp (by simpa using hlen)
      subst hr0
      rw [g3 rfl, usEnds_eq]
      unfold Stream.next
      simp only [ends, len]
      by_cases he : f.data.length ≤ off + b.lanes <;> simp [he]
    · have := putSegs_nolast hs1 _ _ _ _ e1 rfl
      simp only at this
      rw [this, if_neg (fun hh => hs1 hh.1)]
  generalize ht : ({ (beatP b 0 0 0 (Stream.plan b.lanes len b.segs c q).1).foldl (put b) {} with tlast := l } : Txn) = t at e1 hlast
  have hget : ∀ w, get t w = get ((beatP b 0 0 0 (Stream.plan b.lanes len b.segs c q).1).foldl (put b) {}) w := by
    intro w; subst ht
    match w with
    | 0 | 1 | 2 => rfl
  have hr : Reads b t (Stream.plan b.lanes len b.segs c q).1 := by
    intro f i hi
    have : rd b t f i = rd b ((beatP b 0 0 0 (Stream.plan b.lanes len b.segs c q).1).foldl (put b) {}) f i := by
      rw [rd, rd, hget]
    rw [this, rd_puts (table_ok h) hi _ _ hfit, rd_zero, Nat.zero_or]
  have hlt : ∀ w, get t w < 2 ^ b.size w := by
    intro w
    rw [hget]
    refine puts_lt (table_ok h) w _ _ hfit ?_
    have : get {} w = 0 := by match w with | 0 | 1 | 2 => rfl
    rw [this]; exact Nat.two_pow_pos _
  refine ⟨_, e1, carry_ok hlt hlast, ?_, ?_⟩
  · refine layout h hr hsl hlen hpk (hlt 0) (hlt 1) ?_ (fun i hi => ?_)
    · rw [← ht]; exact hl1
    · have := other_zero h hfit hi
      rw [← ht]; exact this
  · intro hc
    exact layout_be h hr hlen hc hpk

theorem run_layout {b : Bus} (h : UsBus b) : ∀ (evs : List Ev) (c : Option (UsFrame × Nat)) (q : List UsFrame), Stream.Mid len c →
    (∀ f ∈ Stream.pend c q ++ usSent evs, UsOk b.kind f) →
    ∃ c' q' ts pss, Src.run b ⟨q, c.map toCur⟩ evs = .ok (⟨q', c'.map toCur⟩, ts) ∧ List.Forall₂ (UsBeat b) ts pss ∧
      ((b.kind = .cq → b.segs = 1) → List.Forall₂ (UsBeatBe b) ts pss) ∧
      (pss.flatMap fun ps => ps.filterMap id) ++ partsLeft b.lanes c' q' = partsLeft b.lanes c q ++ (usSent evs).flatMap (usCuts b.lanes)
  | [], c, q, hm, hok => ⟨c, q, [], [], rfl, .nil, fun _ => .nil, by simp [usSent]⟩
  | .send f :: evs, c, q, hm, hok => by
    have hp : Stream.pend c (q ++ [f]) ++ usSent evs = Stream.pend c q ++ usSent (.send f :: evs) := by
      simp [Stream.pend, usSent]
    obtain ⟨c', q', ts, pss, h1, h2, h3, h4⟩ := run_layout h evs c (q ++ [f]) hm (by rwa [hp])
    refine ⟨c', q', ts, pss, ?_, h2, h3, by rw [h4]; simp [partsLeft, usSent]⟩
    simp only [Src.run, Src.step, h1]
    rfl
  | .beat :: evs, c, q, hm, hok => by
    have hs : usSent (.beat :: evs) = usSent evs := rfl
    rw [hs] at hok ⊢
    by_cases hi : c = none ∧ q = []
    · obtain ⟨rfl, rfl⟩ := hi
      obtain ⟨c', q', ts, pss, h1, h2, h3, h4⟩ := run_layout h evs none [] hm hok
      refine ⟨c', q', ts, pss, ?_, h2, h3, h4⟩
      simp only [Option.map_none] at h1
      simp [Src.run, Src.step, h1]
    · have hl := (table_lanes h).2.1
      obtain ⟨a, b1, b2, b3, b4⟩ := beat_layout h hm hi (fun f hf => hok f (List.mem_append_left _ hf))
      obtain ⟨out, _, b7, b6⟩ := Stream.recv_plan (len := len) hl b.segs c q hm
      have hparts := plan_parts hl b.segs c q hm (fun f hf => List.length_pos_iff.mpr (hok f (List.mem_append_left _ hf)).nonempty)
      have hsub : ∀ f ∈ Stream.pend (Stream.plan b.lanes len b.segs c q).2.1 (Stream.plan b.lanes len b.segs c q).2.2 ++ usSent evs, f ∈ Stream.pend c q ++ usSent evs := by
        intro f hf
        rw [← b7]
        rcases List.mem_append.mp hf with hf | hf
        · exact List.mem_append_left _ (List.mem_append_right _ hf)
        · exact List.mem_append_right _ hf
      obtain ⟨c', q', ts, pss, h1, h2, h3, h4⟩ := run_layout h evs _ _ b6 (fun f hf => hok f (hsub f hf))
      refine ⟨c', q', a.t :: ts, (Stream.plan b.lanes len b.segs c q).1 :: pss, ?_, .cons b3 h2, fun hc => .cons (b4 hc) (h3 hc), ?_⟩
      · have hi' : ¬ (c.map toCur = none ∧ q = []) := by cases c <;> simp_all
        simp only [Src.run, Src.step, if_neg hi', b1, b2, h1]
        rfl
      · rw [List.flatMap_cons, List.append_assoc, h4, ← List.append_assoc, hparts]

end Us
end Pcie
