import Verif.Lemmas.UsSource
/-
What is in the fields of an UltraScale transaction.
-/
namespace Pcie
namespace Us
open Spec

theorem val_zero {c : Fld} {i : Nat} : ∀ {l : List Piece}, (∀ p ∈ l, p.1 = c → p.2.1 ≠ i) → val l c i = 0
  | [], _ => rfl
  | p :: l, h => by
    rw [val, val_zero (fun q hq => h q (List.mem_cons_of_mem _ hq)), Nat.or_zero, if_neg]
    exact fun hh => h p (by simp) hh.1 hh.2

theorem and_lt (x n : Nat) : x &&& (2 ^ n - 1) < 2 ^ n := by
  rw [Nat.and_two_pow_sub_one_eq_mod]; exact Nat.mod_lt _ (Nat.two_pow_pos _)

theorem fit_sop {b : Bus} (h : UsBus b) (f : UsFrame) {seg sc : Nat} (hs : seg < b.segs) (hc : sc ≤ seg) : ∀ p ∈ sopP b f seg sc, Fit b p := by
  obtain ⟨h1, h2, h3, _⟩ := bus_facts h
  obtain ⟨_, hl, hsl⟩ := table_lanes h
  have h4 : b.width = 512 → seg * b.lanes / 4 < 4 := by
    intro hw
    have hlt := lane_lt h hs (k := 0) hl
    rw [(h2 hw).1] at hlt
    omega
  have a4 : ∀ x, x &&& 15 < 2 ^ 4 := fun x => and_lt x 4
  have a6 : ∀ x, x &&& 63 < 2 ^ 6 := fun x => and_lt x 6
  have a2 : ∀ x, x &&& 3 < 2 ^ 2 := fun x => and_lt x 2
  clear hsl hl
  obtain ⟨kind, width, tuser, segs⟩ := b
  simp only at h1 h2 h3 h4 hs
  intro p hp
  by_cases hw : width = 512
  · subst hw
    have h5 := (h2 rfl).2.2
    have h6 := h4 rfl
    cases kind <;> simp only [sopP, if_true, List.cons_append, List.nil_append, List.mem_cons, List.not_mem_nil, or_false] at hp <;> simp at h5
    · rcases hp with rfl | rfl | rfl | rfl | rfl <;> simp [Fit, Bus.num, Bus.wid, loc] <;> first | omega | exact ⟨by omega, a4 _⟩ | exact ⟨by omega, a6 _⟩
    · rcases hp with rfl | rfl <;> simp [Fit, Bus.num, Bus.wid, loc] <;> omega
    · rcases hp with rfl | rfl | rfl | rfl <;> simp [Fit, Bus.num, Bus.wid, loc] <;> first | omega | exact ⟨by omega, a4 _⟩
    · rcases hp with rfl | rfl <;> simp [Fit, Bus.num, Bus.wid, loc] <;> omega
  · by_cases hk : kind = .rc
    · subst hk
      have := (h3 hw).2
      simp only [sopP, hw, if_false, List.mem_cons, List.not_mem_nil, or_false] at hp
      subst hp
      simp [Fit, Bus.num, Bus.wid, loc, hw]; omega
    · have := h1 hw hk
      have e1 : seg = 0 := by omega
      have e2 : sc = 0 := by omega
      subst e1 e2
      cases kind with
      | rq =>
        by_cases hu : tuser = 62
        · simp only [sopP, hw, hu, if_false, if_true, List.cons_append, List.nil_append, List.mem_cons, List.not_mem_nil, or_false] at hp
          rcases hp with rfl | rfl | rfl | rfl <;> simp [Fit, Bus.num, Bus.wid, loc, hw, hu] <;> first | exact a4 _ | exact a2 _
        · simp only [sopP, hw, hu, if_false, List.append_nil, List.mem_cons, List.not_mem_nil, or_false] at hp
          rcases hp with rfl | rfl | rfl <;> simp [Fit, Bus.num, Bus.wid, loc, hw] <;> exact a4 _
      | rc => exact absurd rfl hk
      | cq =>
        simp only [sopP, hw, if_false, List.mem_cons, List.not_mem_nil, or_false] at hp
        rcases hp with rfl | rfl | rfl <;> simp [Fit, Bus.num, Bus.wid, loc, hw] <;> exact a4 _
      | cc => simp [sopP, hw] at hp

theorem fit_eop {b : Bus} (h : UsBus b) {ec last : Nat} (hc : ec < b.segs) (hlast : last < b.byteLanes) : ∀ p ∈ eopP b ec last, Fit b p := by
  obtain ⟨h1, h2, h3, _⟩ := bus_facts h
  generalize hbl : b.byteLanes = bl at *
  obtain ⟨kind, width, tuser, segs⟩ := b
  simp only at h1 h2 h3 hc
  intro p hp
  by_cases hw : width = 512
  · subst hw
    have h5 := (h2 rfl).2.2
    have h6 := (h2 rfl).1
    simp only [eopP, if_true, List.mem_cons, List.not_mem_nil, or_false] at hp
    rcases hp with rfl | rfl <;> simp [Fit, Bus.num, Bus.wid, loc] <;> omega
  · have h5 := h3 hw
    cases kind <;> simp only [eopP, hw, if_false, List.mem_cons, List.not_mem_nil, or_false] at hp
    subst hp
    simp only [Fit, Bus.num, Bus.wid, loc, hw, if_false, if_true]
    refine ⟨by omega, ?_⟩
    apply Nat.or_lt_two_pow (by decide)
    rw [Nat.shiftLeft_eq]; omega

theorem fit_lane {b : Bus} {f : UsFrame} (hf : UsOk b.kind f) {lane off : Nat} (hl : lane < b.byteLanes) : ∀ p ∈ laneP b f lane off, Fit b p := by
  have e : ∀ {l : List Nat} {w : Nat}, (∀ d ∈ l, d < 2 ^ w) → l.getD off 0 < 2 ^ w := by
    intro l w h
    rw [List.getD_eq_getElem?_getD]
    cases ho : l[off]? with
    | none => exact Nat.two_pow_pos _
    | some d => exact h d (List.mem_of_getElem? ho)
  intro p hp
  unfold laneP at hp
  split at hp
  · rcases hb : b.ben with _ | o
    · simp only [hb, Option.isSome_none, Bool.false_eq_true, if_false, List.append_nil, List.cons_append, List.nil_append, List.mem_cons, List.not_mem_nil, or_false] at hp
      rcases hp with rfl | rfl | rfl <;> simp only [Fit, Bus.num, Bus.wid, loc]
      · exact ⟨hl, e hf.data⟩
      · exact ⟨hl, by decide⟩
      · exact ⟨hl, e (w := 4) hf.parity⟩
    · simp only [hb, Option.isSome_some, if_true, List.cons_append, List.nil_append, List.mem_cons, List.not_mem_nil, or_false] at hp
      have hk := ben_kind b
      rw [hb] at hk
      rcases hp with rfl | rfl | rfl | rfl <;> simp only [Fit, Bus.num, Bus.wid, loc, hb]
      · exact ⟨hl, e hf.data⟩
      · exact ⟨hl, by decide⟩
      · exact ⟨hl, e (w := 4) (hf.byteEn hk.symm).2⟩
      · exact ⟨hl, e (w := 4) hf.parity⟩
  · simp only [List.mem_cons, List.not_mem_nil, or_false] at hp
    subst hp
    exact ⟨hl, show (15 : Nat) < 2 ^ 4 by decide⟩

/-- The slots of a transaction are parts of frames that can be sent. -/
def SlotsOk (b : Bus) (ps : List (Option (UsFrame × Nat))) : Prop := ∀ f off, some (f, off) ∈ ps → UsOk b.kind f ∧ off < f.data.length

theorem SlotsOk.tail {b : Bus} {p} {ps : List (Option (UsFrame × Nat))} (h : SlotsOk b (p :: ps)) : SlotsOk b ps :=
  fun f off hm => h f off (List.mem_cons_of_mem _ hm)

theorem fit_seg {b : Bus} (h : UsBus b) {f : UsFrame} {seg sc ec off : Nat} (hf : UsOk b.kind f) (ho : off < f.data.length) (hs : seg < b.segs) (hc : sc ≤ seg) (he : ec ≤ seg) :
    ∀ p ∈ segP b seg sc ec f off, Fit b p := by
  intro p hp
  simp only [segP, List.mem_append] at hp
  rcases hp with ((hp | hp) | hp) | hp
  · split at hp
    · exact fit_sop h f hs hc p hp
    · cases hp
  · split at hp
    · simp only [List.mem_cons, List.not_mem_nil, or_false] at hp
      subst hp
      exact ⟨show (0 : Nat) < 1 by decide, show (1 : Nat) < 2 ^ 1 by decide⟩
    · cases hp
  · obtain ⟨k, hk, hp⟩ := List.mem_flatMap.mp hp
    exact fit_lane hf (lane_lt h hs (List.mem_range.mp hk)) p hp
  · split at hp
    · exact fit_eop h (by omega) (lane_lt h hs (by omega)) p hp
    · cases hp

theorem fit_beat {b : Bus} (h : UsBus b) : ∀ (ps : List (Option (UsFrame × Nat))) (seg sc ec : Nat), SlotsOk b ps → seg + ps.length ≤ b.segs → sc ≤ seg → ec ≤ seg →
    ∀ p ∈ beatP b seg sc ec ps, Fit b p
  | [], _, _, _, _, _, _, _, p, hp => by cases hp
  | none :: r, seg, sc, ec, hok, hl, hc, he, p, hp => by
    rw [List.length_cons] at hl
    exact fit_beat h r (seg + 1) sc ec hok.tail (by omega) (by omega) (by omega) p hp
  | some (f, off) :: r, seg, sc, ec, hok, hl, hc, he, p, hp => by
    rw [List.length_cons] at hl
    rcases List.mem_append.mp hp with hp | hp
    · exact fit_seg h (hok f off (by simp)).1 (hok f off (by simp)).2 (by omega) hc he p hp
    · exact fit_beat h r (seg + 1) _ _ hok.tail (by omega) (by split <;> omega) (by split <;> omega) p hp

/-! ### The fields of the lanes -/

def Fld.lane (c : Fld) : Bool := c = .data ∨ c = .keep ∨ c = .be ∨ c = .par
def Fld.sops (c : Fld) : Bool := c = .first ∨ c = .last ∨ c = .seq ∨ c = .seqHi ∨ c = .sop ∨ c = .sopPtr
def Fld.eops (c : Fld) : Bool := c = .eop ∨ c = .eopPtr ∨ c = .eopN

theorem sopP_fld {b : Bus} {f : UsFrame} {seg sc : Nat} : ∀ p ∈ sopP b f seg sc, p.1.sops = true := by
  intro p hp
  unfold sopP at hp
  split at hp
  · split at hp <;> simp at hp <;> (repeat' rcases hp with hp | hp) <;> rfl
  · split at hp
    · split at hp <;> simp at hp <;> (repeat' rcases hp with hp | hp) <;> rfl
    all_goals simp at hp <;> (repeat' rcases hp with hp | hp) <;> rfl

theorem eopP_fld {b : Bus} {ec last : Nat} : ∀ p ∈ eopP b ec last, p.1.eops = true ∧ p.2.1 = ec := by
  intro p hp
  unfold eopP at hp
  split at hp
  · simp at hp; rcases hp with rfl | rfl <;> simp [Fld.eops]
  · split at hp <;> simp at hp; subst hp; simp [Fld.eops]

theorem laneP_fld {b : Bus} {f : UsFrame} {lane off : Nat} : ∀ p ∈ laneP b f lane off, p.1.lane = true ∧ p.2.1 = lane := by
  intro p hp
  unfold laneP at hp
  split at hp
  · split at hp <;> simp at hp <;> (repeat' rcases hp with hp | hp) <;> subst_vars <;> simp [Fld.lane]
  · simp at hp; subst hp; simp [Fld.lane]

theorem val_lanes {b : Bus} {f : UsFrame} {seg off : Nat} {c : Fld} {k : Nat} : ∀ (n k0 : Nat), k0 ≤ k → k < k0 + n →
    val ((List.range' k0 n).flatMap fun k => laneP b f (k + seg * b.lanes) (off + k)) c (k + seg * b.lanes) = val (laneP b f (k + seg * b.lanes) (off + k)) c (k + seg * b.lanes)
  | 0, k0, h1, h2 => by omega
  | n + 1, k0, h1, h2 => by
    rw [List.range'_succ, List.flatMap_cons, val_append]
    by_cases hk : k0 = k
    · subst hk
      rw [val_zero (l := List.flatMap _ _), Nat.or_zero]
      intro p hp _
      obtain ⟨k', hk', hp⟩ := List.mem_flatMap.mp hp
      rw [(laneP_fld p hp).2]
      have := List.mem_range'_1.mp hk'
      omega
    · rw [val_lanes n (k0 + 1) (by omega) (by omega), val_zero (l := laneP b f (k0 + seg * b.lanes) (off + k0)), Nat.zero_or]
      intro p hp _
      rw [(laneP_fld p hp).2]
      omega

theorem val_seg_lane {b : Bus} {f : UsFrame} {seg sc ec off : Nat} {c : Fld} (hc : c.lane = true) {k : Nat} (hk : k < b.lanes) :
    val (segP b seg sc ec f off) c (k + seg * b.lanes) = val (laneP b f (k + seg * b.lanes) (off + k)) c (k + seg * b.lanes) := by
  rw [segP, val_append, val_append, val_append]
  rw [val_zero (l := if off = 0 then _ else _), val_zero (l := if f.discontinue = true then _ else _), val_zero (l := if f.data.length ≤ _ then _ else _),
    List.range_eq_range', val_lanes b.lanes 0 (by omega) (by omega)]
  · simp
  · intro p hp h1
    split at hp
    · have := (eopP_fld p hp).1
      rw [h1] at this
      cases c <;> simp_all [Fld.lane, Fld.eops]
    · cases hp
  · intro p hp h1
    split at hp
    · simp at hp; subst hp; subst h1; simp [Fld.lane] at hc
    · cases hp
  · intro p hp h1
    split at hp
    · have := sopP_fld p hp
      rw [h1] at this
      cases c <;> simp_all [Fld.lane, Fld.sops]
    · cases hp

theorem seg_lane_range {b : Bus} {f : UsFrame} {seg sc ec off : Nat} : ∀ p ∈ segP b seg sc ec f off, p.1.lane = true → seg * b.lanes ≤ p.2.1 ∧ p.2.1 < (seg + 1) * b.lanes := by
  intro p hp hl
  simp only [segP, List.mem_append] at hp
  rcases hp with ((hp | hp) | hp) | hp
  · split at hp
    · have := sopP_fld p hp
      revert this hl; cases p.1 <;> simp [Fld.lane, Fld.sops]
    · cases hp
  · split at hp
    · simp at hp; subst hp; simp [Fld.lane] at hl
    · cases hp
  · obtain ⟨k, hk, hp⟩ := List.mem_flatMap.mp hp
    rw [(laneP_fld p hp).2, Nat.add_mul]
    have := List.mem_range.mp hk
    omega
  · split at hp
    · have := (eopP_fld p hp).1
      revert this hl; cases p.1 <;> simp [Fld.lane, Fld.eops]
    · cases hp

theorem beat_lane_range {b : Bus} : ∀ (ps : List (Option (UsFrame × Nat))) (seg sc ec : Nat), ∀ p ∈ beatP b seg sc ec ps, p.1.lane = true → seg * b.lanes ≤ p.2.1
  | [], _, _, _, p, hp, _ => by cases hp
  | none :: r, seg, sc, ec, p, hp, hl => by
    have := beat_lane_range r (seg + 1) sc ec p hp hl
    rw [Nat.add_mul] at this; omega
  | some (f, off) :: r, seg, sc, ec, p, hp, hl => by
    rcases List.mem_append.mp hp with hp | hp
    · exact (seg_lane_range p hp hl).1
    · have := beat_lane_range r (seg + 1) _ _ p hp hl
      rw [Nat.add_mul] at this; omega

theorem val_lane {b : Bus} {c : Fld} (hc : c.lane = true) {k : Nat} (hk : k < b.lanes) {f : UsFrame} {off : Nat} :
    ∀ (ps : List (Option (UsFrame × Nat))) (seg sc ec r : Nat), ps[r]? = some (some (f, off)) →
      val (beatP b seg sc ec ps) c (k + (seg + r) * b.lanes) = val (laneP b f (k + (seg + r) * b.lanes) (off + k)) c (k + (seg + r) * b.lanes)
  | [], _, _, _, r, h => by simp at h
  | none :: ps, seg, sc, ec, 0, h => by simp at h
  | none :: ps, seg, sc, ec, r + 1, h => by
    rw [beatP]
    have := val_lane hc hk ps (seg + 1) sc ec r (by simpa using h)
    rw [show seg + 1 + r = seg + (r + 1) by omega] at this
    exact this
  | some (f', off') :: ps, seg, sc, ec, 0, h => by
    simp only [List.getElem?_cons_zero, Option.some.injEq, Prod.mk.injEq] at h
    obtain ⟨rfl, rfl⟩ := h
    rw [beatP, val_append, Nat.add_zero, val_seg_lane hc hk, val_zero (l := beatP _ _ _ _ _), Nat.or_zero]
    intro p hp h1
    have := beat_lane_range ps _ _ _ p hp (by rw [h1]; exact hc)
    rw [Nat.add_mul] at this
    omega
  | some (f', off') :: ps, seg, sc, ec, r + 1, h => by
    rw [beatP, val_append]
    have := val_lane hc hk ps (seg + 1) (if off' = 0 then sc + 1 else sc) (if f'.data.length ≤ off' + b.lanes then ec + 1 else ec) r (by simpa using h)
    rw [show seg + 1 + r = seg + (r + 1) by omega] at this
    rw [this, val_zero (l := segP _ _ _ _ _ _), Nat.zero_or]
    intro p hp h1
    have := (seg_lane_range p hp (by rw [h1]; exact hc)).2
    have h2 : (seg + 1) * b.lanes ≤ (seg + (r + 1)) * b.lanes := Nat.mul_le_mul_right _ (by omega)
    omega

/-! ### The fields of the starts -/

/-- The frames that start, with their segments. -/
def starts : Nat → List (Option (UsFrame × Nat)) → List (Nat × UsFrame)
  | _, [] => []
  | seg, none :: r => starts (seg + 1) r
  | seg, some (f, off) :: r => if off = 0 then (seg, f) :: starts (seg + 1) r else starts (seg + 1) r

/-- Fields that are numbered by the starts. -/
def Fld.byStart (b : Bus) (c : Fld) : Bool := c.sops ∧ ¬ (b.kind = .cq ∧ (c = .first ∨ c = .last))

theorem sopP_index {b : Bus} {f : UsFrame} {seg sc : Nat} : ∀ p ∈ sopP b f seg sc, p.1.byStart b = true → p.2.1 = sc := by
  intro p hp hb
  unfold sopP at hp
  split at hp
  · split at hp <;> rename_i hk <;> simp at hp <;> (repeat' rcases hp with hp | hp) <;> subst_vars <;> simp_all [Fld.byStart]
  · split at hp <;> rename_i hk
    · split at hp <;> simp at hp <;> (repeat' rcases hp with hp | hp) <;> subst_vars <;> simp_all [Fld.byStart]
    all_goals simp at hp <;> (repeat' rcases hp with hp | hp) <;> subst_vars <;> simp_all [Fld.byStart]

theorem byStart_sops {b : Bus} {c : Fld} (h : c.byStart b = true) : c.sops = true := by
  simp only [Fld.byStart, Bool.decide_and, Bool.and_eq_true, decide_eq_true_eq] at h; exact h.1

theorem val_seg_sop {b : Bus} {f : UsFrame} {seg sc ec off : Nat} {c : Fld} (hc : c.sops = true) (i : Nat) :
    val (segP b seg sc ec f off) c i = if off = 0 then val (sopP b f seg sc) c i else 0 := by
  rw [segP, val_append, val_append, val_append]
  rw [val_zero (l := if f.discontinue = true then _ else _), val_zero (l := if f.data.length ≤ _ then _ else _), val_zero (l := List.flatMap _ _)]
  · split <;> simp [val]
  · intro p hp h1
    obtain ⟨k', hk', hp⟩ := List.mem_flatMap.mp hp
    have := (laneP_fld p hp).1
    rw [h1] at this
    cases c <;> simp_all [Fld.lane, Fld.sops]
  · intro p hp h1
    split at hp
    · have := (eopP_fld p hp).1
      rw [h1] at this
      cases c <;> simp_all [Fld.sops, Fld.eops]
    · cases hp
  · intro p hp h1
    split at hp
    · simp at hp; subst hp; subst h1; simp [Fld.sops] at hc
    · cases hp

theorem val_start {b : Bus} {c : Fld} (hc : c.byStart b = true) (i : Nat) : ∀ (ps : List (Option (UsFrame × Nat))) (seg sc ec : Nat),
    val (beatP b seg sc ec ps) c i = if i < sc then 0 else match (starts seg ps)[i - sc]? with | some (s, f) => val (sopP b f s i) c i | none => 0
  | [], seg, sc, ec => by simp [beatP, val, starts]
  | none :: ps, seg, sc, ec => by rw [beatP, val_start hc i ps, starts]
  | some (f, off) :: ps, seg, sc, ec => by
    rw [beatP, val_append, val_seg_sop (byStart_sops hc), val_start hc i ps, starts]
    by_cases h0 : off = 0
    · simp only [h0, if_true]
      rcases Nat.lt_trichotomy i sc with h | h | h
      · rw [if_pos (by omega), if_pos h, val_zero]; rfl
        intro p hp h1
        rw [sopP_index p hp (by rw [h1]; exact hc)]; omega
      · subst h
        rw [if_pos (by omega), if_neg (by omega), Nat.sub_self]
        simp
      · rw [if_neg (by omega), if_neg (by omega), val_zero (l := sopP _ _ _ _), Nat.zero_or]
        · rw [show i - sc = (i - (sc + 1)) + 1 by omega, List.getElem?_cons_succ]
        · intro p hp h1
          rw [sopP_index p hp (by rw [h1]; exact hc)]; omega
    · simp [h0]

theorem starts_mem : ∀ (ps : List (Option (UsFrame × Nat))) (seg s : Nat) (f : UsFrame), (s, f) ∈ starts seg ps ↔ seg ≤ s ∧ ps[s - seg]? = some (some (f, 0))
  | [], seg, s, f => by simp [starts]
  | none :: ps, seg, s, f => by
    rw [starts, starts_mem ps]
    by_cases h : seg < s
    · rw [show s - seg = (s - (seg + 1)) + 1 by omega, List.getElem?_cons_succ]
      simp [Nat.succ_le_iff, h, Nat.le_of_lt h]
    · constructor
      · intro hh; omega
      · intro hh
        rw [show s - seg = 0 by omega] at hh; simp at hh
  | some (g, off) :: ps, seg, s, f => by
    have ih := starts_mem ps (seg + 1) s f
    have e : (s, f) ∈ starts seg (some (g, off) :: ps) ↔ (s = seg ∧ g = f ∧ off = 0) ∨ (s, f) ∈ starts (seg + 1) ps := by
      rw [starts]
      split
      · rename_i h0; simp only [List.mem_cons, Prod.mk.injEq]; simp [h0, eq_comm]
      · rename_i h0; simp [h0]
    rw [e, ih]
    by_cases h : seg < s
    · rw [show s - seg = (s - (seg + 1)) + 1 by omega, List.getElem?_cons_succ]
      have h1 : ¬ s = seg := by omega
      simp [Nat.succ_le_iff, h, Nat.le_of_lt h, h1]
    · constructor
      · rintro (⟨rfl, rfl, rfl⟩ | hh)
        · simp
        · omega
      · intro hh
        have : s = seg := by omega
        subst this
        simp at hh
        exact .inl ⟨rfl, hh.1, hh.2⟩

theorem starts_length : ∀ (ps : List (Option (UsFrame × Nat))) (seg : Nat), (starts seg ps).length ≤ ps.length
  | [], _ => by simp [starts]
  | none :: ps, seg => by have := starts_length ps (seg + 1); simp [starts]; omega
  | some (g, off) :: ps, seg => by
    have := starts_length ps (seg + 1)
    rw [starts]; split <;> simp <;> omega

theorem starts_take : ∀ (ps : List (Option (UsFrame × Nat))) (seg r : Nat) (f : UsFrame), ps[r]? = some (some (f, 0)) →
    (starts seg ps)[(starts seg (ps.take r)).length]? = some (seg + r, f)
  | [], _, _, _, h => by simp at h
  | p :: ps, seg, 0, f, h => by
    simp only [List.getElem?_cons_zero, Option.some.injEq] at h
    subst h
    simp [starts]
  | none :: ps, seg, r + 1, f, h => by
    have := starts_take ps (seg + 1) r f (by simpa using h)
    rw [List.take_succ_cons, starts, starts, this]; congr 2; omega
  | some (g, off) :: ps, seg, r + 1, f, h => by
    have := starts_take ps (seg + 1) r f (by simpa using h)
    rw [List.take_succ_cons, starts, starts]
    split <;> simp [this] <;> omega

theorem seg_cq_range {b : Bus} (hk : b.kind = .cq) {f : UsFrame} {seg sc : Nat} {c : Fld} (hc : c = .first ∨ c = .last) : ∀ p ∈ sopP b f seg sc, p.1 = c → p.2.1 = seg := by
  intro p hp h1
  unfold sopP at hp
  rw [hk] at hp
  rcases hc with rfl | rfl <;> split at hp <;> simp at hp <;> (repeat' rcases hp with hp | hp) <;> simp_all

theorem beat_cq_range {b : Bus} (hk : b.kind = .cq) {c : Fld} (hc : c = .first ∨ c = .last) : ∀ (ps : List (Option (UsFrame × Nat))) (seg sc ec i : Nat), i < seg →
    val (beatP b seg sc ec ps) c i = 0
  | [], _, _, _, _, _ => rfl
  | none :: ps, seg, sc, ec, i, h => by rw [beatP]; exact beat_cq_range hk hc ps _ _ _ i (by omega)
  | some (f, off) :: ps, seg, sc, ec, i, h => by
    rw [beatP, val_append, beat_cq_range hk hc ps _ _ _ i (by omega), val_seg_sop (by rcases hc with rfl | rfl <;> rfl), Nat.or_zero]
    split
    · exact val_zero fun p hp h1 => by rw [seg_cq_range hk hc p hp h1]; omega
    · rfl

theorem val_cq {b : Bus} (hk : b.kind = .cq) {c : Fld} (hc : c = .first ∨ c = .last) {f : UsFrame} (sc' : Nat) : ∀ (ps : List (Option (UsFrame × Nat))) (seg sc ec r : Nat),
    ps[r]? = some (some (f, 0)) → val (beatP b seg sc ec ps) c (seg + r) = val (sopP b f (seg + r) sc') c (seg + r)
  | [], _, _, _, _, h => by simp at h
  | none :: ps, _, _, _, 0, h => by simp at h
  | none :: ps, seg, sc, ec, r + 1, h => by
    have := val_cq hk hc sc' ps (seg + 1) sc ec r (by simpa using h)
    rw [show seg + 1 + r = seg + (r + 1) by omega] at this
    exact this
  | some (f', off') :: ps, seg, sc, ec, 0, h => by
    simp only [List.getElem?_cons_zero, Option.some.injEq, Prod.mk.injEq] at h
    obtain ⟨rfl, rfl⟩ := h
    rw [beatP, val_append, beat_cq_range hk hc ps _ _ _ _ (by omega), val_seg_sop (by rcases hc with rfl | rfl <;> rfl), Nat.or_zero, if_pos rfl, Nat.add_zero]
    rcases hc with rfl | rfl <;> simp [sopP, hk] <;> split <;> simp [val]
  | some (f', off') :: ps, seg, sc, ec, r + 1, h => by
    have := val_cq hk hc sc' ps (seg + 1) (if off' = 0 then sc + 1 else sc) (if f'.data.length ≤ off' + b.lanes then ec + 1 else ec) r (by simpa using h)
    rw [show seg + 1 + r = seg + (r + 1) by omega] at this
    rw [beatP, val_append, this, val_seg_sop (by rcases hc with rfl | rfl <;> rfl)]
    have : (if off' = 0 then val (sopP b f' seg sc) c (seg + (r + 1)) else 0) = 0 := by
      split
      · exact val_zero fun p hp h1 => by rw [seg_cq_range hk hc p hp h1]; omega
      · rfl
    rw [this, Nat.zero_or]

/-! ### The fields of the ends -/

/-- The last lanes of the frames that end. -/
def ends (lanes : Nat) : Nat → List (Option (UsFrame × Nat)) → List Nat
  | _, [] => []
  | seg, none :: r => ends lanes (seg + 1) r
  | seg, some (f, off) :: r =>
    if f.data.length ≤ off + lanes then (f.data.length - off - 1 + seg * lanes) :: ends lanes (seg + 1) r else ends lanes (seg + 1) r

theorem val_seg_eop {b : Bus} {f : UsFrame} {seg sc ec off : Nat} {c : Fld} (hc : c.eops = true) (i : Nat) :
    val (segP b seg sc ec f off) c i = if f.data.length ≤ off + b.lanes then val (eopP b ec (f.data.length - off - 1 + seg * b.lanes)) c i else 0 := by
  rw [segP, val_append, val_append, val_append]
  rw [val_zero (l := if f.discontinue = true then _ else _), val_zero (l := if off = 0 then _ else _), val_zero (l := List.flatMap _ _)]
  · split <;> simp [val]
  · intro p hp h1
    obtain ⟨k', hk', hp⟩ := List.mem_flatMap.mp hp
    have := (laneP_fld p hp).1
    rw [h1] at this
    cases c <;> simp_all [Fld.lane, Fld.eops]
  · intro p hp h1
    split at hp
    · have := sopP_fld p hp
      rw [h1] at this
      cases c <;> simp_all [Fld.sops, Fld.eops]
    · cases hp
  · intro p hp h1
    split at hp
    · simp at hp; subst hp; subst h1; simp [Fld.eops] at hc
    · cases hp

theorem val_end {b : Bus} {c : Fld} (hc : c.eops = true) (i : Nat) : ∀ (ps : List (Option (UsFrame × Nat))) (seg sc ec : Nat),
    val (beatP b seg sc ec ps) c i = if i < ec then 0 else match (ends b.lanes seg ps)[i - ec]? with | some l => val (eopP b i l) c i | none => 0
  | [], seg, sc, ec => by simp [beatP, val, ends]
  | none :: ps, seg, sc, ec => by rw [beatP, val_end hc i ps, ends]
  | some (f, off) :: ps, seg, sc, ec => by
    rw [beatP, val_append, val_seg_eop hc, val_end hc i ps, ends]
    by_cases h0 : f.data.length ≤ off + b.lanes
    · simp only [h0, if_true]
      rcases Nat.lt_trichotomy i ec with h | h | h
      · rw [if_pos (by omega), if_pos h, val_zero]; rfl
        intro p hp h1
        rw [(eopP_fld p hp).2]; omega
      · subst h
        rw [if_pos (by omega), if_neg (by omega), Nat.sub_self]
        simp
      · rw [if_neg (by omega), if_neg (by omega), val_zero (l := eopP _ _ _), Nat.zero_or]
        · rw [show i - ec = (i - (ec + 1)) + 1 by omega, List.getElem?_cons_succ]
        · intro p hp h1
          rw [(eopP_fld p hp).2]; omega
    · simp [h0]

theorem ends_length (lanes : Nat) : ∀ (ps : List (Option (UsFrame × Nat))) (seg : Nat), (ends lanes seg ps).length ≤ ps.length
  | [], _ => by simp [ends]
  | none :: ps, seg => by have := ends_length lanes ps (seg + 1); simp [ends]; omega
  | some (g, off) :: ps, seg => by
    have := ends_length lanes ps (seg + 1)
    rw [ends]; split <;> simp <;> omega

theorem ends_mem (lanes : Nat) : ∀ (ps : List (Option (UsFrame × Nat))) (seg l : Nat), l ∈ ends lanes seg ps ↔
    ∃ r f off, ps[r]? = some (some (f, off)) ∧ f.data.length ≤ off + lanes ∧ l = f.data.length - off - 1 + (seg + r) * lanes
  | [], seg, l => by simp [ends]
  | none :: ps, seg, l => by
    rw [ends, ends_mem lanes ps]
    constructor
    · rintro ⟨r, f, off, h1, h2, h3⟩
      exact ⟨r + 1, f, off, by simpa using h1, h2, by rw [h3]; congr 2; omega⟩
    · rintro ⟨r, f, off, h1, h2, h3⟩
      cases r with
      | zero => simp at h1
      | succ r => exact ⟨r, f, off, by simpa using h1, h2, by rw [h3]; congr 2; omega⟩
  | some (g, o) :: ps, seg, l => by
    have ih := ends_mem lanes ps (seg + 1) l
    have e : l ∈ ends lanes seg (some (g, o) :: ps) ↔ (g.data.length ≤ o + lanes ∧ l = g.data.length - o - 1 + seg * lanes) ∨ l ∈ ends lanes (seg + 1) ps := by
      rw [ends]
      split
      · rename_i h0; simp [h0]
      · rename_i h0; simp [h0]
    rw [e, ih]
    constructor
    · rintro (⟨h1, h2⟩ | ⟨r, f, off, h1, h2, h3⟩)
      · exact ⟨0, g, o, rfl, h1, h2⟩
      · exact ⟨r + 1, f, off, by simpa using h1, h2, by rw [h3]; congr 2; omega⟩
    · rintro ⟨r, f, off, h1, h2, h3⟩
      cases r with
      | zero =>
        simp only [List.getElem?_cons_zero, Option.some.injEq, Prod.mk.injEq] at h1
        obtain ⟨rfl, rfl⟩ := h1
        exact .inl ⟨h2, h3⟩
      | succ r => exact .inr ⟨r, f, off, by simpa using h1, h2, by rw [h3]; congr 2; omega⟩

/-! ### `discontinue` -/

/-- Some frame of the transaction is discontinued. -/
def anyDisc (ps : List (Option (UsFrame × Nat))) : Bool := ps.any fun | some (f, _) => f.discontinue | none => false

theorem val_disc {b : Bus} : ∀ (ps : List (Option (UsFrame × Nat))) (seg sc ec : Nat), val (beatP b seg sc ec ps) .disc 0 = if anyDisc ps then 1 else 0
  | [], _, _, _ => rfl
  | none :: ps, seg, sc, ec => by rw [beatP, val_disc ps]; simp [anyDisc]
  | some (f, off) :: ps, seg, sc, ec => by
    rw [beatP, val_append, val_disc ps, segP, val_append, val_append, val_append]
    rw [val_zero (l := if f.data.length ≤ _ then _ else _), val_zero (l := if off = 0 then _ else _), val_zero (l := List.flatMap _ _)]
    · by_cases hd : f.discontinue = true
      · have e : anyDisc (some (f, off) :: ps) = true := by simp [anyDisc, hd]
        rw [e]
        simp only [hd, if_true, val]
        by_cases h2 : anyDisc ps = true <;> simp [h2]
      · simp [hd, val, anyDisc]
    · intro p hp h1
      obtain ⟨k', hk', hp⟩ := List.mem_flatMap.mp hp
      have := (laneP_fld p hp).1
      rw [h1] at this
      simp [Fld.lane] at this
    · intro p hp h1
      split at hp
      · have := sopP_fld p hp
        rw [h1] at this
        simp [Fld.sops] at this
      · cases hp
    · intro p hp h1
      split at hp
      · have := (eopP_fld p hp).1
        rw [h1] at this
        simp [Fld.eops] at this
      · cases hp

end Us
end Pcie
