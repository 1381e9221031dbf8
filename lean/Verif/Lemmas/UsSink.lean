import Verif.Lemmas.UsValues
/-
What the UltraScale sink makes of a transaction.
-/
namespace Pcie
namespace Us
open Spec

theorem bit_ne (x i : Nat) : (x &&& 1 <<< i ≠ 0) ↔ x.testBit i = true := by
  rw [ne_eq, bit_field, field, Nat.mul_one, Nat.testBit, Nat.and_comm]
  simp

/-- The fields of the transaction are those of the slots. -/
def Reads (b : Bus) (t : Txn) (ps : List (Option (UsFrame × Nat))) : Prop := ∀ c i, i < b.num c → rd b t c i = val (beatP b 0 0 0 ps) c i

/-- What the sink finds out about the segments and lanes. -/
def MaskOk (b : Bus) (ps : List (Option (UsFrame × Nat))) (m : Masks) : Prop := ∀ r,
  (ps[r]? = some none → m.segValid.testBit r = false) ∧
  ∀ f off, ps[r]? = some (some (f, off)) → m.segValid.testBit r = true ∧ m.segSop.testBit r = decide (off = 0) ∧
    m.segEop.testBit r = decide (f.data.length ≤ off + b.lanes) ∧ ∀ k, k < b.lanes → m.laneValid.testBit (k + r * b.lanes) = decide (off + k < f.data.length)

/-! ### The loop over the lanes -/

/-- One step. -/
def ws (b : Bus) (sop eop : Nat) (s : Bool × Masks) (k : Nat) : Bool × Masks :=
  let seg := 1 <<< (k / b.lanes)
  let r := if sop &&& 1 <<< k ≠ 0 then (true, { s.2 with segSop := s.2.segSop ||| seg }) else s
  let m := if r.1 then { r.2 with laneValid := r.2.laneValid ||| 1 <<< k, segValid := r.2.segValid ||| seg } else r.2
  if eop &&& 1 <<< k ≠ 0 then (false, { m with segEop := m.segEop ||| seg }) else (r.1, m)

theorem walk_eq (b : Bus) (sop eop : Nat) : ∀ (ks : List Nat) (st : Bool) (m : Masks), walk b sop eop ks st m = (ks.foldl (ws b sop eop) (st, m)).2
  | [], _, _ => rfl
  | k :: ks, st, m => by
    rw [List.foldl_cons, walk]
    simp only
    by_cases h : eop &&& 1 <<< k ≠ 0
    · rw [if_pos h, walk_eq b sop eop ks]
      congr 2
      unfold ws
      rw [if_pos h]
    · rw [if_neg h, walk_eq b sop eop ks]
      congr 2
      unfold ws
      rw [if_neg h]

theorem shift_bit (i x : Nat) : (1 <<< i).testBit x = decide (x = i) := by
  rw [Nat.one_shiftLeft, Nat.testBit_two_pow]
  simp [eq_comm]

theorem ws_bits (b : Bus) (sop eop : Nat) (s : Bool × Masks) (k : Nat) :
    (ws b sop eop s k).1 = ((sop.testBit k || s.1) && !eop.testBit k) ∧
    (∀ x, (ws b sop eop s k).2.laneValid.testBit x = (s.2.laneValid.testBit x || (decide (x = k) && (sop.testBit k || s.1)))) ∧
    (∀ x, (ws b sop eop s k).2.segValid.testBit x = (s.2.segValid.testBit x || (decide (x = k / b.lanes) && (sop.testBit k || s.1)))) ∧
    (∀ x, (ws b sop eop s k).2.segSop.testBit x = (s.2.segSop.testBit x || (decide (x = k / b.lanes) && sop.testBit k))) ∧
    (∀ x, (ws b sop eop s k).2.segEop.testBit x = (s.2.segEop.testBit x || (decide (x = k / b.lanes) && eop.testBit k))) := by
  obtain ⟨st, m⟩ := s
  have e1 := bit_ne sop k
  have e2 := bit_ne eop k
  unfold ws
  simp only
  by_cases h1 : sop.testBit k = true <;> by_cases h2 : eop.testBit k = true <;> cases st <;>
    simp only [h1, h2, e1, e2, if_true, if_false, Nat.testBit_or, shift_bit] <;> simp [shift_bit, -Nat.testBit_shiftLeft]

/-- What a part of a frame at segment `j` should give, after `n` lanes. -/
structure SegOk (b : Bus) (j n : Nat) (f : UsFrame) (off : Nat) (st : Bool) (m : Masks) (s : Bool × Masks) : Prop where
  state : s.1 = if n = 0 then st else decide (off + n < f.data.length)
  lane : ∀ x, s.2.laneValid.testBit x = (m.laneValid.testBit x || decide (j * b.lanes ≤ x ∧ x < j * b.lanes + min n (f.data.length - off)))
  valid : ∀ x, s.2.segValid.testBit x = (m.segValid.testBit x || decide (x = j ∧ 0 < n))
  sop : ∀ x, s.2.segSop.testBit x = (m.segSop.testBit x || decide (x = j ∧ 0 < n ∧ off = 0))
  eop : ∀ x, s.2.segEop.testBit x = (m.segEop.testBit x || decide (x = j ∧ f.data.length ≤ off + n))

theorem walk_some {b : Bus} {sop eop j : Nat} {f : UsFrame} {off : Nat} {st : Bool} {m : Masks} (ho : off < f.data.length) (hst : off = 0 ∨ st = true)
    (hsop : ∀ k, k < b.lanes → sop.testBit (k + j * b.lanes) = decide (k = 0 ∧ off = 0))
    (heop : ∀ k, k < b.lanes → eop.testBit (k + j * b.lanes) = decide (k + 1 = f.data.length - off)) :
    ∀ n, n ≤ b.lanes → SegOk b j n f off st m ((List.range' (j * b.lanes) n).foldl (ws b sop eop) (st, m))
  | 0, _ => by
    constructor
    · rfl
    · intro x
      have : ¬ (j * b.lanes ≤ x ∧ x < j * b.lanes + min 0 (f.data.length - off)) := by omega
      simp [this]
    · intro x; simp
    · intro x; simp
    · intro x
      have : ¬ f.data.length ≤ off := by omega
      simp [this]
  | n + 1, hn => by
    obtain ⟨i1, i2, i3, i4, i5⟩ := walk_some (m := m) ho hst hsop heop n (by omega)
    have e : List.range' (j * b.lanes) (n + 1) = List.range' (j * b.lanes) n ++ [n + j * b.lanes] := by
      rw [List.range'_concat]; congr 2; omega
    rw [e, List.foldl_append, List.foldl_cons, List.foldl_nil]
    generalize (List.range' (j * b.lanes) n).foldl (ws b sop eop) (st, m) = s at *
    obtain ⟨w1, w2, w3, w4, w5⟩ := ws_bits b sop eop s (n + j * b.lanes)
    have hd : (n + j * b.lanes) / b.lanes = j := by
      rw [Nat.add_mul_div_right _ _ (by omega), Nat.div_eq_of_lt (by omega), Nat.zero_add]
    have hs := hsop n (by omega)
    have he := heop n (by omega)
    rw [hd] at w3 w4 w5
    rw [hs] at w1 w2 w3 w4
    rw [he] at w1 w5
    have hact : (decide (n = 0 ∧ off = 0) || s.1) = decide (off + n < f.data.length) := by
      rw [i1]
      by_cases h0 : n = 0
      · subst h0
        rcases hst with h | h
        · simp [h]; omega
        · simp [h, ho]
      · simp [h0]
    rw [hact] at w1 w2 w3
    constructor
    · rw [w1, if_neg (by omega), ← decide_not, ← Bool.decide_and]
      apply decide_eq_decide.mpr; omega
    · intro x
      rw [w2, i2, Bool.or_assoc]
      congr 1
      rw [← Bool.decide_and, ← Bool.decide_or]
      apply decide_eq_decide.mpr; omega
    · intro x
      rw [w3, i3, Bool.or_assoc]
      congr 1
      rw [← Bool.decide_and, ← Bool.decide_or]
      apply decide_eq_decide.mpr
      constructor
      · omega
      · rintro ⟨rfl, _⟩
        by_cases h0 : 0 < n
        · exact .inl ⟨rfl, h0⟩
        · exact .inr ⟨rfl, by omega⟩
    · intro x
      rw [w4, i4, Bool.or_assoc]
      congr 1
      rw [← Bool.decide_and, ← Bool.decide_or]
      apply decide_eq_decide.mpr; omega
    · intro x
      rw [w5, i5, Bool.or_assoc]
      congr 1
      rw [← Bool.decide_and, ← Bool.decide_or]
      apply decide_eq_decide.mpr; omega

theorem walk_none {b : Bus} {sop eop j : Nat} {m : Masks} (hsop : ∀ k, k < b.lanes → sop.testBit (k + j * b.lanes) = false)
    (heop : ∀ k, k < b.lanes → eop.testBit (k + j * b.lanes) = false) : ∀ n, n ≤ b.lanes →
    (List.range' (j * b.lanes) n).foldl (ws b sop eop) (false, m) = (false, m)
  | 0, _ => rfl
  | n + 1, hn => by
    have e : List.range' (j * b.lanes) (n + 1) = List.range' (j * b.lanes) n ++ [n + j * b.lanes] := by
      rw [List.range'_concat]; congr 2; omega
    rw [e, List.foldl_append, List.foldl_cons, List.foldl_nil, walk_none hsop heop n (by omega)]
    have e1 := bit_ne sop (n + j * b.lanes)
    have e2 := bit_ne eop (n + j * b.lanes)
    rw [hsop n (by omega)] at e1
    rw [heop n (by omega)] at e2
    unfold ws
    simp only [e1, e2, Bool.false_eq_true, if_false]

/-- The state of the loop fits the slots. -/
def WalkOk (lanes : Nat) : Bool → List (Option (UsFrame × Nat)) → Prop
  | _, [] => True
  | st, none :: r => st = false ∧ WalkOk lanes false r
  | st, some (f, off) :: r => (off = 0 ∨ st = true) ∧ WalkOk lanes (decide (off + lanes < f.data.length)) r

/-- The marks in the transaction are those of the slots. -/
def MarksOk (b : Bus) (j sop eop : Nat) (ps : List (Option (UsFrame × Nat))) : Prop := ∀ r k, r < ps.length → k < b.lanes →
  (sop.testBit (k + (j + r) * b.lanes) = true ↔ k = 0 ∧ ∃ f, ps[r]? = some (some (f, 0))) ∧
  (eop.testBit (k + (j + r) * b.lanes) = true ↔ ∃ f off, ps[r]? = some (some (f, off)) ∧ k + 1 = f.data.length - off)

theorem MarksOk.tail {b : Bus} {j sop eop : Nat} {p} {ps : List (Option (UsFrame × Nat))} (h : MarksOk b j sop eop (p :: ps)) : MarksOk b (j + 1) sop eop ps := by
  intro r k hr hk
  have := h (r + 1) k (by simpa using hr) hk
  rw [show j + (r + 1) = j + 1 + r by omega] at this
  simpa using this

/-- Bits below segment `j` are kept. -/
structure Keep (b : Bus) (j : Nat) (m m' : Masks) : Prop where
  lane : ∀ x, x < j * b.lanes → m'.laneValid.testBit x = m.laneValid.testBit x
  valid : ∀ x, x < j → m'.segValid.testBit x = m.segValid.testBit x
  sop : ∀ x, x < j → m'.segSop.testBit x = m.segSop.testBit x
  eop : ∀ x, x < j → m'.segEop.testBit x = m.segEop.testBit x

/-- No bits from segment `j` on. -/
structure Zero (b : Bus) (j : Nat) (m : Masks) : Prop where
  lane : ∀ x, j * b.lanes ≤ x → m.laneValid.testBit x = false
  valid : ∀ x, j ≤ x → m.segValid.testBit x = false
  sop : ∀ x, j ≤ x → m.segSop.testBit x = false
  eop : ∀ x, j ≤ x → m.segEop.testBit x = false

/-- `MaskOk` from segment `j` on. -/
def MaskFrom (b : Bus) (j : Nat) (ps : List (Option (UsFrame × Nat))) (m : Masks) : Prop := ∀ r,
  (ps[r]? = some none → m.segValid.testBit (j + r) = false) ∧
  ∀ f off, ps[r]? = some (some (f, off)) → m.segValid.testBit (j + r) = true ∧ m.segSop.testBit (j + r) = decide (off = 0) ∧
    m.segEop.testBit (j + r) = decide (f.data.length ≤ off + b.lanes) ∧ ∀ k, k < b.lanes → m.laneValid.testBit (k + (j + r) * b.lanes) = decide (off + k < f.data.length)

theorem walk_beat {b : Bus} (hl : 1 ≤ b.lanes) {sop eop : Nat} : ∀ (ps : List (Option (UsFrame × Nat))) (j : Nat) (st : Bool) (m : Masks), SlotsOk b ps → WalkOk b.lanes st ps →
    MarksOk b j sop eop ps → Zero b j m → ∃ st' m', (List.range' (j * b.lanes) (ps.length * b.lanes)).foldl (ws b sop eop) (st, m) = (st', m') ∧
      Keep b j m m' ∧ MaskFrom b j ps m'
  | [], j, st, m, _, _, _, _ => ⟨st, m, by simp, ⟨fun _ _ => rfl, fun _ _ => rfl, fun _ _ => rfl, fun _ _ => rfl⟩, fun r => ⟨by simp, by simp⟩⟩
  | none :: ps, j, st, m, hok, hw, hm, hz => by
    obtain ⟨rfl, hw⟩ := hw
    have hsplit : List.range' (j * b.lanes) ((none :: ps).length * b.lanes) = List.range' (j * b.lanes) b.lanes ++ List.range' ((j + 1) * b.lanes) (ps.length * b.lanes) := by
      rw [List.length_cons, Nat.add_mul, Nat.one_mul, Nat.add_comm, Nat.add_mul, Nat.one_mul, List.range'_append_1]
    have h0 := walk_none (b := b) (sop := sop) (eop := eop) (j := j) (m := m) (fun k hk => by
        have := (hm 0 k (by simp) hk).1; rw [Nat.add_zero] at this; simpa using this) (fun k hk => by
        have := (hm 0 k (by simp) hk).2; rw [Nat.add_zero] at this; simpa using this) b.lanes (Nat.le_refl _)
    obtain ⟨st', m', g1, g2, g3⟩ := walk_beat hl ps (j + 1) false m hok.tail hw hm.tail
      ⟨fun x hx => hz.lane x (by rw [Nat.add_mul] at hx; omega), fun x hx => hz.valid x (by omega), fun x hx => hz.sop x (by omega), fun x hx => hz.eop x (by omega)⟩
    refine ⟨st', m', ?_, ⟨fun x hx => g2.lane x (by rw [Nat.add_mul]; omega), fun x hx => g2.valid x (by omega), fun x hx => g2.sop x (by omega), fun x hx => g2.eop x (by omega)⟩, ?_⟩
    · rw [hsplit, List.foldl_append, h0, g1]
    · intro r
      cases r with
      | zero =>
        refine ⟨fun _ => ?_, by simp⟩
        rw [Nat.add_zero, g2.valid j (by omega)]; exact hz.valid j (Nat.le_refl _)
      | succ r =>
        have := g3 r
        rw [show j + (r + 1) = j + 1 + r by omega]
        simpa using this
  | some (f, off) :: ps, j, st, m, hok, hw, hm, hz => by
    obtain ⟨hst, hw⟩ := hw
    have ho := (hok f off (by simp)).2
    have hsplit : List.range' (j * b.lanes) ((some (f, off) :: ps).length * b.lanes) = List.range' (j * b.lanes) b.lanes ++ List.range' ((j + 1) * b.lanes) (ps.length * b.lanes) := by
      rw [List.length_cons, Nat.add_mul, Nat.one_mul, Nat.add_comm, Nat.add_mul, Nat.one_mul, List.range'_append_1]
    have h0 := walk_some (b := b) (sop := sop) (eop := eop) (j := j) (m := m) (st := st) ho hst (fun k hk => by
        have := (hm 0 k (by simp) hk).1; rw [Nat.add_zero] at this
        rw [Bool.eq_iff_iff, this]; simp) (fun k hk => by
        have := (hm 0 k (by simp) hk).2; rw [Nat.add_zero] at this
        rw [Bool.eq_iff_iff, this]; simp) b.lanes (Nat.le_refl _)
    generalize hs1 : (List.range' (j * b.lanes) b.lanes).foldl (ws b sop eop) (st, m) = s1 at h0
    obtain ⟨st1, m1⟩ := s1
    obtain ⟨i1, i2, i3, i4, i5⟩ := h0
    simp only at i1 i2 i3 i4 i5
    rw [if_neg (by omega)] at i1
    subst i1
    obtain ⟨st', m', g1, g2, g3⟩ := walk_beat hl ps (j + 1) (decide (off + b.lanes < f.data.length)) m1 hok.tail hw hm.tail
      ⟨fun x hx => by
        rw [Nat.add_mul] at hx
        rw [i2, hz.lane x (by omega)]
        have : ¬ (j * b.lanes ≤ x ∧ x < j * b.lanes + min b.lanes (f.data.length - off)) := by omega
        simp [this],
       fun x hx => by rw [i3, hz.valid x (by omega)]; have : ¬ x = j := by omega
                      simp [this],
       fun x hx => by rw [i4, hz.sop x (by omega)]; have : ¬ x = j := by omega
                      simp [this],
       fun x hx => by rw [i5, hz.eop x (by omega)]; have : ¬ x = j := by omega
                      simp [this]⟩
    refine ⟨st', m', ?_, ⟨fun x hx => ?_, fun x hx => ?_, fun x hx => ?_, fun x hx => ?_⟩, ?_⟩
    · rw [hsplit, List.foldl_append, hs1, g1]
    · rw [g2.lane x (by rw [Nat.add_mul]; omega), i2]
      have : ¬ (j * b.lanes ≤ x ∧ x < j * b.lanes + min b.lanes (f.data.length - off)) := by omega
      simp [this]
    · rw [g2.valid x (by omega), i3]; have : ¬ x = j := by omega
      simp [this]
    · rw [g2.sop x (by omega), i4]; have : ¬ x = j := by omega
      simp [this]
    · rw [g2.eop x (by omega), i5]; have : ¬ x = j := by omega
      simp [this]
    · intro r
      cases r with
      | zero =>
        refine ⟨by simp, fun f' off' h => ?_⟩
        simp only [List.getElem?_cons_zero, Option.some.injEq, Prod.mk.injEq] at h
        obtain ⟨rfl, rfl⟩ := h
        rw [Nat.add_zero]
        refine ⟨?_, ?_, ?_, fun k hk => ?_⟩
        · rw [g2.valid j (by omega), i3]; simp; omega
        · rw [g2.sop j (by omega), i4, hz.sop j (Nat.le_refl _), Bool.false_or]
          apply decide_eq_decide.mpr; omega
        · rw [g2.eop j (by omega), i5, hz.eop j (Nat.le_refl _), Bool.false_or]
          apply decide_eq_decide.mpr; omega
        · rw [g2.lane _ (by rw [Nat.add_mul]; omega), i2, hz.lane _ (by omega), Bool.false_or]
          apply decide_eq_decide.mpr; omega
      | succ r =>
        have := g3 r
        rw [show j + (r + 1) = j + 1 + r by omega]
        simpa using this

theorem walk_masks {b : Bus} (h : UsBus b) {ps : List (Option (UsFrame × Nat))} (hlen : ps.length = b.segs) {sop eop : Nat} (hok : SlotsOk b ps)
    (hw : WalkOk b.lanes true ps) (hm : MarksOk b 0 sop eop ps) : MaskOk b ps (walk b sop eop (List.range b.byteLanes) true ⟨0, 0, 0, 0⟩) := by
  obtain ⟨h1, h2, h3⟩ := table_lanes h
  obtain ⟨st', m', g1, _, g3⟩ := walk_beat h2 ps 0 true ⟨0, 0, 0, 0⟩ hok hw hm ⟨by simp, by simp, by simp, by simp⟩
  rw [walk_eq, List.range_eq_range', ← h3, Nat.mul_comm, ← hlen]
  rw [Nat.zero_mul] at g1
  rw [g1]
  intro r
  have := g3 r
  rw [Nat.zero_add] at this
  exact this

end Us
end Pcie
