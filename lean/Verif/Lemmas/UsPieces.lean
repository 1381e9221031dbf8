import Verif.Lemmas.S10Stream
import Verif.Spec.Stream
/-
The fields of an UltraScale transaction: where they are, and that they do not overlap.
-/
namespace Pcie
namespace Us
open Spec
open S10 (item signal)

/-- The kinds of fields. -/
inductive Fld
  | data | keep | first | last | seq | seqHi | sop | sopPtr | eop | eopPtr | eopN | disc | be | par
deriving DecidableEq

def Fld.all : List Fld := [.data, .keep, .first, .last, .seq, .seqHi, .sop, .sopPtr, .eop, .eopPtr, .eopN, .disc, .be, .par]

theorem Fld.mem_all (c : Fld) : c ∈ Fld.all := by cases c <;> decide

/-- Which signal. -/
def Fld.word : Fld → Fin 3
  | .data => 0
  | .keep => 1
  | _ => 2

/-- Offset of the first, width, number. -/
def loc (b : Bus) : Fld → Nat × Nat × Nat
  | .data => (0, 32, b.byteLanes)
  | .keep => (0, 1, b.byteLanes)
  | .first => match b.kind with
    | .rq | .cq => (0, 4, if b.width = 512 then 2 else 1)
    | _ => (0, 4, 0)
  | .last => match b.kind with
    | .rq | .cq => if b.width = 512 then (8, 4, 2) else (4, 4, 1)
    | _ => (0, 4, 0)
  | .seq => match b.kind with
    | .rq => if b.width = 512 then (61, 6, 2) else (24, 4, 1)
    | _ => (0, 4, 0)
  | .seqHi => if b.kind = .rq ∧ b.width ≠ 512 ∧ b.tuser = 62 then (60, 2, 1) else (0, 2, 0)
  | .sop => if b.width = 512 then (b.sop, 1, if b.kind = .rc then 4 else 2) else
    match b.kind with
    | .rc => (32, 1, 2)
    | .cq => (40, 1, 1)
    | _ => (0, 1, 0)
  | .sopPtr => if b.width = 512 then (b.sopPtr, 2, if b.kind = .rc then 4 else 2) else (0, 2, 0)
  | .eop => if b.width = 512 then (b.eop, 1, if b.kind = .rc then 4 else 2) else (0, 1, 0)
  | .eopPtr => if b.width = 512 then (b.eopPtr, 4, if b.kind = .rc then 4 else 2) else (0, 4, 0)
  | .eopN => if b.width = 512 then (0, 4, 0) else if b.kind = .rc then (34, 4, 2) else (0, 4, 0)
  | .disc => (b.disc, 1, 1)
  | .be => match b.ben with
    | some o => (o, 4, b.byteLanes)
    | none => (0, 4, 0)
  | .par => (b.par, 4, b.byteLanes)

abbrev Bus.base (b : Bus) (c : Fld) : Nat := (loc b c).1
abbrev Bus.wid (b : Bus) (c : Fld) : Nat := (loc b c).2.1
abbrev Bus.num (b : Bus) (c : Fld) : Nat := (loc b c).2.2

/-- The width of the signal. -/
def Bus.size (b : Bus) : Fin 3 → Nat
  | 0 => b.width
  | 1 => b.byteLanes
  | 2 => b.tuser

def sep (b : Bus) (c c' : Fld) : Bool :=
  c = c' || c.word ≠ c'.word || b.num c = 0 || b.num c' = 0 || b.base c + b.num c * b.wid c ≤ b.base c' || b.base c' + b.num c' * b.wid c' ≤ b.base c

def table (b : Bus) : Bool :=
  (Fld.all.all fun c => Fld.all.all fun c' => sep b c c') && (Fld.all.all fun c => b.num c = 0 || b.base c + b.num c * b.wid c ≤ b.size c.word) &&
  decide (1 ≤ b.segs) && decide (1 ≤ b.lanes) && decide (b.lanes * b.segs = b.byteLanes)

/-- All the buses. -/
theorem bus_cases {b : Bus} (h : UsBus b) {P : Bus → Prop}
    (hrq : ∀ w ∈ [64, 128, 256], ∀ u ∈ [60, 62], P ⟨.rq, w, u, 1⟩) (hrq5 : ∀ s ∈ [1, 2], P ⟨.rq, 512, 137, s⟩)
    (hrc : ∀ w ∈ [64, 128, 256], P ⟨.rc, w, 75, 1⟩) (hrc2 : P ⟨.rc, 256, 75, 2⟩) (hrc5 : ∀ s ∈ [1, 2, 4], P ⟨.rc, 512, 161, s⟩)
    (hcq : ∀ w ∈ [64, 128, 256], ∀ u ∈ [85, 88], P ⟨.cq, w, u, 1⟩) (hcq5 : ∀ s ∈ [1, 2], P ⟨.cq, 512, 183, s⟩)
    (hcc : ∀ w ∈ [64, 128, 256], P ⟨.cc, w, 33, 1⟩) (hcc5 : ∀ s ∈ [1, 2], P ⟨.cc, 512, 81, s⟩) : P b := by
  obtain ⟨k, w, u, s⟩ := b
  obtain ⟨⟨hw, ha⟩, hn⟩ := h
  simp only at hw ha hn
  cases k with
  | rq =>
    simp only at ha
    split at ha
    · rename_i e; subst e; rcases ha with ⟨rfl, rfl | rfl⟩ <;> apply hrq5 <;> simp
    · rcases ha with ⟨rfl | rfl, rfl⟩ <;> rcases hw with rfl | rfl | rfl | rfl <;> first | contradiction | (apply hrq <;> simp)
  | rc =>
    simp only at ha
    split at ha
    · rename_i e; subst e; rcases ha with ⟨rfl, rfl | rfl | rfl⟩ <;> apply hrc5 <;> simp
    · rcases ha with ⟨rfl, rfl | rfl⟩ <;> rcases hw with rfl | rfl | rfl | rfl <;> first | contradiction | (apply hrc <;> simp) | exact hrc2 | (simp at hn)
  | cq =>
    simp only at ha
    split at ha
    · rename_i e; subst e; rcases ha with ⟨rfl, rfl | rfl⟩ <;> apply hcq5 <;> simp
    · rcases ha with ⟨rfl | rfl, rfl⟩ <;> rcases hw with rfl | rfl | rfl | rfl <;> first | contradiction | (apply hcq <;> simp)
  | cc =>
    simp only at ha
    split at ha
    · rename_i e; subst e; rcases ha with ⟨rfl, rfl | rfl⟩ <;> apply hcc5 <;> simp
    · rcases ha with ⟨rfl, rfl⟩ <;> rcases hw with rfl | rfl | rfl | rfl <;> first | contradiction | (apply hcc <;> simp)

theorem table_ok {b : Bus} (h : UsBus b) : table b = true := by
  refine bus_cases (P := fun b => table b = true) h ?_ ?_ ?_ ?_ ?_ ?_ ?_ ?_ ?_ <;> decide +kernel

/-- A value for a field. -/
abbrev Piece := Fld × Nat × Nat

def get (t : Txn) : Fin 3 → Nat
  | 0 => t.tdata
  | 1 => t.tkeep
  | 2 => t.tuser

def put (b : Bus) (t : Txn) (p : Piece) : Txn :=
  match p.1.word with
  | 0 => { t with tdata := t.tdata ||| p.2.2 <<< (b.base p.1 + p.2.1 * b.wid p.1) }
  | 1 => { t with tkeep := t.tkeep ||| p.2.2 <<< (b.base p.1 + p.2.1 * b.wid p.1) }
  | 2 => { t with tuser := t.tuser ||| p.2.2 <<< (b.base p.1 + p.2.1 * b.wid p.1) }

theorem get_put (b : Bus) (t : Txn) (p : Piece) (w : Fin 3) :
    get (put b t p) w = get t w ||| (if w = p.1.word then p.2.2 <<< (b.base p.1 + p.2.1 * b.wid p.1) else 0) := by
  unfold put
  generalize p.1.word = v
  match v, w with
  | 0, 0 | 0, 1 | 0, 2 | 1, 0 | 1, 1 | 1, 2 | 2, 0 | 2, 1 | 2, 2 => simp [get]

theorem put_tlast (b : Bus) (t : Txn) (p : Piece) : (put b t p).tlast = t.tlast := by
  unfold put; split <;> rfl

theorem puts_tlast (b : Bus) : ∀ (l : List Piece) (t : Txn), (l.foldl (put b) t).tlast = t.tlast
  | [], _ => rfl
  | p :: l, t => by rw [List.foldl_cons, puts_tlast b l, put_tlast]

/-- Reading a field. -/
def rd (b : Bus) (t : Txn) (c : Fld) (i : Nat) : Nat := (get t c.word >>> (b.base c + i * b.wid c)) &&& (2 ^ b.wid c - 1)

/-- The piece fits its field. -/
def Fit (b : Bus) (p : Piece) : Prop := p.2.1 < b.num p.1 ∧ p.2.2 < 2 ^ b.wid p.1

/-- What a list of pieces puts in a field. -/
def val : List Piece → Fld → Nat → Nat
  | [], _, _ => 0
  | p :: r, c, i => (if p.1 = c ∧ p.2.1 = i then p.2.2 else 0) ||| val r c i

theorem val_append (c : Fld) (i : Nat) : ∀ l r : List Piece, val (l ++ r) c i = val l c i ||| val r c i
  | [], r => by simp [val]
  | p :: l, r => by simp [val, val_append c i l r, Nat.or_assoc]

theorem rd_testBit (b : Bus) (t : Txn) (c : Fld) (i j : Nat) :
    (rd b t c i).testBit j = (decide (j < b.wid c) && (get t c.word).testBit (b.base c + i * b.wid c + j)) := by
  rw [rd, Nat.and_two_pow_sub_one_eq_mod, Nat.testBit_mod_two_pow, Nat.testBit_shiftRight]

theorem rd_put {b : Bus} (hb : table b = true) {t : Txn} {p : Piece} (hp : Fit b p) {c : Fld} {i : Nat} (hi : i < b.num c) :
    rd b (put b t p) c i = rd b t c i ||| (if p.1 = c ∧ p.2.1 = i then p.2.2 else 0) := by
  obtain ⟨c', i', x⟩ := p
  obtain ⟨h1, h2⟩ := hp
  simp only at h1 h2 ⊢
  simp only [table, Bool.and_eq_true, List.all_eq_true] at hb
  have hs := hb.1.1.1.1 c (Fld.mem_all c) c' (Fld.mem_all c')
  apply Nat.eq_of_testBit_eq; intro j
  rw [Nat.testBit_or, rd_testBit, rd_testBit, get_put, Nat.testBit_or]
  by_cases hj : j < b.wid c
  · simp only [hj, decide_true, Bool.true_and]
    congr 1
    by_cases hw : c.word = c'.word
    · simp only [hw, if_true]
      rw [Nat.testBit_shiftLeft]
      by_cases hc : c = c'
      · subst hc
        by_cases hii : i' = i
        · subst hii; simp
        · simp only [hii, and_false, if_false, Nat.zero_testBit]
          by_cases hge : b.base c + i * b.wid c + j ≥ b.base c + i' * b.wid c
          · simp only [hge, decide_true, Bool.true_and]
            apply Nat.testBit_lt_two_pow
            refine Nat.lt_of_lt_of_le h2 (Nat.pow_le_pow_right (by omega) ?_)
            have hlt : i' < i := by
              rcases Nat.lt_trichotomy i' i with h | h | h
              · exact h
              · exact absurd h hii
              · exfalso
                have := Nat.mul_le_mul_right (b.wid c) (by omega : i + 1 ≤ i')
                rw [Nat.add_mul] at this; omega
            have := Nat.mul_le_mul_right (b.wid c) (by omega : i' + 1 ≤ i)
            rw [Nat.add_mul] at this; omega
          · simp [hge]
      · have hc' : ¬ (c' = c ∧ i' = i) := fun h => hc h.1.symm
        simp only [if_neg hc', Nat.zero_testBit]
        simp only [sep, hc, hw, Bool.or_eq_true, decide_eq_true_eq, ne_eq, not_true, decide_false, Bool.false_or] at hs
        have e1 := Nat.mul_le_mul_right (b.wid c) (by omega : i + 1 ≤ b.num c)
        have e2 := Nat.mul_le_mul_right (b.wid c') (by omega : i' + 1 ≤ b.num c')
        rw [Nat.add_mul, Nat.one_mul] at e1 e2
        have hs' : b.base c + b.num c * b.wid c ≤ b.base c' ∨ b.base c' + b.num c' * b.wid c' ≤ b.base c := by
          rcases hs with ((hs | hs) | hs) | hs
          · omega
          · omega
          · exact .inl hs
          · exact .inr hs
        rcases hs' with hs | hs
        · simp only [Bool.and_eq_false_iff]
          left; simp only [decide_eq_false_iff_not]; omega
        · simp only [Bool.and_eq_false_iff]
          right
          apply Nat.testBit_lt_two_pow
          exact Nat.lt_of_lt_of_le h2 (Nat.pow_le_pow_right (by omega) (by omega))
    · have hc : ¬ (c' = c ∧ i' = i) := fun h => hw (by rw [h.1])
      simp [hw, hc]
  · by_cases hc : c' = c ∧ i' = i
    · obtain ⟨rfl, rfl⟩ := hc
      simp only [hj, decide_false, Bool.false_and, Bool.false_or, and_self, if_true]
      exact (Nat.testBit_lt_two_pow (Nat.lt_of_lt_of_le h2 (Nat.pow_le_pow_right (by omega) (by omega)))).symm
    · simp [hj, hc]

theorem rd_puts {b : Bus} (hb : table b = true) {c : Fld} {i : Nat} (hi : i < b.num c) : ∀ (l : List Piece) (t : Txn), (∀ p ∈ l, Fit b p) →
    rd b (l.foldl (put b) t) c i = rd b t c i ||| val l c i
  | [], t, _ => by simp [val]
  | p :: l, t, h => by
    rw [List.foldl_cons, rd_puts hb hi l _ (fun q hq => h q (List.mem_cons_of_mem _ hq)), rd_put hb (h p (by simp)) hi, val, Nat.or_assoc]

theorem rd_zero (b : Bus) (c : Fld) (i : Nat) : rd b {} c i = 0 := by
  apply Nat.eq_of_testBit_eq; intro j
  have : get {} c.word = 0 := by cases c <;> rfl
  rw [rd_testBit, this]; simp

theorem puts_lt {b : Bus} (hb : table b = true) (w : Fin 3) : ∀ (l : List Piece) (t : Txn), (∀ p ∈ l, Fit b p) → get t w < 2 ^ b.size w →
    get (l.foldl (put b) t) w < 2 ^ b.size w
  | [], t, _, h => h
  | p :: l, t, h, ht => by
    rw [List.foldl_cons]
    refine puts_lt hb w l _ (fun q hq => h q (List.mem_cons_of_mem _ hq)) ?_
    rw [get_put]
    apply Nat.or_lt_two_pow ht
    split
    · rename_i e
      obtain ⟨h1, h2⟩ := h p (by simp)
      simp only [table, Bool.and_eq_true, List.all_eq_true] at hb
      have hs := hb.1.1.1.2 p.1 (Fld.mem_all _)
      simp only [Bool.or_eq_true, decide_eq_true_eq] at hs
      have e2 := Nat.mul_le_mul_right (b.wid p.1) (by omega : p.2.1 + 1 ≤ b.num p.1)
      rw [Nat.add_mul, Nat.one_mul] at e2
      rw [Nat.shiftLeft_eq, e]
      calc p.2.2 * 2 ^ (b.base p.1 + p.2.1 * b.wid p.1) < 2 ^ b.wid p.1 * 2 ^ (b.base p.1 + p.2.1 * b.wid p.1) :=
            Nat.mul_lt_mul_of_pos_right h2 (Nat.two_pow_pos _)
        _ = 2 ^ (b.wid p.1 + (b.base p.1 + p.2.1 * b.wid p.1)) := by rw [Nat.pow_add 2 (b.wid p.1)]
        _ ≤ _ := Nat.pow_le_pow_right (by omega) (by omega)
    · exact Nat.two_pow_pos _

end Us
end Pcie
