import Mathlib.Tactic.Ring
/-
Streaming interfaces in general: which part of which frame goes to which segment, and what a receiver makes of it.
-/
namespace Pcie
namespace Stream
variable {F : Type} (lanes : Nat) (len : F → Nat)

/-- The rest of a frame after a segment. -/
def next (c : F × Nat) : Option (F × Nat) := if len c.1 ≤ c.2 + lanes then none else some (c.1, c.2 + lanes)

/-- The parts on `n` segments, given the frame in progress and the queue. -/
def plan : Nat → Option (F × Nat) → List F → List (Option (F × Nat)) × Option (F × Nat) × List F
  | 0, c, q => ([], c, q)
  | n + 1, some c, q => let r := plan n (next lanes len c) q; (some c :: r.1, r.2)
  | n + 1, none, f :: q => let r := plan n (next lanes len (f, 0)) q; (some (f, 0) :: r.1, r.2)
  | n + 1, none, [] => (List.replicate (n + 1) none, none, [])

theorem plan_length : ∀ n c q, (plan lanes len n c q).1.length = n
  | 0, _, _ => rfl
  | n + 1, some c, q => by simp [plan, plan_length n]
  | n + 1, none, f :: q => by simp [plan, plan_length n]
  | n + 1, none, [] => by simp [plan]

/-- What a receiver makes of the parts. -/
inductive Recv : Option (F × Nat) → List (Option (F × Nat)) → Option (F × Nat) → List F → Prop
  | nil (a) : Recv a [] a []
  | skip {a r a' out} : Recv a r a' out → Recv a (none :: r) a' out
  | slot {f off r a' out} : Recv (next lanes len (f, off)) r a' out →
      Recv (if off = 0 then none else some (f, off)) (some (f, off) :: r) a' ((if len f ≤ off + lanes then [f] else []) ++ out)

/-- What is left to deliver. -/
def pend (c : Option (F × Nat)) (q : List F) : List F := (c.map (·.1)).toList ++ q

/-- A frame in progress is neither at its start nor at its end. -/
def Mid (c : Option (F × Nat)) : Prop := ∀ f off, c = some (f, off) → 0 < off ∧ off < len f

variable {lanes len}

theorem mid_next {c : F × Nat} (hl : 0 < lanes) : Mid len (next lanes len c) := by
  intro f off h
  unfold next at h
  split at h
  · cases h
  · rename_i hn; cases h; omega

theorem recv_none (n : Nat) (a : Option (F × Nat)) : Recv lanes len a (List.replicate n none) a [] := by
  induction n with
  | zero => exact .nil a
  | succ n ih => exact .skip ih

theorem pend_next (c : F × Nat) (q : List F) :
    (if len c.1 ≤ c.2 + lanes then [c.1] else []) ++ pend (next lanes len c) q = c.1 :: q := by
  unfold next pend
  split <;> simp

theorem recv_plan (hl : 0 < lanes) : ∀ n c (q : List F), Mid len c → ∃ out,
    Recv lanes len c (plan lanes len n c q).1 (plan lanes len n c q).2.1 out ∧
    out ++ pend (plan lanes len n c q).2.1 (plan lanes len n c q).2.2 = pend c q ∧ Mid len (plan lanes len n c q).2.1
  | 0, c, q, h => ⟨[], .nil c, rfl, h⟩
  | n + 1, some (f, off), q, h => by
    obtain ⟨out, h1, h2, h3⟩ := recv_plan hl n (next lanes len (f, off)) q (mid_next hl)
    have ho := (h f off rfl).1
    have hs := Recv.slot h1
    rw [if_neg (by omega : ¬ off = 0)] at hs
    refine ⟨_, hs, ?_, h3⟩
    show (_ ++ out) ++ pend (plan lanes len n (next lanes len (f, off)) q).2.1 (plan lanes len n (next lanes len (f, off)) q).2.2 = _
    rw [List.append_assoc, h2]
    exact pend_next (f, off) q
  | n + 1, none, f :: q, h => by
    obtain ⟨out, h1, h2, h3⟩ := recv_plan hl n (next lanes len (f, 0)) q (mid_next hl)
    have hs := Recv.slot h1
    rw [if_pos rfl] at hs
    refine ⟨_, hs, ?_, h3⟩
    show (_ ++ out) ++ pend (plan lanes len n (next lanes len (f, 0)) q).2.1 (plan lanes len n (next lanes len (f, 0)) q).2.2 = _
    rw [List.append_assoc, h2]
    exact pend_next (f, 0) q
  | n + 1, none, [], h => ⟨[], recv_none (n + 1) none, rfl, h⟩

/-- What is left to do. -/
def work (len : F → Nat) (c : Option (F × Nat)) (q : List F) : Nat :=
  (match c with | none => 0 | some c => len c.1 - c.2) + (q.map fun f => len f + 1).sum

theorem work_next {c : F × Nat} {q : List F} (hl : 0 < lanes) : work len (next lanes len c) q < len c.1 - c.2 + 1 + (q.map fun f => len f + 1).sum := by
  unfold next work
  by_cases h : len c.1 ≤ c.2 + lanes
  · rw [if_pos h]; simp only; omega
  · rw [if_neg h]; simp only; omega

theorem work_next' {c : F × Nat} {q : List F} (hl : 0 < lanes) (hc : c.2 < len c.1) :
    work len (next lanes len c) q < len c.1 - c.2 + (q.map fun f => len f + 1).sum := by
  unfold next work
  by_cases h : len c.1 ≤ c.2 + lanes
  · rw [if_pos h]; simp only; omega
  · rw [if_neg h]; simp only; omega

theorem work_plan_le (hl : 0 < lanes) : ∀ n c (q : List F), work len (plan lanes len n c q).2.1 (plan lanes len n c q).2.2 ≤ work len c q
  | 0, c, q => Nat.le_refl _
  | n + 1, some (f, off), q => by
    refine Nat.le_trans (work_plan_le hl n (next lanes len (f, off)) q) ?_
    have := work_next (len := len) (c := (f, off)) (q := q) hl
    simp only [work] at *; omega
  | n + 1, none, f :: q => by
    refine Nat.le_trans (work_plan_le hl n (next lanes len (f, 0)) q) ?_
    have := work_next (len := len) (c := (f, 0)) (q := q) hl
    simp only [work, List.map_cons, List.sum_cons] at *; omega
  | n + 1, none, [] => Nat.le_refl _

theorem work_plan (hl : 0 < lanes) {n c} {q : List F} (hm : Mid len c) (hn : 0 < n) (hp : ¬ (c = none ∧ q = [])) :
    work len (plan lanes len n c q).2.1 (plan lanes len n c q).2.2 < work len c q := by
  cases n with
  | zero => omega
  | succ n =>
    match c, q with
    | some (f, off), q =>
      refine Nat.lt_of_le_of_lt (work_plan_le hl n (next lanes len (f, off)) q) ?_
      have := work_next' (len := len) (c := (f, off)) (q := q) hl (hm f off rfl).2
      simp only [work] at *; omega
    | none, f :: q =>
      refine Nat.lt_of_le_of_lt (work_plan_le hl n (next lanes len (f, 0)) q) ?_
      have := work_next (len := len) (c := (f, 0)) (q := q) hl
      simp only [work, List.map_cons, List.sum_cons] at *; omega
    | none, [] => exact absurd ⟨rfl, rfl⟩ hp

end Stream

/-! ### Fields of a word -/

/-- The `i`-th field of width `w`. -/
def field (w i x : Nat) : Nat := (x >>> (i * w)) &&& (2 ^ w - 1)

theorem field_testBit (w i x j : Nat) : (field w i x).testBit j = (decide (j < w) && x.testBit (i * w + j)) := by
  rw [field, Nat.and_two_pow_sub_one_eq_mod, Nat.testBit_mod_two_pow, Nat.testBit_shiftRight]

theorem field_or (w i x y : Nat) : field w i (x ||| y) = field w i x ||| field w i y := by
  apply Nat.eq_of_testBit_eq; intro j
  simp only [field_testBit, Nat.testBit_or, Bool.and_or_distrib_left]

theorem field_zero (w i : Nat) : field w i 0 = 0 := by simp [field]

theorem field_shift_same {w i x : Nat} (h : x < 2 ^ w) : field w i (x <<< (i * w)) = x := by
  apply Nat.eq_of_testBit_eq; intro j
  rw [field_testBit, Nat.testBit_shiftLeft]
  by_cases hj : j < w
  · simp [hj]
  · rw [Nat.testBit_lt_two_pow (Nat.lt_of_lt_of_le h (Nat.pow_le_pow_right (by omega) (by omega : w ≤ j)))]
    simp [hj]

theorem field_shift_other {w i k x : Nat} (h : x < 2 ^ w) (hk : i ≠ k) : field w i (x <<< (k * w)) = 0 := by
  apply Nat.eq_of_testBit_eq; intro j
  rw [field_testBit, Nat.testBit_shiftLeft, Nat.zero_testBit]
  by_cases hj : j < w
  · simp only [hj, decide_true, Bool.true_and]
    by_cases hge : i * w + j ≥ k * w
    · simp only [hge, decide_true, Bool.true_and]
      apply Nat.testBit_lt_two_pow
      refine Nat.lt_of_lt_of_le h (Nat.pow_le_pow_right (by omega) ?_)
      have : k < i := by
        rcases Nat.lt_trichotomy k i with h1 | h1 | h1
        · exact h1
        · exact absurd h1.symm hk
        · exfalso
          have := Nat.mul_le_mul_right w (by omega : i + 1 ≤ k)
          rw [Nat.add_mul] at this; omega
      have := Nat.mul_le_mul_right w (by omega : k + 1 ≤ i)
      rw [Nat.add_mul] at this; omega
    · simp [hge]
  · simp [hj]

theorem field_put {w i k a x : Nat} (h : x < 2 ^ w) :
    field w i (a ||| x <<< (k * w)) = if i = k then field w i a ||| x else field w i a := by
  rw [field_or]
  split
  · rename_i e; subst e; rw [field_shift_same h]
  · rename_i e; rw [field_shift_other h e, Nat.or_zero]

theorem put_lt {w k n a x : Nat} (ha : a < 2 ^ (n * w)) (h : x < 2 ^ w) (hk : k < n) : a ||| x <<< (k * w) < 2 ^ (n * w) := by
  apply Nat.or_lt_two_pow ha
  rw [Nat.shiftLeft_eq]
  have h1 : (k + 1) * w ≤ n * w := Nat.mul_le_mul_right w hk
  calc x * 2 ^ (k * w) < 2 ^ w * 2 ^ (k * w) := Nat.mul_lt_mul_of_pos_right h (Nat.two_pow_pos _)
    _ = 2 ^ ((k + 1) * w) := by rw [← Nat.pow_add]; ring_nf
    _ ≤ _ := Nat.pow_le_pow_right (by omega) h1

theorem bit_field (x i : Nat) : (x &&& 1 <<< i = 0) ↔ field 1 i x = 0 := by
  rw [field, Nat.mul_one, Nat.one_shiftLeft]
  have h1 : (x &&& 2 ^ i = 0) ↔ x.testBit i = false := by
    constructor
    · intro h
      have := congrArg (fun y => y.testBit i) h
      simpa [Nat.testBit_two_pow_self] using this
    · intro h
      apply Nat.eq_of_testBit_eq; intro j
      rw [Nat.testBit_and, Nat.testBit_two_pow, Nat.zero_testBit]
      by_cases hj : i = j
      · subst hj; simp [h]
      · simp [hj]
  rw [h1, Nat.testBit, show 2 ^ 1 - 1 = 1 from rfl, Nat.and_comm]
  simp

/-! ### Words in a word -/

/-- The words one after the other, the first in the lowest bits. -/
def packW (w : Nat) : List Nat → Nat
  | [] => 0
  | d :: r => d ||| packW w r <<< w

theorem packW_lt {w : Nat} : ∀ {l : List Nat} {n : Nat}, (∀ d ∈ l, d < 2 ^ w) → l.length ≤ n → packW w l < 2 ^ (n * w)
  | [], n, _, _ => Nat.two_pow_pos _
  | d :: r, 0, _, h => by simp at h
  | d :: r, n + 1, hd, h => by
    have ih := packW_lt (n := n) (fun x hx => hd x (List.mem_cons_of_mem _ hx)) (by simpa using h)
    have h0 := hd d (by simp)
    rw [packW]
    apply Nat.or_lt_two_pow
    · exact Nat.lt_of_lt_of_le h0 (Nat.pow_le_pow_right (by omega) (by rw [Nat.add_mul]; omega))
    · rw [Nat.shiftLeft_eq, Nat.add_mul, Nat.one_mul, Nat.pow_add]
      exact Nat.mul_lt_mul_of_pos_right ih (Nat.two_pow_pos _)

theorem packW_get {w : Nat} : ∀ {l : List Nat} {k d : Nat}, (∀ d ∈ l, d < 2 ^ w) → l[k]? = some d → field w k (packW w l) = d
  | [], k, d, _, h => by simp at h
  | a :: r, 0, d, hd, h => by
    simp only [List.getElem?_cons_zero, Option.some.injEq] at h
    subst h
    rw [packW, field_or]
    have e : packW w r <<< w = packW w r <<< (1 * w) := by rw [Nat.one_mul]
    have h1 : field w 0 (packW w r <<< w) = 0 := by
      apply Nat.eq_of_testBit_eq; intro j
      rw [field_testBit, Nat.testBit_shiftLeft, Nat.zero_testBit]
      by_cases hj : j < w
      · simp [hj]
      · simp [hj]
    have h2 : field w 0 a = a := by have := field_shift_same (i := 0) (hd a (by simp)); simpa using this
    rw [h1, h2, Nat.or_zero]
  | a :: r, k + 1, d, hd, h => by
    have ih := packW_get (k := k) (d := d) (fun x hx => hd x (List.mem_cons_of_mem _ hx)) (by simpa using h)
    rw [packW, field_or]
    have h0 : field w (k + 1) a = 0 := by
      have := field_shift_other (i := k + 1) (k := 0) (hd a (by simp)) (by omega)
      simpa using this
    rw [h0, Nat.zero_or, ← ih]
    apply Nat.eq_of_testBit_eq; intro j
    rw [field_testBit, field_testBit, Nat.testBit_shiftLeft]
    have : (k + 1) * w + j = k * w + j + w := by ring
    rw [this]
    simp

end Pcie
