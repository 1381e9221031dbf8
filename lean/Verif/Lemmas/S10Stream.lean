import Verif.Spec.Stream
import Verif.Lemmas.Stream
import Mathlib.Tactic.ByContra
namespace Pcie
open Spec
namespace S10

/-- The part of a transaction on a segment. -/
def Txn.view (b : Bus) (t : Txn) (i : Nat) : Txn :=
  { data := field (32 * b.lanes) i t.data, empty := field b.emptyWidth i t.empty, sop := field 1 i t.sop, eop := field 1 i t.eop
    valid := field 1 i t.valid, err := field 1 i t.err, vfActive := field 1 i t.vfActive, funcNum := field 3 i t.funcNum
    vfNum := field 11 i t.vfNum, barRange := field 3 i t.barRange, parity := field (4 * b.lanes) i t.parity }

/-- A transaction with something added on a segment. -/
def Txn.orAt (b : Bus) (t : Txn) (i : Nat) (x : Txn) : Txn :=
  { data := t.data ||| x.data <<< (i * (32 * b.lanes)), empty := t.empty ||| x.empty <<< (i * b.emptyWidth)
    sop := t.sop ||| x.sop <<< (i * 1), eop := t.eop ||| x.eop <<< (i * 1), valid := t.valid ||| x.valid <<< (i * 1)
    err := t.err ||| x.err <<< (i * 1), vfActive := t.vfActive ||| x.vfActive <<< (i * 1)
    funcNum := t.funcNum ||| x.funcNum <<< (i * 3), vfNum := t.vfNum ||| x.vfNum <<< (i * 11)
    barRange := t.barRange ||| x.barRange <<< (i * 3), parity := t.parity ||| x.parity <<< (i * (4 * b.lanes)) }

/-- Fits a segment. -/
structure Txn.Fits (b : Bus) (x : Txn) (n : Nat) : Prop where
  data : x.data < 2 ^ (n * (32 * b.lanes))
  empty : x.empty < 2 ^ (n * b.emptyWidth)
  sop : x.sop < 2 ^ (n * 1)
  eop : x.eop < 2 ^ (n * 1)
  valid : x.valid < 2 ^ (n * 1)
  err : x.err < 2 ^ (n * 1)
  vfActive : x.vfActive < 2 ^ (n * 1)
  funcNum : x.funcNum < 2 ^ (n * 3)
  vfNum : x.vfNum < 2 ^ (n * 11)
  barRange : x.barRange < 2 ^ (n * 3)
  parity : x.parity < 2 ^ (n * (4 * b.lanes))

theorem view_orAt_same {b : Bus} {t x : Txn} {i : Nat} (hx : x.Fits b 1) (ht : t.view b i = {}) : (t.orAt b i x).view b i = x := by
  obtain ⟨h1, h2, h3, h4, h5, h6, h7, h8, h9, h10, h11⟩ := hx
  simp only [Nat.one_mul] at *
  simp only [Txn.view, Txn.mk.injEq] at ht
  obtain ⟨g1, g2, g3, g4, g5, g6, g7, g8, g9, g10, g11⟩ := ht
  simp only [Txn.view, Txn.orAt, field_put h1, field_put h2, field_put h3, field_put h4, field_put h5, field_put h6, field_put h7, field_put h8,
    field_put h9, field_put h10, field_put h11, if_true, g1, g2, g3, g4, g5, g6, g7, g8, g9, g10, g11, Nat.zero_or]

theorem view_orAt_other {b : Bus} {t x : Txn} {i j : Nat} (hx : x.Fits b 1) (hj : j ≠ i) : (t.orAt b i x).view b j = t.view b j := by
  obtain ⟨h1, h2, h3, h4, h5, h6, h7, h8, h9, h10, h11⟩ := hx
  simp only [Nat.one_mul] at *
  simp only [Txn.view, Txn.orAt, field_put h1, field_put h2, field_put h3, field_put h4, field_put h5, field_put h6, field_put h7, field_put h8,
    field_put h9, field_put h10, field_put h11, if_neg hj]

theorem orAt_fits {b : Bus} {t x : Txn} {i n : Nat} (ht : t.Fits b n) (hx : x.Fits b 1) (hi : i < n) : (t.orAt b i x).Fits b n := by
  obtain ⟨h1, h2, h3, h4, h5, h6, h7, h8, h9, h10, h11⟩ := hx
  obtain ⟨g1, g2, g3, g4, g5, g6, g7, g8, g9, g10, g11⟩ := ht
  simp only [Nat.one_mul] at h1 h2 h3 h4 h5 h6 h7 h8 h9 h10 h11
  exact ⟨put_lt g1 h1 hi, put_lt g2 h2 hi, put_lt g3 h3 hi, put_lt g4 h4 hi, put_lt g5 h5 hi, put_lt g6 h6 hi, put_lt g7 h7 hi,
    put_lt g8 h8 hi, put_lt g9 h9 hi, put_lt g10 h10 hi, put_lt g11 h11 hi⟩

theorem view_zero (b : Bus) (i : Nat) : ({} : Txn).view b i = {} := by simp [Txn.view, field_zero]

theorem fits_zero (b : Bus) (n : Nat) : ({} : Txn).Fits b n := by constructor <;> exact Nat.two_pow_pos _

/-- What a part of a frame looks like on a segment. -/
def img (b : Bus) (f : S10Frame) (off : Nat) : Txn :=
  { data := packW 32 ((f.data.drop off).take b.lanes)
    empty := if f.data.length ≤ off + b.lanes then b.lanes - (f.data.length - off) else 0
    sop := if off = 0 then 1 else 0
    eop := if f.data.length ≤ off + b.lanes then 1 else 0
    valid := 1
    err := f.err
    vfActive := if f.vfNum.isSome then 1 else 0
    funcNum := f.funcNum
    vfNum := f.vfNum.getD 0
    barRange := f.barRange
    parity := packW 4 ((f.parity.drop off).take b.lanes) }

theorem lt_bitLength (n : Nat) : n < 2 ^ bitLength n := by
  unfold bitLength
  split
  · omega
  · exact Nat.lt_log2_self

theorem img_fits {b : Bus} {f : S10Frame} (h : S10Ok f) {off : Nat} (ho : off < f.data.length) : (img b f off).Fits b 1 := by
  constructor
  · rw [Nat.one_mul, Nat.mul_comm]
    exact packW_lt (fun d hd => h.data d (List.mem_of_mem_drop (List.mem_of_mem_take hd))) (List.length_take_le _ _)
  · have := lt_bitLength (b.lanes - 1)
    simp only [img, Nat.one_mul, Bus.emptyWidth]
    split <;> omega
  · simp only [img]; split <;> decide
  · simp only [img]; split <;> decide
  · simp only [img]; decide
  · exact h.err
  · simp only [img]; split <;> decide
  · exact h.func
  · simp only [img]
    cases hv : f.vfNum with
    | none => decide
    | some v => exact h.vf v (by simp [hv])
  · exact h.bar
  · rw [Nat.one_mul, Nat.mul_comm]
    exact packW_lt (fun d hd => h.parity d (List.mem_of_mem_drop (List.mem_of_mem_take hd))) (List.length_take_le _ _)

theorem packW_cons_shift (w s d : Nat) (r : List Nat) : packW w (d :: r) <<< s = d <<< s ||| packW w r <<< (w + s) := by
  rw [packW, Nat.shiftLeft_or_distrib, ← Nat.shiftLeft_add]

theorem item_ok {l : List Nat} {i : Nat} (h : i < l.length) : item l i = .ok l[i] := by
  simp [item, h]

theorem putDwords_eq (b : Bus) (f : S10Frame) (seg : Nat) (hp : f.parity.length = f.data.length) : ∀ (n j : Nat) (t : Txn) (e off : Nat),
    off + n ≤ f.data.length → 
    putDwords b f seg (List.range' j n) t e off = .ok ({ t with
      data := t.data ||| packW 32 ((f.data.drop off).take n) <<< (32 * (j + seg * b.lanes))
      parity := t.parity ||| packW 4 ((f.parity.drop off).take n) <<< (4 * (j + seg * b.lanes)) },
      (if n = 0 then e else b.lanes - (j + n)), off + n)
  | 0, j, t, e, off, h => by simp [putDwords, packW]
  | n + 1, j, t, e, off, h => by
    have h1 : off < f.data.length := by omega
    have h2 : off < f.parity.length := by omega
    rw [List.range'_succ, putDwords, item_ok h1]
    simp only
    rw [item_ok h2]
    simp only
    rw [putDwords_eq b f seg hp n (j + 1) _ _ (off + 1) (by omega)]
    rw [List.drop_eq_getElem_cons h1, List.drop_eq_getElem_cons h2, List.take_succ_cons, List.take_succ_cons,
      packW_cons_shift, packW_cons_shift]
    have e1 : 32 + 32 * (j + seg * b.lanes) = 32 * (j + 1 + seg * b.lanes) := by ring
    have e2 : 4 + 4 * (j + seg * b.lanes) = 4 * (j + 1 + seg * b.lanes) := by ring
    have e3 : (if n = 0 then b.lanes - 1 - j else b.lanes - (j + 1 + n)) = b.lanes - (j + (n + 1)) := by split <;> omega
    rw [e1, e2, e3]
    simp only [Nat.or_assoc, Nat.add_eq_zero_iff, Nat.one_ne_zero, and_false, if_false]
    rw [show off + 1 + n = off + (n + 1) by omega]

/-- The local variables for a frame in progress. -/
def toCur (c : S10Frame × Nat) : Cur := ⟨c.1, c.2, decide (c.2 = 0)⟩

abbrev len (f : S10Frame) : Nat := f.data.length

theorem putSeg_eq {b : Bus} {f : S10Frame} {off : Nat} (seg : Nat) (t : Txn) (h : S10Ok f) (ho : off < f.data.length) (hl : 0 < b.lanes) :
    putSeg b seg t (toCur (f, off)) = .ok (t.orAt b seg (img b f off), (Stream.next b.lanes len (f, off)).map toCur) := by
  have hne : f.data ≠ [] := by intro e; rw [e] at ho; simp at ho
  have hn : off + min b.lanes (f.data.length - off) ≤ f.data.length := by omega
  have hn0 : min b.lanes (f.data.length - off) ≠ 0 := by omega
  have hd : (f.data.drop off).take (min b.lanes (f.data.length - off)) = (f.data.drop off).take b.lanes := by
    rw [← List.length_drop, ← List.take_take, List.take_length]
  have hp : (f.parity.drop off).take (min b.lanes (f.data.length - off)) = (f.parity.drop off).take b.lanes := by
    rw [← h.parityLength, ← List.length_drop, ← List.take_take, List.take_length]
  have key := fun t => putDwords_eq b f seg h.parityLength (min b.lanes (f.data.length - off)) 0 t 0 off hn
  rw [hd, hp] at key
  rw [if_neg hn0] at key
  simp only [← List.range_eq_range'] at key
  have s1 : 32 * (0 + seg * b.lanes) = seg * (32 * b.lanes) := by ring
  have s2 : 4 * (0 + seg * b.lanes) = seg * (4 * b.lanes) := by ring
  rw [s1, s2] at key
  simp only [putSeg, toCur, if_pos hne, key]
  have e0 : b.lanes - (0 + min b.lanes (f.data.length - off)) = b.lanes - (f.data.length - off) := by omega
  have e1 : (off + min b.lanes (f.data.length - off) ≥ f.data.length) ↔ f.data.length ≤ off + b.lanes := by omega
  simp only [e0, e1, Stream.next, len]
  have hv : ∀ a : Nat, a ||| 1 <<< seg ||| 1 <<< seg = a ||| 1 <<< seg := fun a => by rw [Nat.or_assoc, Nat.or_self]
  by_cases hlast : f.data.length ≤ off + b.lanes
  · simp only [hlast, if_true, Option.map_none]
    congr 1
    by_cases h0 : off = 0
    · subst h0
      have hl' : f.data.length ≤ b.lanes := by omega
      cases hvf : f.vfNum <;> simp [Txn.orAt, img, hl', hvf, hv]
    · cases hvf : f.vfNum <;> simp [Txn.orAt, img, hlast, hvf, h0]
  · simp only [hlast, if_false, Option.map_some]
    have e2 : off + min b.lanes (f.data.length - off) = off + b.lanes := by omega
    have e3 : ¬ off + b.lanes = 0 := by omega
    congr 1
    by_cases h0 : off = 0
    · subst h0
      have hl' : ¬ f.data.length ≤ b.lanes := by omega
      have hm : min b.lanes f.data.length = b.lanes := by omega
      cases hvf : f.vfNum <;> simp [Txn.orAt, img, hl', hvf, hv, hm, toCur] <;> omega
    · cases hvf : f.vfNum <;> simp [Txn.orAt, img, hlast, hvf, h0, e2, e3, toCur]

/-- The segments of a transaction hold these parts. -/
def Holds (b : Bus) (t : Txn) (i : Nat) : Option (S10Frame × Nat) → Prop
  | none => t.view b i = {}
  | some c => t.view b i = img b c.1 c.2

theorem putSegs_eq {b : Bus} (hl : 0 < b.lanes) {N : Nat} : ∀ (n j : Nat) (t : Txn) (c : Option (S10Frame × Nat)) (q : List S10Frame),
    j + n ≤ N → t.Fits b N → (∀ i, j ≤ i → t.view b i = {}) → Stream.Mid len c → (∀ f ∈ Stream.pend c q, S10Ok f) →
    ∃ t', putSegs b (List.range' j n) t (c.map toCur) q =
        .ok (t', (Stream.plan b.lanes len n c q).2.1.map toCur, (Stream.plan b.lanes len n c q).2.2) ∧
      t'.Fits b N ∧ (∀ i < j, t'.view b i = t.view b i) ∧
      (∀ i x, (Stream.plan b.lanes len n c q).1[i]? = some x → Holds b t' (j + i) x)
  | 0, j, t, c, q, _, hf, _, _, _ => ⟨t, by cases c <;> rfl, hf, fun _ _ => rfl, fun i x h => by simp [Stream.plan] at h⟩
  | n + 1, j, t, none, [], _, hf, hz, _, _ =>
    ⟨t, rfl, hf, fun _ _ => rfl, fun i x h => by
      simp only [Stream.plan, List.getElem?_replicate] at h
      split at h
      · cases h; exact hz _ (by omega)
      · cases h⟩
  | n + 1, j, t, some (f, off), q, hN, hf, hz, hm, hok => by
    have hfk : S10Ok f := hok f (by simp [Stream.pend])
    obtain ⟨h1, h2⟩ := hm f off rfl
    have hi := img_fits (b := b) hfk h2
    obtain ⟨t', e1, e2, e3, e4⟩ := putSegs_eq hl n (j + 1) (t.orAt b j (img b f off)) (Stream.next b.lanes len (f, off)) q (by omega)
      (orAt_fits hf hi (by omega)) (fun i hij => by rw [view_orAt_other hi (by omega)]; exact hz i (by omega)) (Stream.mid_next hl)
      (fun g hg => hok g (by
        have := Stream.pend_next (lanes := b.lanes) (len := len) (f, off) q
        show g ∈ f :: q
        rw [← this]; exact List.mem_append_right _ hg))
    refine ⟨t', ?_, e2, fun i hij => ?_, fun i x hx => ?_⟩
    · rw [List.range'_succ]
      simp only [Option.map_some, putSegs, putSeg_eq j t hfk h2 hl]
      exact e1
    · rw [e3 i (by omega), view_orAt_other hi (by omega)]
    · cases i with
      | zero =>
        simp only [Stream.plan, List.getElem?_cons_zero, Option.some.injEq] at hx
        subst hx
        show t'.view b j = img b f off
        rw [e3 j (by omega), view_orAt_same hi (hz j (by omega))]
      | succ i =>
        have := e4 i x (by simpa [Stream.plan] using hx)
        rwa [show j + 1 + i = j + (i + 1) by omega] at this
  | n + 1, j, t, none, f :: q, hN, hf, hz, hm, hok => by
    have hfk : S10Ok f := hok f (by simp [Stream.pend])
    have h2 : 0 < f.data.length := by
      obtain ⟨h, h0, _⟩ := hfk.length
      exact (List.getElem?_eq_some_iff.mp h0).1
    have hi := img_fits (b := b) hfk h2
    obtain ⟨t', e1, e2, e3, e4⟩ := putSegs_eq hl n (j + 1) (t.orAt b j (img b f 0)) (Stream.next b.lanes len (f, 0)) q (by omega)
      (orAt_fits hf hi (by omega)) (fun i hij => by rw [view_orAt_other hi (by omega)]; exact hz i (by omega)) (Stream.mid_next hl)
      (fun g hg => hok g (by
        have := Stream.pend_next (lanes := b.lanes) (len := len) (f, 0) q
        show g ∈ f :: q
        rw [← this]; exact List.mem_append_right _ hg))
    refine ⟨t', ?_, e2, fun i hij => ?_, fun i x hx => ?_⟩
    · rw [List.range'_succ]
      have := putSeg_eq j t hfk h2 hl
      simp only [toCur, decide_true] at this
      simp only [Option.map_none, putSegs, this]
      exact e1
    · rw [e3 i (by omega), view_orAt_other hi (by omega)]
    · cases i with
      | zero =>
        simp only [Stream.plan, List.getElem?_cons_zero, Option.some.injEq] at hx
        subst hx
        show t'.view b j = img b f 0
        rw [e3 j (by omega), view_orAt_same hi (hz j (by omega))]
      | succ i =>
        have := e4 i x (by simpa [Stream.plan] using hx)
        rwa [show j + 1 + i = j + (i + 1) by omega] at this

theorem putSegs_func {b : Bus} (hb : b.funcNum = true) (hl : 0 < b.lanes) : ∀ (n j : Nat) (t : Txn) (c : Option (S10Frame × Nat)) (q : List S10Frame)
    (t' : Txn) (r), j + n ≤ b.segs → t.funcNum < 2 ^ (2 * b.segs) → Stream.Mid len c → (∀ f ∈ Stream.pend c q, S10Ok f ∧ s10FuncFits b f) →
    putSegs b (List.range' j n) t (c.map toCur) q = .ok (t', r) → t'.funcNum < 2 ^ (2 * b.segs)
  | 0, j, t, c, q, t', r, _, hf, _, _, h => by
    have : t' = t := by cases c <;> simp [putSegs] at h <;> exact h.1.symm
    rw [this]; exact hf
  | n + 1, j, t, none, [], t', r, _, hf, _, _, h => by
    rw [List.range'_succ] at h
    simp only [Option.map_none, putSegs, Except.ok.injEq, Prod.mk.injEq] at h
    rw [← h.1]; exact hf
  | n + 1, j, t, some (f, off), q, t', r, hN, hf, hm, hok, h => by
    have hfk := hok f (by simp [Stream.pend])
    rw [List.range'_succ] at h
    simp only [Option.map_some, putSegs, putSeg_eq j t hfk.1 (hm f off rfl).2 hl] at h
    refine putSegs_func hb hl n (j + 1) _ _ q t' r (by omega) ?_ (Stream.mid_next hl) ?_ h
    · refine Nat.or_lt_two_pow hf (Nat.lt_of_le_of_lt ?_ (hfk.2 hb))
      simp only [img]
      rw [Nat.shiftLeft_eq]
      exact Nat.mul_le_mul_left _ (Nat.pow_le_pow_right (by omega) (by omega))
    · intro g hg
      refine hok g ?_
      have := Stream.pend_next (lanes := b.lanes) (len := len) (f, off) q
      show g ∈ f :: q
      rw [← this]; exact List.mem_append_right _ hg
  | n + 1, j, t, none, f :: q, t', r, hN, hf, hm, hok, h => by
    have hfk := hok f (by simp [Stream.pend])
    have h2 : 0 < f.data.length := by
      obtain ⟨h, h0, _⟩ := hfk.1.length
      exact (List.getElem?_eq_some_iff.mp h0).1
    have hp := putSeg_eq j t hfk.1 h2 hl
    simp only [toCur, decide_true] at hp
    rw [List.range'_succ] at h
    simp only [Option.map_none, putSegs, hp] at h
    refine putSegs_func hb hl n (j + 1) _ _ q t' r (by omega) ?_ (Stream.mid_next hl) ?_ h
    · refine Nat.or_lt_two_pow hf (Nat.lt_of_le_of_lt ?_ (hfk.2 hb))
      simp only [img]
      rw [Nat.shiftLeft_eq]
      exact Nat.mul_le_mul_left _ (Nat.pow_le_pow_right (by omega) (by omega))
    · intro g hg
      refine hok g ?_
      have := Stream.pend_next (lanes := b.lanes) (len := len) (f, 0) q
      show g ∈ f :: q
      rw [← this]; exact List.mem_append_right _ hg

/-- The signals that there are. -/
def Bus.mask (b : Bus) (t : Txn) : Txn :=
  { t with err := if b.err then t.err else 0, vfActive := if b.vfActive then t.vfActive else 0, funcNum := if b.funcNum then t.funcNum else 0
           vfNum := if b.vfNum then t.vfNum else 0, barRange := if b.barRange then t.barRange else 0, parity := if b.parity then t.parity else 0 }

theorem signal_ok {p : Bool} {w v : Nat} (h : p = true → v < 2 ^ w) : signal p w v = .ok (if p then v else 0) := by
  cases p
  · rfl
  · simp [signal, h rfl]

theorem carry_ok {b : Bus} {t : Txn} (h : t.Fits b b.segs) (hf : b.funcNum = true → t.funcNum < 2 ^ (2 * b.segs)) : b.carry t = .ok (b.mask t) := by
  obtain ⟨h1, h2, h3, h4, h5, h6, h7, h8, h9, h10, h11⟩ := h
  simp only [Nat.mul_one] at *
  have e1 : b.segs * (32 * b.lanes) / 8 = b.segs * (4 * b.lanes) := by
    rw [show b.segs * (32 * b.lanes) = b.segs * (4 * b.lanes) * 8 by ring, Nat.mul_div_cancel _ (by omega)]
  simp only [Bus.carry, e1]
  rw [signal_ok (v := t.data) (fun _ => by rw [Nat.mul_comm]; exact h1), signal_ok (v := t.empty) (fun _ => h2), signal_ok (v := t.sop) (fun _ => h3),
    signal_ok (v := t.eop) (fun _ => h4), signal_ok (v := t.valid) (fun _ => h5), signal_ok (v := t.err) (fun _ => h6),
    signal_ok (v := t.vfActive) (fun _ => h7), signal_ok (v := t.funcNum) (fun h => by rw [Nat.mul_comm]; exact hf h),
    signal_ok (v := t.vfNum) (fun _ => h9), signal_ok (v := t.barRange) (fun _ => h10), signal_ok (v := t.parity) (fun _ => h11)]
  rfl

theorem view_mask (b : Bus) (t : Txn) (i : Nat) : (b.mask t).view b i = b.mask (t.view b i) := by
  simp only [Txn.view, Bus.mask, Txn.mk.injEq, true_and]
  refine ⟨?_, ?_, ?_, ?_, ?_, ?_⟩ <;> split <;> simp [field_zero]

/-! ### The sink -/

/-- What the sink has of a frame in progress. -/
def part (b : Bus) (f : S10Frame) (off : Nat) : S10Frame :=
  { s10Seen b f with data := f.data.take off, parity := (s10Seen b f).parity.take off }

def Rel (b : Bus) (s : Snk) : Option (S10Frame × Nat) → Prop
  | none => s.frame = none
  | some (f, off) => s = ⟨some (part b f off), f.data.length - off⟩

theorem getDwords_eq (data parity : Nat) : ∀ (n j : Nat) (f : S10Frame) (c : Nat), getDwords data parity (List.range' j n) f c =
    ({ f with data := f.data ++ (List.range' j n).map (fun k => field 32 k data)
              parity := f.parity ++ (List.range' j n).map (fun k => field 4 k parity) }, c - n)
  | 0, j, f, c => by simp [getDwords]
  | n + 1, j, f, c => by
    rw [List.range'_succ, getDwords, getDwords_eq data parity n (j + 1)]
    simp only [List.map_cons, List.append_assoc, List.singleton_append]
    rw [show c - 1 - n = c - (n + 1) by omega, Nat.mul_comm 32 j, Nat.mul_comm 4 j]
    rfl

theorem unpackW {w : Nat} {l : List Nat} (h : ∀ d ∈ l, d < 2 ^ w) : (List.range l.length).map (fun k => field w k (packW w l)) = l := by
  apply List.ext_getElem (by simp)
  intro i h1 h2
  simp only [List.getElem_map, List.getElem_range]
  exact packW_get h (List.getElem?_eq_getElem h2)

theorem and_bit_iff (x i n : Nat) (hn : i < n) : ((x &&& (2 ^ n - 1)) &&& 2 ^ i ≠ 0) ↔ x.testBit i = true := by
  have h1 : ∀ y : Nat, (y &&& 2 ^ i ≠ 0) ↔ y.testBit i = true := by
    intro y
    constructor
    · intro h
      by_contra hc
      apply h
      apply Nat.eq_of_testBit_eq; intro j
      rw [Nat.testBit_and, Nat.testBit_two_pow, Nat.zero_testBit]
      by_cases hj : i = j
      · subst hj; simpa using hc
      · simp [hj]
    · intro h e
      have := congrArg (fun y => y.testBit i) e
      simp [Nat.testBit_two_pow_self, h] at this
  rw [h1, Nat.and_two_pow_sub_one_eq_mod, Nat.testBit_mod_two_pow]
  simp [hn]

theorem dwordCount_eq (h : Nat) (r : List Nat) (hh : h < 2 ^ 32) : dwordCount (packW 32 (h :: r)) = tlpDwords h := by
  have tb : ∀ i < 32, (packW 32 (h :: r)).testBit i = h.testBit i := by
    intro i hi
    rw [packW, Nat.testBit_or, Nat.testBit_shiftLeft]
    simp [show ¬ (i ≥ 32) by omega]
  have b29 : ((packW 32 (h :: r)) >>> 29 &&& 7 &&& 1 ≠ 0) ↔ h.testBit 29 = true := by
    have := and_bit_iff (packW 32 (h :: r) >>> 29) 0 3 (by omega)
    rw [Nat.testBit_shiftRight, tb _ (by omega)] at this
    exact this
  have b30 : ((packW 32 (h :: r)) >>> 29 &&& 7 &&& 2 ≠ 0) ↔ h.testBit 30 = true := by
    have := and_bit_iff (packW 32 (h :: r) >>> 29) 1 3 (by omega)
    rw [Nat.testBit_shiftRight, tb _ (by omega)] at this
    exact this
  have b10 : packW 32 (h :: r) &&& 0x3ff = h % 1024 := by
    apply Nat.eq_of_testBit_eq; intro i
    rw [show (0x3ff : Nat) = 2 ^ 10 - 1 from rfl, Nat.and_two_pow_sub_one_eq_mod, Nat.testBit_mod_two_pow, show (1024 : Nat) = 2 ^ 10 from rfl,
      Nat.testBit_mod_two_pow]
    by_cases hi : i < 10
    · rw [tb i (by omega)]
    · simp [hi]
  simp only [dwordCount, b29, b30, b10, tlpDwords]
  split <;> split <;> simp

theorem getSeg_none {b : Bus} {t : Txn} {i : Nat} (s : Snk) (h : t.view b i = {}) : getSeg b t s i = .ok (s, []) := by
  have hv : field 1 i t.valid = 0 := congrArg Txn.valid h
  simp only [getSeg]
  rw [if_pos ((bit_field _ _).mpr hv)]

theorem getDwords_part {b : Bus} {f : S10Frame} (h : S10Ok f) {off : Nat} {parity : Nat}
    (hp : parity = if b.parity then packW 4 ((f.parity.drop off).take b.lanes) else 0) :
    getDwords (packW 32 ((f.data.drop off).take b.lanes)) parity (List.range (min b.lanes (f.data.length - off))) (part b f off)
      (f.data.length - off) = (part b f (off + b.lanes), f.data.length - (off + b.lanes)) := by
  rw [List.range_eq_range', getDwords_eq, ← List.range_eq_range']
  have l1 : ((f.data.drop off).take b.lanes).length = min b.lanes (f.data.length - off) := by simp
  have l2 : ((f.parity.drop off).take b.lanes).length = min b.lanes (f.data.length - off) := by simp [h.parityLength]
  have d1 := unpackW (w := 32) (l := (f.data.drop off).take b.lanes) (fun d hd => h.data d (List.mem_of_mem_drop (List.mem_of_mem_take hd)))
  have d2 := unpackW (w := 4) (l := (f.parity.drop off).take b.lanes) (fun d hd => h.parity d (List.mem_of_mem_drop (List.mem_of_mem_take hd)))
  rw [l1] at d1
  rw [l2] at d2
  rw [d1]
  have e3 : f.data.length - off - min b.lanes (f.data.length - off) = f.data.length - (off + b.lanes) := by omega
  rw [e3]
  have e1 : f.data.take off ++ (f.data.drop off).take b.lanes = f.data.take (off + b.lanes) := by rw [List.take_add]
  have e2 : (s10Seen b f).parity.take off ++ (List.range (min b.lanes (f.data.length - off))).map (fun k => field 4 k parity) =
      (s10Seen b f).parity.take (off + b.lanes) := by
    rw [List.take_add]
    congr 1
    subst hp
    simp only [s10Seen]
    by_cases hb : b.parity = true
    · simp only [hb, if_true]; exact d2
    · simp only [hb, field_zero]
      rw [if_neg (by simp), if_neg (by simp), ← List.map_drop, ← List.map_take]
      apply List.ext_getElem
      · simp [h.parityLength]
      · intro i h1 h2; simp [field_zero]
  simp only [part, e1, e2]

theorem getSeg_slot {b : Bus} {t : Txn} {i : Nat} {s : Snk} {f : S10Frame} {off : Nat} (h : S10Ok f) (ho : off < f.data.length) (hl : 0 < b.lanes)
    (hv : t.view b i = b.mask (img b f off)) (hr : Rel b s (if off = 0 then none else some (f, off))) :
    ∃ s', getSeg b t s i = .ok (s', if f.data.length ≤ off + b.lanes then [s10Seen b f] else []) ∧
      Rel b s' (Stream.next b.lanes len (f, off)) := by
  simp only [Txn.view, Bus.mask, img, Txn.mk.injEq] at hv
  obtain ⟨v1, v2, v3, v4, v5, v6, v7, v8, v9, v10, v11⟩ := hv
  have c1 : ¬ t.valid &&& 1 <<< i = 0 := by rw [bit_field, v5]; decide
  have c2 : (t.sop &&& 1 <<< i ≠ 0) ↔ off = 0 := by rw [ne_eq, bit_field, v3]; split <;> simp_all
  have c3 : (t.eop &&& 1 <<< i ≠ 0) ↔ f.data.length ≤ off + b.lanes := by rw [ne_eq, bit_field, v4]; split <;> simp_all
  have c4 : (t.vfActive &&& 1 <<< i ≠ 0) ↔ (b.vfActive = true ∧ f.vfNum.isSome = true) := by
    rw [ne_eq, bit_field, v7]
    cases b.vfActive <;> cases f.vfNum <;> simp
  have r1 : (t.data >>> (i * (32 * b.lanes))) &&& (2 ^ (32 * b.lanes) - 1) = packW 32 ((f.data.drop off).take b.lanes) := v1
  have w4 : 32 * b.lanes / 8 = 4 * b.lanes := by omega
  have r2 : (t.parity >>> (i * (4 * b.lanes))) &&& (2 ^ (4 * b.lanes) - 1) = if b.parity then packW 4 ((f.parity.drop off).take b.lanes) else 0 := v11
  have r3 : (t.barRange >>> (i * 3)) &&& 0x7 = if b.barRange then f.barRange else 0 := v10
  have r4 : (t.funcNum >>> (i * 3)) &&& 0x7 = if b.funcNum then f.funcNum else 0 := v8
  have r5 : (t.vfNum >>> (i * 11)) &&& 0x7ff = if b.vfNum then f.vfNum.getD 0 else 0 := v9
  have r6 : (t.err >>> i) &&& 0x1 = if b.err then f.err else 0 := by
    have : t.err >>> (i * 1) &&& (2 ^ 1 - 1) = _ := v6
    rwa [Nat.mul_one] at this
  have hgd : onData b t (part b f off) (f.data.length - off) i = (part b f (off + b.lanes), f.data.length - (off + b.lanes)) := by
    rw [onData, if_pos (by omega : f.data.length - off > 0), w4, r1, getDwords_part h r2]
  have hs : onSop b t s i = .ok ⟨some (part b f off), f.data.length - off⟩ := by
    rw [onSop]
    by_cases h0 : off = 0
    · subst h0
      rw [if_pos (c2.mpr rfl)]
      rw [if_pos rfl] at hr
      have hn : s.frame = none := hr
      simp only [hn, Option.isSome_none, Bool.false_eq_true, if_false, r1, r3, r4, r5, r6, c4]
      obtain ⟨hd, hd0, hlen⟩ := h.length
      obtain ⟨hlt, hget⟩ := List.getElem?_eq_some_iff.mp hd0
      have hcons : ∃ r, (f.data.drop 0).take b.lanes = hd :: r := by
        obtain ⟨n, hn⟩ : ∃ n, b.lanes = n + 1 := ⟨b.lanes - 1, by omega⟩
        rw [List.drop_eq_getElem_cons hlt, hn, List.take_succ_cons, hget]
        exact ⟨_, rfl⟩
      obtain ⟨r, hr'⟩ := hcons
      rw [hr', dwordCount_eq hd r (h.data hd (List.mem_of_getElem? hd0)), ← hlen]
      simp only [part, s10Seen, List.take_zero, Nat.sub_zero]
      cases hvf : f.vfNum <;> cases hb : b.vfActive <;> simp
    · rw [if_neg (fun hc => h0 (c2.mp hc))]
      rw [if_neg h0] at hr
      rw [show s = _ from hr]
  simp only [getSeg, if_neg c1, hs, hgd]
  by_cases hlast : f.data.length ≤ off + b.lanes
  · rw [if_pos (c3.mpr hlast), if_pos (by omega), if_pos hlast]
    have hp : part b f (off + b.lanes) = s10Seen b f := by
      have : (s10Seen b f).parity.length = f.data.length := by
        rw [← h.parityLength]; simp only [s10Seen]; split <;> simp
      rw [part, List.take_of_length_le hlast, List.take_of_length_le (by omega)]
      rfl
    rw [hp]
    refine ⟨_, rfl, ?_⟩
    simp only [Stream.next, len, if_pos hlast]
    rfl
  · rw [if_neg (fun hc => hlast (c3.mp hc)), if_neg hlast]
    refine ⟨_, rfl, ?_⟩
    simp only [Stream.next, len, if_neg hlast]
    rfl

/-- The segments hold these parts, on the other side of the bus. -/
def Seen (b : Bus) (t : Txn) (i : Nat) : Option (S10Frame × Nat) → Prop
  | none => t.view b i = {}
  | some c => t.view b i = b.mask (img b c.1 c.2)

theorem getSegs_recv {b : Bus} {t : Txn} (hl : 0 < b.lanes) {a a' : Option (S10Frame × Nat)} {slots : List (Option (S10Frame × Nat))}
    {out : List S10Frame} (hr : Stream.Recv b.lanes len a slots a' out) : ∀ (j : Nat) (s : Snk),
    (∀ f off, some (f, off) ∈ slots → S10Ok f ∧ off < f.data.length) →
    (∀ i x, slots[i]? = some x → Seen b t (j + i) x) →
    Rel b s a → ∃ s', getSegs b t s (List.range' j slots.length) = .ok (s', out.map (s10Seen b)) ∧ Rel b s' a' := by
  induction hr with
  | nil a => intro j s _ _ h; exact ⟨s, rfl, h⟩
  | skip _ ih =>
    intro j s hok hv h
    obtain ⟨s', h1, h2⟩ := ih (j + 1) s (fun f off hm => hok f off (List.mem_cons_of_mem _ hm))
      (fun i x hx => by have := hv (i + 1) x (by simpa using hx); rwa [show j + (i + 1) = j + 1 + i by omega] at this) h
    refine ⟨s', ?_, h2⟩
    have := hv 0 none rfl
    rw [List.length_cons, List.range'_succ, getSegs, getSeg_none (i := j) s this]
    simp only [h1, List.nil_append]
  | slot hr ih =>
    rename_i f off r a' out
    intro j s hok hv h
    obtain ⟨k1, k2⟩ := hok f off (by simp)
    obtain ⟨s1, g1, g2⟩ := getSeg_slot (t := t) (i := j) k1 k2 hl (hv 0 _ rfl) h
    obtain ⟨s', h1, h2⟩ := ih (j + 1) s1 (fun f off hm => hok f off (List.mem_cons_of_mem _ hm))
      (fun i x hx => by have := hv (i + 1) x (by simpa using hx); rwa [show j + (i + 1) = j + 1 + i by omega] at this) g2
    refine ⟨s', ?_, h2⟩
    rw [List.length_cons, List.range'_succ, getSegs]
    simp only [g1, h1, List.map_append]
    split <;> rfl

/-- The parts that are sent belong to frames that were pending, and are not empty. -/
theorem plan_mem {b : Bus} (hl : 0 < b.lanes) : ∀ n c q, Stream.Mid len c → (∀ f ∈ Stream.pend c q, S10Ok f) →
    ∀ f off, some (f, off) ∈ (Stream.plan b.lanes len n c q).1 → S10Ok f ∧ off < f.data.length
  | 0, c, q, _, _, f, off, h => by simp [Stream.plan] at h
  | n + 1, some (g, o), q, hm, hok, f, off, h => by
    simp only [Stream.plan, List.mem_cons, Option.some.injEq, Prod.mk.injEq] at h
    rcases h with ⟨rfl, rfl⟩ | h
    · exact ⟨hok f (by simp [Stream.pend]), (hm f off rfl).2⟩
    · refine plan_mem hl n _ q (Stream.mid_next hl) (fun x hx => hok x ?_) f off h
      have := Stream.pend_next (lanes := b.lanes) (len := len) (g, o) q
      show x ∈ g :: q
      rw [← this]; exact List.mem_append_right _ hx
  | n + 1, none, g :: q, hm, hok, f, off, h => by
    simp only [Stream.plan, List.mem_cons, Option.some.injEq, Prod.mk.injEq] at h
    rcases h with ⟨rfl, rfl⟩ | h
    · have hk := hok f (by simp [Stream.pend])
      obtain ⟨h, h0, _⟩ := hk.length
      exact ⟨hk, (List.getElem?_eq_some_iff.mp h0).1⟩
    · refine plan_mem hl n _ q (Stream.mid_next hl) (fun x hx => hok x ?_) f off h
      have := Stream.pend_next (lanes := b.lanes) (len := len) (g, 0) q
      show x ∈ g :: q
      rw [← this]; exact List.mem_append_right _ hx
  | n + 1, none, [], _, _, f, off, h => by simp [Stream.plan] at h

/-- One transaction, from the source to the sink. -/
theorem beat_ok {b : Bus} (hl : 0 < b.lanes) {c : Option (S10Frame × Nat)} {q : List S10Frame} (hm : Stream.Mid len c)
    (hok : ∀ f ∈ Stream.pend c q, S10Ok f ∧ s10FuncFits b f) {k : Snk} (hk : Rel b k c) :
    ∃ t t' k' out, putSegs b (List.range b.segs) {} (c.map toCur) q =
        .ok (t, (Stream.plan b.lanes len b.segs c q).2.1.map toCur, (Stream.plan b.lanes len b.segs c q).2.2) ∧
      b.carry t = .ok t' ∧ getSegs b t' k (List.range b.segs) = .ok (k', out.map (s10Seen b)) ∧
      Rel b k' (Stream.plan b.lanes len b.segs c q).2.1 ∧ Stream.Mid len (Stream.plan b.lanes len b.segs c q).2.1 ∧
      out ++ Stream.pend (Stream.plan b.lanes len b.segs c q).2.1 (Stream.plan b.lanes len b.segs c q).2.2 = Stream.pend c q := by
  obtain ⟨t, e1, e2, _, e4⟩ := putSegs_eq hl (N := b.segs) b.segs 0 {} c q (by omega) (fits_zero b _) (fun i _ => view_zero b i) hm
    (fun f hf => (hok f hf).1)
  have hc := carry_ok e2 (fun hb => putSegs_func hb hl b.segs 0 {} c q t _ (by omega) (Nat.two_pow_pos _) hm hok e1)
  obtain ⟨out, r1, r2, r3⟩ := Stream.recv_plan (len := len) hl b.segs c q hm
  obtain ⟨k', g1, g2⟩ := getSegs_recv (t := b.mask t) hl r1 0 k (plan_mem hl _ _ _ hm (fun f hf => (hok f hf).1)) (by
    intro i x hx
    have := e4 i x hx
    cases x with
    | none =>
      show (b.mask t).view b (0 + i) = {}
      rw [view_mask, show t.view b (0 + i) = {} from this]
      simp [Bus.mask]
    | some c =>
      show (b.mask t).view b (0 + i) = _
      rw [view_mask, show t.view b (0 + i) = _ from this]) hk
  rw [Stream.plan_length, ← List.range_eq_range'] at g1
  rw [← List.range_eq_range'] at e1
  exact ⟨t, _, k', out, e1, hc, g1, g2, r3, r2⟩

theorem toCur_frame (c : Option (S10Frame × Nat)) : (c.map toCur).map (·.frame) = c.map (·.1) := by
  cases c <;> rfl

theorem run_ok {b : Bus} (hl : 0 < b.lanes) : ∀ (evs : List Ev) (c : Option (S10Frame × Nat)) (q : List S10Frame) (k : Snk),
    Stream.Mid len c → (∀ f ∈ Stream.pend c q ++ s10Sent evs, S10Ok f ∧ s10FuncFits b f) → Rel b k c →
    ∃ c' q' ts k' out, Src.run b ⟨q, c.map toCur⟩ evs = .ok (⟨q', c'.map toCur⟩, ts) ∧ Snk.run b k ts = .ok (k', out.map (s10Seen b)) ∧
      out ++ Stream.pend c' q' = Stream.pend c q ++ s10Sent evs ∧ Rel b k' c' ∧ Stream.Mid len c'
  | [], c, q, k, hm, hok, hk => ⟨c, q, [], k, [], rfl, rfl, by simp [s10Sent], hk, hm⟩
  | .send f :: evs, c, q, k, hm, hok, hk => by
    have hp : Stream.pend c (q ++ [f]) ++ s10Sent evs = Stream.pend c q ++ s10Sent (.send f :: evs) := by
      simp [Stream.pend, s10Sent]
    obtain ⟨c', q', ts, k', out, h1, h2, h3, h4, h5⟩ := run_ok hl evs c (q ++ [f]) k hm (by rwa [hp]) hk
    refine ⟨c', q', ts, k', out, ?_, h2, by rw [h3, hp], h4, h5⟩
    simp only [Src.run, Src.step, h1]
    rfl
  | .beat :: evs, c, q, k, hm, hok, hk => by
    have hs : s10Sent (.beat :: evs) = s10Sent evs := rfl
    rw [hs] at hok ⊢
    by_cases hi : c = none ∧ q = []
    · obtain ⟨rfl, rfl⟩ := hi
      obtain ⟨c', q', ts, k', out, h1, h2, h3, h4, h5⟩ := run_ok hl evs none [] k hm hok hk
      refine ⟨c', q', ts, k', out, ?_, h2, h3, h4, h5⟩
      simp only [Option.map_none] at h1
      simp [Src.run, Src.step, h1]
    · obtain ⟨t, t', k1, o1, b1, b2, b3, b4, b5, b6⟩ := beat_ok hl hm (fun f hf => hok f (List.mem_append_left _ hf)) hk
      obtain ⟨c', q', ts, k', out, h1, h2, h3, h4, h5⟩ := run_ok hl evs _ _ k1 b5 (by
        intro f hf
        apply hok f
        rw [← b6]
        rcases List.mem_append.mp hf with hf | hf
        · exact List.mem_append_left _ (List.mem_append_right _ hf)
        · exact List.mem_append_right _ hf) b4
      refine ⟨c', q', t' :: ts, k', o1 ++ out, ?_, ?_, ?_, h4, h5⟩
      · have hi' : ¬ (c.map toCur = none ∧ q = []) := by cases c <;> simp_all
        simp only [Src.run, Src.step, if_neg hi', b1, b2, h1]
        rfl
      · simp only [Snk.run, b3, h2, List.map_append]
      · rw [List.append_assoc, h3, ← List.append_assoc, b6]

/-- Enough transactions empty the source. -/
theorem drain_ok {b : Bus} (hl : 0 < b.lanes) (hs : 0 < b.segs) : ∀ (n : Nat) (c : Option (S10Frame × Nat)) (q : List S10Frame),
    Stream.Mid len c → (∀ f ∈ Stream.pend c q, S10Ok f ∧ s10FuncFits b f) → Stream.work len c q ≤ n →
    ∃ ts, Src.run b ⟨q, c.map toCur⟩ (List.replicate n .beat) = .ok (⟨[], none⟩, ts)
  | n, c, q, hm, hok, hw => by
    by_cases hi : c = none ∧ q = []
    · obtain ⟨rfl, rfl⟩ := hi
      refine ⟨[], ?_⟩
      induction n with
      | zero => rfl
      | succ n ih =>
        have := ih (by simp [Stream.work])
        simp only [Option.map_none] at this
        simp [List.replicate_succ, Src.run, Src.step, this]
    · have hlt := Stream.work_plan (n := b.segs) hl hm hs hi
      cases n with
      | zero => omega
      | succ n =>
        obtain ⟨k, hk⟩ : ∃ k : Snk, Rel b k c := by
          cases c with
          | none => exact ⟨{}, rfl⟩
          | some c => exact ⟨_, rfl⟩
        obtain ⟨t, t', k1, o1, b1, b2, b3, b4, b5, b6⟩ := beat_ok hl hm hok hk
        obtain ⟨ts, h⟩ := drain_ok hl hs n _ _ b5 (fun f hf => hok f (by rw [← b6]; exact List.mem_append_right _ hf)) (by omega)
        refine ⟨t' :: ts, ?_⟩
        have hi' : ¬ (c.map toCur = none ∧ q = []) := by cases c <;> simp_all
        simp only [List.replicate_succ, Src.run, Src.step, if_neg hi', b1, b2, h]
        rfl

theorem run_append {b : Bus} : ∀ (e1 e2 : List Ev) (s s1 s2 : Src) (t1 t2 : List Txn), Src.run b s e1 = .ok (s1, t1) →
    Src.run b s1 e2 = .ok (s2, t2) → Src.run b s (e1 ++ e2) = .ok (s2, t1 ++ t2)
  | [], e2, s, s1, s2, t1, t2, h1, h2 => by cases h1; exact h2
  | e :: e1, e2, s, s1, s2, t1, t2, h1, h2 => by
    simp only [Src.run] at h1
    split at h1
    · cases h1
    rename_i s' ts' hstep
    split at h1
    · cases h1
    rename_i s'' ts'' hrun
    cases h1
    simp only [List.cons_append, Src.run, hstep, run_append e1 e2 _ _ _ _ _ hrun h2, List.append_assoc]

/-- Every transaction has some bit of `valid` set. -/
theorem beat_valid {b : Bus} (hl : 0 < b.lanes) (hs : 0 < b.segs) {c : Option (S10Frame × Nat)} {q : List S10Frame} (hm : Stream.Mid len c)
    (hok : ∀ f ∈ Stream.pend c q, S10Ok f ∧ s10FuncFits b f) (hi : ¬ (c = none ∧ q = [])) {t t' : Txn} {c' : Option Cur} {q' : List S10Frame}
    (h1 : putSegs b (List.range b.segs) {} (c.map toCur) q = .ok (t, c', q')) (h2 : b.carry t = .ok t') : t'.valid ≠ 0 := by
  obtain ⟨t0, e1, e2, _, e4⟩ := putSegs_eq hl (N := b.segs) b.segs 0 {} c q (by omega) (fits_zero b _) (fun i _ => view_zero b i) hm
    (fun f hf => (hok f hf).1)
  have hc := carry_ok e2 (fun hb => putSegs_func hb hl b.segs 0 {} c q t0 _ (by omega) (Nat.two_pow_pos _) hm hok e1)
  rw [← List.range_eq_range', h1] at e1
  cases e1
  rw [hc] at h2
  cases h2
  have hx : ∃ x, (Stream.plan b.lanes len b.segs c q).1[0]? = some (some x) := by
    obtain ⟨n, hn⟩ : ∃ n, b.segs = n + 1 := ⟨b.segs - 1, by omega⟩
    rw [hn]
    rcases c with _ | c
    · rcases q with _ | ⟨f, q⟩
      · simp at hi
      · exact ⟨_, rfl⟩
    · exact ⟨_, rfl⟩
  obtain ⟨x, hx⟩ := hx
  have hv : t.view b (0 + 0) = img b x.1 x.2 := e4 0 _ hx
  have hv' := congrArg Txn.valid hv
  intro h0
  have h0' : t.valid = 0 := h0
  simp [Txn.view, img, h0', field_zero] at hv'

theorem run_valid {b : Bus} (hl : 0 < b.lanes) (hs : 0 < b.segs) : ∀ (evs : List Ev) (c : Option (S10Frame × Nat)) (q : List S10Frame) (s : Src) (ts : List Txn),
    Stream.Mid len c → (∀ f ∈ Stream.pend c q ++ s10Sent evs, S10Ok f ∧ s10FuncFits b f) → Src.run b ⟨q, c.map toCur⟩ evs = .ok (s, ts) →
    ∀ t ∈ ts, t.valid ≠ 0
  | [], c, q, s, ts, _, _, h => by cases h; simp
  | .send f :: evs, c, q, s, ts, hm, hok, h => by
    have hp : Stream.pend c (q ++ [f]) ++ s10Sent evs = Stream.pend c q ++ s10Sent (.send f :: evs) := by
      simp [Stream.pend, s10Sent]
    simp only [Src.run, Src.step] at h
    split at h
    · cases h
    rename_i s1 t1 hr
    cases h
    exact run_valid hl hs evs c (q ++ [f]) _ _ hm (by rwa [hp]) hr
  | .beat :: evs, c, q, s, ts, hm, hok, h => by
    have hst : s10Sent (.beat :: evs) = s10Sent evs := rfl
    rw [hst] at hok
    by_cases hi : c = none ∧ q = []
    · obtain ⟨rfl, rfl⟩ := hi
      simp only [Src.run, Src.step, Option.map_none, and_self, if_true] at h
      split at h
      · cases h
      rename_i s1 t1 hr
      cases h
      exact run_valid hl hs evs none [] _ _ hm hok hr
    · have hok' : ∀ f ∈ Stream.pend c q, S10Ok f ∧ s10FuncFits b f := fun f hf => hok f (List.mem_append_left _ hf)
      obtain ⟨k, hk⟩ : ∃ k : Snk, Rel b k c := by
        cases c with
        | none => exact ⟨{}, rfl⟩
        | some c => exact ⟨_, rfl⟩
      obtain ⟨t, t', k1, o1, b1, b2, b3, b4, b5, b6⟩ := beat_ok hl hm hok' hk
      have hi' : ¬ (c.map toCur = none ∧ q = []) := by cases c <;> simp_all
      simp only [Src.run, Src.step, if_neg hi', b1, b2] at h
      split at h
      · cases h
      rename_i s1 t1 hr
      cases h
      intro x hx
      rcases List.mem_append.mp hx with hx | hx
      · rw [List.mem_singleton.mp hx]
        exact beat_valid hl hs hm hok' hi b1 b2
      · refine run_valid hl hs evs _ _ _ _ b5 ?_ hr x hx
        intro f hf
        apply hok f
        rw [← b6]
        rcases List.mem_append.mp hf with hf | hf
        · exact List.mem_append_left _ (List.mem_append_right _ hf)
        · exact List.mem_append_right _ hf

/-- A sink that has received only part of the transactions has received the first frames. -/
theorem snk_prefix {b : Bus} : ∀ (t1 t2 : List Txn) (k k2 : Snk) (fs : List S10Frame), Snk.run b k (t1 ++ t2) = .ok (k2, fs) →
    ∃ k1 f1, Snk.run b k t1 = .ok (k1, f1) ∧ f1 <+: fs
  | [], t2, k, k2, fs, h => ⟨k, [], rfl, List.nil_prefix⟩
  | t :: t1, t2, k, k2, fs, h => by
    simp only [List.cons_append, Snk.run] at h ⊢
    split at h
    · cases h
    rename_i k' f' hg
    split at h
    · cases h
    rename_i k'' f'' hr
    cases h
    obtain ⟨k1, f1, g1, g2⟩ := snk_prefix t1 t2 _ _ _ hr
    simp only [g1]
    exact ⟨_, _, rfl, (List.prefix_append_right_inj _).mpr g2⟩

end S10
end Pcie
