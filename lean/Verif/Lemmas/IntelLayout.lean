import Verif.Lemmas.PTileStream
import Verif.Spec.IntelLayout
/-
Lemmas for C52: the transactions of the Intel sources have the layout of the specification.
-/
namespace Pcie
open Spec

theorem elem_field (w v i : Nat) : elem w v i = field w i v := by
  rw [elem, field, Nat.and_two_pow_sub_one_eq_mod, Nat.shiftRight_eq_div_pow, Nat.mul_comm]

/-- An element of an element. -/
theorem elem_sub (w n v i k : Nat) (hk : k < n) : elem w v (i * n + k) = field w k (field (w * n) i v) := by
  rw [elem_field]
  apply Nat.eq_of_testBit_eq; intro j
  rw [field_testBit, field_testBit, field_testBit]
  by_cases hj : j < w
  · have h1 : k * w + j < w * n := by
      have := Nat.mul_le_mul_left w (by omega : k + 1 ≤ n)
      rw [Nat.mul_add, Nat.mul_one, Nat.mul_comm w k] at this
      omega
    simp only [hj, h1, decide_true, Bool.true_and]
    congr 1
    ring
  · simp [hj]

theorem field_pack {w : Nat} {l : List Nat} (h : ∀ d ∈ l, d < 2 ^ w) (off n k : Nat) (hk : k < n) : field w k (packW w ((l.drop off).take n)) = l.getD (off + k) 0 := by
  have hm : ∀ d ∈ (l.drop off).take n, d < 2 ^ w := fun d hd => h d (List.mem_of_mem_drop (List.mem_of_mem_take hd))
  rw [List.getD_eq_getElem?_getD]
  have e : ((l.drop off).take n)[k]? = l[off + k]? := by
    rw [List.getElem?_take, if_pos hk, List.getElem?_drop]
  cases hc : l[off + k]? with
  | some d => rw [packW_get hm (e.trans hc)]; rfl
  | none =>
    rw [hc] at e
    have hlen : ((l.drop off).take n).length ≤ k := List.getElem?_eq_none_iff.mp e
    have := packW_lt hm hlen
    apply Nat.eq_of_testBit_eq; intro j
    rw [field_testBit, Option.getD_none, Nat.zero_testBit, Nat.testBit_lt_two_pow (Nat.lt_of_lt_of_le this (Nat.pow_le_pow_right (by omega) ?_))]
    · simp
    · omega

namespace Stream
variable {F : Type} {len : F → Nat}

theorem plan_packed' {lanes : Nat} : ∀ n (c : Option (F × Nat)) q, ∃ os m, (plan lanes len n c q).1 = os.map some ++ List.replicate m none ∧
    (0 < n → ¬ (c = none ∧ q = []) → os ≠ [])
  | 0, c, q => ⟨[], 0, rfl, fun h => by omega⟩
  | n + 1, some c, q => by
    obtain ⟨os, m, h, _⟩ := plan_packed' (lanes := lanes) n (next lanes len c) q
    exact ⟨c :: os, m, by simp [plan, h], fun _ _ => by simp⟩
  | n + 1, none, f :: q => by
    obtain ⟨os, m, h, _⟩ := plan_packed' (lanes := lanes) n (next lanes len (f, 0)) q
    exact ⟨(f, 0) :: os, m, by simp [plan, h], fun _ _ => by simp⟩
  | n + 1, none, [] => ⟨[], n + 1, rfl, fun _ h => absurd ⟨rfl, rfl⟩ h⟩

/-- The parts of a frame from an offset on. -/
def tailCuts (len : F → Nat) (L : Nat) (c : F × Nat) : List (F × Nat) := (List.range (max 1 ((len c.1 - c.2 + L - 1) / L))).map fun i => (c.1, c.2 + i * L)

theorem tailCuts_zero (L : Nat) (f : F) : tailCuts len L (f, 0) = cuts L (len f) f := by simp [tailCuts, cuts]

theorem tailCuts_step {L : Nat} (hL : 0 < L) (c : F × Nat) : tailCuts len L c = c :: (next L len c).toList.flatMap (tailCuts len L) := by
  unfold next
  obtain ⟨f, off⟩ := c
  simp only
  by_cases he : len f ≤ off + L
  · rw [if_pos he]
    have : max 1 ((len f - off + L - 1) / L) = 1 := by
      have : (len f - off + L - 1) / L ≤ 1 := by
        rw [Nat.div_le_iff_le_mul_add_pred hL]; omega
      omega
    simp [tailCuts, this]
  · rw [if_neg he]
    have h1 : (len f - off + L - 1) / L = (len f - (off + L) + L - 1) / L + 1 := by
      rw [show len f - off + L - 1 = (len f - (off + L) + L - 1) + L by omega, Nat.add_div_right _ hL]
    have h2 : 1 ≤ (len f - (off + L) + L - 1) / L := by
      rw [Nat.le_div_iff_mul_le hL]; omega
    have e1 : max 1 ((len f - off + L - 1) / L) = (len f - (off + L) + L - 1) / L + 1 := by omega
    have e2 : max 1 ((len f - (off + L) + L - 1) / L) = (len f - (off + L) + L - 1) / L := by omega
    simp only [tailCuts, e1, e2, List.range_succ_eq_map, List.map_cons, List.map_map, Nat.zero_mul, Nat.add_zero, Option.toList_some, List.flatMap_cons, List.flatMap_nil, List.append_nil]
    congr 1
    apply List.map_congr_left
    intro i _
    simp only [Function.comp, Nat.succ_mul, Prod.mk.injEq, true_and]
    omega

/-- What is left, as parts. -/
def left (len : F → Nat) (L : Nat) (c : Option (F × Nat)) (q : List F) : List (F × Nat) := c.toList.flatMap (tailCuts len L) ++ q.flatMap fun f => cuts L (len f) f

theorem plan_left {L : Nat} (hL : 0 < L) : ∀ n c (q : List F),
    (plan L len n c q).1.filterMap id ++ left len L (plan L len n c q).2.1 (plan L len n c q).2.2 = left len L c q
  | 0, c, q => rfl
  | n + 1, some c, q => by
    have ih := plan_left hL n (next L len c) q
    simp only [plan, List.filterMap_cons, id, List.cons_append]
    rw [ih]
    simp only [left, Option.toList_some, List.flatMap_cons, List.flatMap_nil, List.append_nil]
    rw [tailCuts_step hL c, List.cons_append]
  | n + 1, none, f :: q => by
    have ih := plan_left hL n (next L len (f, 0)) q
    simp only [plan, List.filterMap_cons, id, List.cons_append]
    rw [ih]
    simp only [left, Option.toList_none, List.flatMap_cons, List.flatMap_nil, List.nil_append]
    rw [← tailCuts_zero, tailCuts_step hL (f, 0), List.cons_append]
  | n + 1, none, [] => by simp [plan, left]

end Stream

namespace S10

theorem seg_ok {b : Bus} {t : Txn} {i : Nat} {f : S10Frame} {off : Nat} (h : S10Ok f) (ho : off < f.data.length) (hv : t.view b i = b.mask (img b f off)) :
    S10Seg b t i f off := by
  simp only [Txn.view, Bus.mask, img, Txn.mk.injEq] at hv
  obtain ⟨v1, v2, v3, v4, v5, v6, v7, v8, v9, v10, v11⟩ := hv
  refine ⟨?_, ?_, ?_, ?_, ?_, ?_, ?_, ?_, ?_, ?_⟩
  · rw [elem_field, v5]
  · rw [elem_field, v3]
  · rw [elem_field, v4]
  · intro k hk
    rw [elem_sub _ _ _ _ _ hk, v1, field_pack h.data _ _ _ hk]
  · intro hb k hk
    rw [elem_sub _ _ _ _ _ hk, v11, if_pos hb, field_pack (w := 4) h.parity _ _ _ hk]
  · rw [elem_field, v2]
    split <;> omega
  · intro hb; rw [elem_field, v6, if_pos hb]
  · intro hb; rw [elem_field, v7, if_pos hb]
  · intro hb; rw [elem_field, v9, if_pos hb]
  · intro hb; rw [elem_field, v10, if_pos hb]

theorem beat_layout {b : Bus} (hl : 0 < b.lanes) (hs : 0 < b.segs) {c : Option (S10Frame × Nat)} {q : List S10Frame} (hm : Stream.Mid len c) (hi : ¬ (c = none ∧ q = []))
    (hok : ∀ f ∈ Stream.pend c q, S10Ok f ∧ s10FuncFits b f) :
    ∃ t t', putSegs b (List.range b.segs) {} (c.map toCur) q =
        .ok (t, (Stream.plan b.lanes len b.segs c q).2.1.map toCur, (Stream.plan b.lanes len b.segs c q).2.2) ∧
      b.carry t = .ok t' ∧ S10Beat b t' (Stream.plan b.lanes len b.segs c q).1 ∧ (b.segs = 1 → S10BeatFunc b t' (Stream.plan b.lanes len b.segs c q).1) := by
  obtain ⟨t, e1, e2, _, e4⟩ := putSegs_eq hl (N := b.segs) b.segs 0 {} c q (by omega) (fits_zero b _) (fun i _ => view_zero b i) hm
    (fun f hf => (hok f hf).1)
  have hc := carry_ok e2 (fun hb => putSegs_func hb hl b.segs 0 {} c q t _ (by omega) (Nat.two_pow_pos _) hm hok e1)
  have hpm := plan_mem hl b.segs _ _ hm (fun f hf => (hok f hf).1)
  have hlen := Stream.plan_length b.lanes len b.segs c q
  have hfun : b.funcNum = true → t.funcNum < 2 ^ (2 * b.segs) := fun hb => putSegs_func hb hl b.segs 0 {} c q t _ (by omega) (Nat.two_pow_pos _) hm hok e1
  rw [← List.range_eq_range'] at e1
  obtain ⟨os, m, p1, p2⟩ := Stream.plan_packed' (len := len) (lanes := b.lanes) b.segs c q
  have hsome : ∀ i f off, (Stream.plan b.lanes len b.segs c q).1[i]? = some (some (f, off)) → (b.mask t).view b i = b.mask (img b f off) := by
    intro i f off hx
    have : t.view b (0 + i) = img b f off := e4 i _ hx
    rw [view_mask, ← this, Nat.zero_add]
  refine ⟨t, _, e1, hc, ⟨⟨hlen, os, m, p2 hs hi, p1⟩, fun i hi' => ?_⟩, fun h1 hb i f off hx => ?_⟩
  · have hg : (Stream.plan b.lanes len b.segs c q).1[i]? = some (Stream.plan b.lanes len b.segs c q).1[i] := List.getElem?_eq_getElem (by omega)
    cases hx : (Stream.plan b.lanes len b.segs c q).1[i] with
    | none =>
      rw [hx] at hg
      rw [hg]
      have : t.view b (0 + i) = {} := e4 i _ hg
      have := congrArg Txn.valid this
      simp only [Txn.view, Nat.zero_add] at this
      show elem 1 t.valid i = 0
      rw [elem_field, this]
    | some p =>
      obtain ⟨f, off⟩ := p
      rw [hx] at hg
      rw [hg]
      obtain ⟨k1, k2⟩ := hpm f off (List.mem_of_getElem? hg)
      exact seg_ok k1 k2 (hsome i f off hg)
  · have hi0 : i = 0 := by
      have : i < b.segs := by
        by_contra hc
        rw [List.getElem?_eq_none (by omega)] at hx; cases hx
      omega
    subst hi0
    have hv := hsome 0 f off hx
    have hv := congrArg Txn.funcNum hv
    simp only [Txn.view, Bus.mask, img, hb, if_true] at hv
    rw [elem_field]
    show field 2 0 (if b.funcNum = true then t.funcNum else 0) = _
    rw [if_pos hb, ← hv]
    have hlt := hfun hb
    rw [h1] at hlt
    simp only [field, Nat.zero_mul, Nat.shiftRight_zero, Nat.and_two_pow_sub_one_eq_mod]
    rw [Nat.mod_eq_of_lt (by omega), Nat.mod_eq_of_lt (by omega)]

theorem run_layout {b : Bus} (hl : 0 < b.lanes) (hs : 0 < b.segs) : ∀ (evs : List Ev) (c : Option (S10Frame × Nat)) (q : List S10Frame),
    Stream.Mid len c → (∀ f ∈ Stream.pend c q ++ s10Sent evs, S10Ok f ∧ s10FuncFits b f) →
    ∃ c' q' ts pss, Src.run b ⟨q, c.map toCur⟩ evs = .ok (⟨q', c'.map toCur⟩, ts) ∧ List.Forall₂ (S10Beat b) ts pss ∧
      (b.segs = 1 → List.Forall₂ (S10BeatFunc b) ts pss) ∧
      (pss.flatMap fun ps => ps.filterMap id) ++ Stream.left len b.lanes c' q' =
        Stream.left len b.lanes c q ++ (s10Sent evs).flatMap fun f => cuts b.lanes f.data.length f
  | [], c, q, hm, hok => ⟨c, q, [], [], rfl, .nil, fun _ => .nil, by simp [s10Sent]⟩
  | .send f :: evs, c, q, hm, hok => by
    have hp : Stream.pend c (q ++ [f]) ++ s10Sent evs = Stream.pend c q ++ s10Sent (.send f :: evs) := by
      simp [Stream.pend, s10Sent]
    obtain ⟨c', q', ts, pss, h1, h2, h3, h4⟩ := run_layout hl hs evs c (q ++ [f]) hm (by rwa [hp])
    refine ⟨c', q', ts, pss, ?_, h2, h3, by rw [h4]; simp [Stream.left, s10Sent]⟩
    simp only [Src.run, Src.step, h1]
    rfl
  | .beat :: evs, c, q, hm, hok => by
    have hst : s10Sent (.beat :: evs) = s10Sent evs := rfl
    rw [hst] at hok ⊢
    by_cases hi : c = none ∧ q = []
    · obtain ⟨rfl, rfl⟩ := hi
      obtain ⟨c', q', ts, pss, h1, h2, h3, h4⟩ := run_layout hl hs evs none [] hm hok
      refine ⟨c', q', ts, pss, ?_, h2, h3, h4⟩
      simp only [Option.map_none] at h1
      simp [Src.run, Src.step, h1]
    · obtain ⟨t, t', b1, b2, b3, b4⟩ := beat_layout hl hs hm hi (fun f hf => hok f (List.mem_append_left _ hf))
      obtain ⟨out, _, b6, b5⟩ := Stream.recv_plan (len := len) hl b.segs c q hm
      have hparts := Stream.plan_left (len := len) hl b.segs c q
      obtain ⟨c', q', ts, pss, h1, h2, h3, h4⟩ := run_layout hl hs evs _ _ b5 (by
        intro f hf
        apply hok f
        rw [← b6]
        rcases List.mem_append.mp hf with hf | hf
        · exact List.mem_append_left _ (List.mem_append_right _ hf)
        · exact List.mem_append_right _ hf)
      refine ⟨c', q', t' :: ts, (Stream.plan b.lanes len b.segs c q).1 :: pss, ?_, .cons b3 h2, fun hb => .cons (b4 hb) (h3 hb), ?_⟩
      · have hi' : ¬ (c.map toCur = none ∧ q = []) := by cases c <;> simp_all
        simp only [Src.run, Src.step, if_neg hi', b1, b2, h1]
        rfl
      · rw [List.flatMap_cons, List.append_assoc, h4, ← List.append_assoc, hparts]

/-! ### The sink -/

/-- The frame in progress, with the number of dwords that are missing. -/
def SinkOk (s : Snk) : Prop := ∀ f, s.frame = some f →
  (∀ d ∈ f.data, d < 2 ^ 32) ∧ (∀ p ∈ f.parity, p < 16) ∧ f.parity.length = f.data.length ∧ f.funcNum < 8 ∧ (∀ v ∈ f.vfNum, v < 2048) ∧ f.barRange < 8 ∧ f.err < 2 ∧
    ∃ h, f.data[0]? = some h ∧ f.data.length + s.count = tlpDwords h

theorem field_lt (w i x : Nat) : field w i x < 2 ^ w := by
  rw [field, Nat.and_two_pow_sub_one_eq_mod]; exact Nat.mod_lt _ (Nat.two_pow_pos _)

theorem dwordCount_mod (d : Nat) : dwordCount d = tlpDwords (field 32 0 d) := by
  have tb : ∀ i < 32, d.testBit i = (field 32 0 d).testBit i := by
    intro i hi
    rw [field_testBit]; simp [hi]
  have b29 : (d >>> 29 &&& 7 &&& 1 ≠ 0) ↔ (field 32 0 d).testBit 29 = true := by
    have := and_bit_iff (d >>> 29) 0 3 (by omega)
    rw [Nat.testBit_shiftRight, tb _ (by omega)] at this
    exact this
  have b30 : (d >>> 29 &&& 7 &&& 2 ≠ 0) ↔ (field 32 0 d).testBit 30 = true := by
    have := and_bit_iff (d >>> 29) 1 3 (by omega)
    rw [Nat.testBit_shiftRight, tb _ (by omega)] at this
    exact this
  have b10 : d &&& 0x3ff = field 32 0 d % 1024 := by
    apply Nat.eq_of_testBit_eq; intro i
    rw [show (0x3ff : Nat) = 2 ^ 10 - 1 from rfl, Nat.and_two_pow_sub_one_eq_mod, Nat.testBit_mod_two_pow, show (1024 : Nat) = 2 ^ 10 from rfl,
      Nat.testBit_mod_two_pow]
    by_cases hi : i < 10
    · rw [tb i (by omega)]
    · simp [hi]
  simp only [dwordCount, b29, b30, b10, tlpDwords]
  split <;> split <;> simp

theorem tlpDwords_pos (h : Nat) : 3 ≤ tlpDwords h := by
  unfold tlpDwords
  split <;> omega

/-- The dwords of a segment, added to a frame. -/
theorem onData_eq (b : Bus) (t : Txn) (f : S10Frame) (n seg : Nat) : ∃ d p,
    onData b t f n seg = ({ f with data := f.data ++ (List.range (min b.lanes n)).map (fun k => field 32 k d), parity := f.parity ++ (List.range (min b.lanes n)).map (fun k => field 4 k p) }, n - min b.lanes n) ∧
      d = (t.data >>> (seg * (32 * b.lanes))) &&& (2 ^ (32 * b.lanes) - 1) := by
  refine ⟨_, (t.parity >>> (seg * (32 * b.lanes / 8))) &&& (2 ^ (32 * b.lanes / 8) - 1), ?_, rfl⟩
  unfold onData
  by_cases hn : n > 0
  · rw [if_pos hn, List.range_eq_range', getDwords_eq]
  · have : n = 0 := by omega
    subst this
    simp

theorem getSeg_sink {b : Bus} (hl : 0 < b.lanes) {t : Txn} {s s' : Snk} {seg : Nat} {fs : List S10Frame} (hs : SinkOk s) (h : getSeg b t s seg = .ok (s', fs)) :
    SinkOk s' ∧ ∀ f ∈ fs, S10Ok f := by
  unfold getSeg at h
  split at h
  · cases h; exact ⟨hs, by simp⟩
  split at h
  · cases h
  rename_i s1 hsop
  split at h
  · cases h
  rename_i f hf
  have key : ∃ r : S10Frame × Nat, onData b t f s1.count seg = r ∧ (∀ d ∈ r.1.data, d < 2 ^ 32) ∧ (∀ p ∈ r.1.parity, p < 16) ∧ r.1.parity.length = r.1.data.length ∧
      r.1.funcNum < 8 ∧ (∀ v ∈ r.1.vfNum, v < 2048) ∧ r.1.barRange < 8 ∧ r.1.err < 2 ∧ ∃ h, r.1.data[0]? = some h ∧ r.1.data.length + r.2 = tlpDwords h := by
    obtain ⟨d, p, e, hd⟩ := onData_eq b t f s1.count seg
    refine ⟨_, e, ?_⟩
    have old : (∀ d ∈ f.data, d < 2 ^ 32) → (∀ p ∈ f.parity, p < 16) → f.parity.length = f.data.length →
        (∀ x ∈ f.data ++ (List.range (min b.lanes s1.count)).map (fun k => field 32 k d), x < 2 ^ 32) ∧
        (∀ x ∈ f.parity ++ (List.range (min b.lanes s1.count)).map (fun k => field 4 k p), x < 16) ∧
        (f.parity ++ (List.range (min b.lanes s1.count)).map (fun k => field 4 k p)).length = (f.data ++ (List.range (min b.lanes s1.count)).map (fun k => field 32 k d)).length := by
      intro h1 h2 h3
      refine ⟨fun x hx => ?_, fun x hx => ?_, by simp [h3]⟩
      · rcases List.mem_append.mp hx with hx | hx
        · exact h1 x hx
        · obtain ⟨k, _, rfl⟩ := List.mem_map.mp hx; exact field_lt _ _ _
      · rcases List.mem_append.mp hx with hx | hx
        · exact h2 x hx
        · obtain ⟨k, _, rfl⟩ := List.mem_map.mp hx; exact field_lt 4 _ _
    unfold onSop at hsop
    split at hsop
    · split at hsop
      · cases hsop
      cases hsop
      simp only [Option.some.injEq] at hf
      subst hf
      simp only [List.nil_append] at old
      obtain ⟨o1, o2, o3⟩ := old (by simp) (by simp) (by simp)
      have hc := tlpDwords_pos (field 32 0 d)
      simp only [dwordCount_mod] at o1 o2 o3 ⊢
      rw [← hd] at o1 o2 o3 ⊢
      refine ⟨by simpa using o1, by simpa using o2, by simpa using o3, ?_, ?_, ?_, ?_, field 32 0 d, ?_, ?_⟩
      · exact field_lt 3 seg t.funcNum
      · intro v hv
        split at hv
        · cases hv; exact field_lt 11 seg t.vfNum
        · cases hv
      · exact field_lt 3 seg t.barRange
      · have := field_lt 1 seg t.err
        rw [field, Nat.mul_one] at this
        exact this
      · have hm : 0 < min b.lanes (tlpDwords (field 32 0 d)) := by omega
        simp [hm]
      · simp
    · cases hsop
      obtain ⟨h1, h2, h3, h4, h5, h6, h7, h, h8, h9⟩ := hs f hf
      obtain ⟨o1, o2, o3⟩ := old h1 h2 h3
      refine ⟨o1, o2, o3, h4, h5, h6, h7, h, ?_, ?_⟩
      · show (f.data ++ _)[0]? = _
        rw [List.getElem?_append_left (List.getElem?_eq_some_iff.mp h8).1, h8]
      · simp; omega
  obtain ⟨r, e, h1, h2, h3, h4, h5, h6, h7, hh, h8, h9⟩ := key
  simp only [e] at h
  split at h
  · split at h
    · rename_i hz
      cases h
      refine ⟨fun g hg => (by cases hg), fun g hg => ?_⟩
      rw [List.mem_singleton.mp hg]
      exact ⟨h1, ⟨hh, h8, by omega⟩, h2, h3, h4, h5, h6, h7⟩
    · cases h
  · cases h
    refine ⟨fun f hf => ?_, by simp⟩
    cases hf
    exact ⟨h1, h2, h3, h4, h5, h6, h7, hh, h8, h9⟩

theorem getSegs_sink {b : Bus} (hl : 0 < b.lanes) {t : Txn} : ∀ (l : List Nat) (s : Snk) {s' : Snk} {fs : List S10Frame}, SinkOk s → getSegs b t s l = .ok (s', fs) →
    SinkOk s' ∧ ∀ f ∈ fs, S10Ok f
  | [], s, s', fs, hs, h => by cases h; exact ⟨hs, by simp⟩
  | seg :: l, s, s', fs, hs, h => by
    rw [getSegs] at h
    split at h
    · cases h
    rename_i s1 f1 h1
    split at h
    · cases h
    rename_i s2 f2 h2
    cases h
    obtain ⟨a1, a2⟩ := getSeg_sink hl hs h1
    obtain ⟨c1, c2⟩ := getSegs_sink hl l s1 a1 h2
    refine ⟨c1, fun f hf => ?_⟩
    rcases List.mem_append.mp hf with hf | hf
    · exact a2 f hf
    · exact c2 f hf

theorem run_sink {b : Bus} (hl : 0 < b.lanes) : ∀ (ts : List Txn) (s : Snk) {s' : Snk} {fs : List S10Frame}, SinkOk s → Snk.run b s ts = .ok (s', fs) →
    SinkOk s' ∧ ∀ f ∈ fs, S10Ok f
  | [], s, s', fs, hs, h => by cases h; exact ⟨hs, by simp⟩
  | t :: ts, s, s', fs, hs, h => by
    rw [Snk.run] at h
    split at h
    · cases h
    rename_i s1 f1 h1
    split at h
    · cases h
    rename_i s2 f2 h2
    cases h
    obtain ⟨a1, a2⟩ := getSegs_sink hl _ s hs h1
    obtain ⟨c1, c2⟩ := run_sink hl ts s1 a1 h2
    refine ⟨c1, fun f hf => ?_⟩
    rcases List.mem_append.mp hf with hf | hf
    · exact a2 f hf
    · exact c2 f hf

end S10

namespace PTile
open S10 (field_lt)

theorem seg_ok {b : Bus} {t : Txn} {i : Nat} {f : PTileFrame} {off : Nat} (h : PTileOk f) (ho : off = 0 ∨ off < f.data.length) (hv : t.view b i = b.mask (img b f off)) :
    PTileSeg b t i f off := by
  simp only [Txn.view, Bus.mask, img, Txn.mk.injEq] at hv
  obtain ⟨v1, v2, v3, v4, v5, v6, v7, v8, v9, v10, v11, v12, v13, v14, v15⟩ := hv
  constructor
  · rw [elem_field, v5]
  · rw [elem_field, v3]
  · rw [elem_field, v4]
  · intro h0; rw [elem_field, v12, if_pos h0]
  · intro h0; rw [elem_field, v13, if_pos h0]
  · intro hb h0; rw [elem_field, v14, if_pos hb, if_pos h0]
  · intro hb h0; rw [elem_field, v15, if_pos hb, if_pos h0]
  · intro k hk
    rw [elem_sub _ _ _ _ _ hk, v1, field_pack h.data _ _ _ hk]
  · intro hb k hk
    rw [elem_sub _ _ _ _ _ hk, v11, if_pos hb, field_pack (w := 4) h.parity _ _ _ hk]
  · intro hb hne
    rw [elem_field, v2, if_pos hb]
    have : 0 < f.data.length := List.length_pos_iff.mpr hne
    simp only [ne_eq, hne, not_false_eq_true, true_and]
    split <;> omega
  · intro hb; rw [elem_field, v6, if_pos hb]
  · intro hb; rw [elem_field, v7, if_pos hb]
  · intro hb; rw [elem_field, v9, if_pos hb]
  · intro hb; rw [elem_field, v8, if_pos hb]
  · intro hb; rw [elem_field, v10, if_pos hb]

theorem beat_layout {b : Bus} (hl : 0 < b.lanes) (hs : 0 < b.segs) {c : Option (PTileFrame × Nat)} {q : List PTileFrame} (hm : Stream.Mid len c) (hi : ¬ (c = none ∧ q = []))
    (hok : ∀ f ∈ Stream.pend c q, PTileOk f) :
    ∃ t t', putSegs b (List.range b.segs) {} (c.map toCur) q =
        .ok (t, (Stream.plan b.lanes len b.segs c q).2.1.map toCur, (Stream.plan b.lanes len b.segs c q).2.2) ∧
      b.carry t = .ok t' ∧ PTileBeat b t' (Stream.plan b.lanes len b.segs c q).1 := by
  obtain ⟨t, e1, e2, _, e4⟩ := putSegs_eq hl (N := b.segs) b.segs 0 {} c q (by omega) (fits_zero b _) (fun i _ => view_zero b i) hm hok
  have hc := carry_ok e2
  have hpm := plan_mem hl b.segs _ _ hm hok
  have hlen := Stream.plan_length b.lanes len b.segs c q
  rw [← List.range_eq_range'] at e1
  obtain ⟨os, m, p1, p2⟩ := Stream.plan_packed' (len := len) (lanes := b.lanes) b.segs c q
  refine ⟨t, _, e1, hc, ⟨hlen, os, m, p2 hs hi, p1⟩, fun i hi' => ?_⟩
  have hg : (Stream.plan b.lanes len b.segs c q).1[i]? = some (Stream.plan b.lanes len b.segs c q).1[i] := List.getElem?_eq_getElem (by omega)
  cases hx : (Stream.plan b.lanes len b.segs c q).1[i] with
  | none =>
    rw [hx] at hg
    rw [hg]
    have : t.view b (0 + i) = {} := e4 i _ hg
    have := congrArg Txn.valid this
    simp only [Txn.view, Nat.zero_add] at this
    show elem 1 t.valid i = 0
    rw [elem_field, this]
  | some p =>
    obtain ⟨f, off⟩ := p
    rw [hx] at hg
    rw [hg]
    obtain ⟨k1, k2⟩ := hpm f off (List.mem_of_getElem? hg)
    refine seg_ok k1 k2 ?_
    have : t.view b (0 + i) = img b f off := e4 i _ hg
    rw [view_mask, ← this, Nat.zero_add]

theorem run_layout {b : Bus} (hl : 0 < b.lanes) (hs : 0 < b.segs) : ∀ (evs : List Ev) (c : Option (PTileFrame × Nat)) (q : List PTileFrame),
    Stream.Mid len c → (∀ f ∈ Stream.pend c q ++ ptSent evs, PTileOk f) →
    ∃ c' q' ts pss, Src.run b ⟨q, c.map toCur⟩ evs = .ok (⟨q', c'.map toCur⟩, ts) ∧ List.Forall₂ (PTileBeat b) ts pss ∧
      (pss.flatMap fun ps => ps.filterMap id) ++ Stream.left len b.lanes c' q' =
        Stream.left len b.lanes c q ++ (ptSent evs).flatMap fun f => cuts b.lanes f.data.length f
  | [], c, q, hm, hok => ⟨c, q, [], [], rfl, .nil, by simp [ptSent]⟩
  | .send f :: evs, c, q, hm, hok => by
    have hp : Stream.pend c (q ++ [f]) ++ ptSent evs = Stream.pend c q ++ ptSent (.send f :: evs) := by
      simp [Stream.pend, ptSent]
    obtain ⟨c', q', ts, pss, h1, h2, h4⟩ := run_layout hl hs evs c (q ++ [f]) hm (by rwa [hp])
    refine ⟨c', q', ts, pss, ?_, h2, by rw [h4]; simp [Stream.left, ptSent]⟩
    simp only [Src.run, Src.step, h1]
    rfl
  | .beat :: evs, c, q, hm, hok => by
    have hst : ptSent (.beat :: evs) = ptSent evs := rfl
    rw [hst] at hok ⊢
    by_cases hi : c = none ∧ q = []
    · obtain ⟨rfl, rfl⟩ := hi
      obtain ⟨c', q', ts, pss, h1, h2, h4⟩ := run_layout hl hs evs none [] hm hok
      refine ⟨c', q', ts, pss, ?_, h2, h4⟩
      simp only [Option.map_none] at h1
      simp [Src.run, Src.step, h1]
    · obtain ⟨t, t', b1, b2, b3⟩ := beat_layout hl hs hm hi (fun f hf => hok f (List.mem_append_left _ hf))
      obtain ⟨out, _, b6, b5⟩ := Stream.recv_plan (len := len) hl b.segs c q hm
      have hparts := Stream.plan_left (len := len) hl b.segs c q
      obtain ⟨c', q', ts, pss, h1, h2, h4⟩ := run_layout hl hs evs _ _ b5 (by
        intro f hf
        apply hok f
        rw [← b6]
        rcases List.mem_append.mp hf with hf | hf
        · exact List.mem_append_left _ (List.mem_append_right _ hf)
        · exact List.mem_append_right _ hf)
      refine ⟨c', q', t' :: ts, (Stream.plan b.lanes len b.segs c q).1 :: pss, ?_, .cons b3 h2, ?_⟩
      · have hi' : ¬ (c.map toCur = none ∧ q = []) := by cases c <;> simp_all
        simp only [Src.run, Src.step, if_neg hi', b1, b2, h1]
        rfl
      · rw [List.flatMap_cons, List.append_assoc, h4, ← List.append_assoc, hparts]

/-! ### The sink -/

/-- The frame in progress, with the number of dwords that are missing. -/
structure SinkOk (n : Nat) (f : PTileFrame) : Prop where
  prfx : f.prfx < 2 ^ 32
  hdr : f.hdr < 2 ^ 128
  data : ∀ d ∈ f.data, d < 2 ^ 32
  length : f.data.length + n = hdrDwords f.hdr
  prfxPar : f.prfxPar < 16
  hdrPar : f.hdrPar < 2 ^ 16
  parity : ∀ p ∈ f.parity, p < 16
  parityLength : f.parity.length = f.data.length
  func : f.funcNum < 8
  vf : ∀ v ∈ f.vfNum, v < 2048
  bar : f.barRange < 8
  err : f.err < 2

theorem onData_ok {b : Bus} {t : Txn} {f : PTileFrame} {n seg : Nat} (h : SinkOk n f) : SinkOk (onData b t f n seg).2 (onData b t f n seg).1 := by
  unfold onData
  split
  · rw [List.range_eq_range', getDwords_eq]
    refine ⟨h.prfx, h.hdr, ?_, ?_, h.prfxPar, h.hdrPar, ?_, ?_, h.func, h.vf, h.bar, h.err⟩
    · intro x hx
      rcases List.mem_append.mp hx with hx | hx
      · exact h.data x hx
      · obtain ⟨k, _, rfl⟩ := List.mem_map.mp hx; exact field_lt _ _ _
    · have := h.length
      simp; omega
    · intro x hx
      rcases List.mem_append.mp hx with hx | hx
      · exact h.parity x hx
      · obtain ⟨k, _, rfl⟩ := List.mem_map.mp hx; exact field_lt 4 _ _
    · simp [h.parityLength]
  · exact h

theorem onSop_ok {t : Txn} {s s' : Snk} {seg : Nat} (hs : ∀ f, s.frame = some f → SinkOk s.count f) (h : onSop t s seg = .ok s') :
    ∀ f, s'.frame = some f → SinkOk s'.count f := by
  unfold onSop at h
  split at h
  · split at h
    · cases h
    cases h
    intro f hf
    simp only [Option.some.injEq] at hf
    subst hf
    refine ⟨field_lt 32 seg t.prfx, field_lt 128 seg t.hdr, by simp, ?_, field_lt 4 seg t.prfxPar, field_lt 16 seg t.hdrPar, by simp, rfl, field_lt 3 seg t.funcNum, ?_,
      field_lt 3 seg t.barRange, ?_⟩
    · rw [dwordCount_eq]; simp
    · intro v hv
      split at hv
      · cases hv; exact field_lt 11 seg t.vfNum
      · cases hv
    · have := field_lt 1 seg t.err
      rw [field, Nat.mul_one] at this
      exact this
  · cases h; exact hs

theorem getSeg_sink {b : Bus} {t : Txn} {s s' : Snk} {seg : Nat} {fs : List PTileFrame} (hs : ∀ f, s.frame = some f → SinkOk s.count f) (h : getSeg b t s seg = .ok (s', fs)) :
    (∀ f, s'.frame = some f → SinkOk s'.count f) ∧ ∀ f ∈ fs, PTileOk f := by
  unfold getSeg at h
  split at h
  · cases h; exact ⟨hs, by simp⟩
  split at h
  · cases h
  rename_i s1 hsop
  split at h
  · cases h
  rename_i f hf
  have key := onData_ok (b := b) (t := t) (seg := seg) (onSop_ok hs hsop f hf)
  generalize onData b t f s1.count seg = r at key h
  dsimp only at h
  split at h
  · split at h
    · rename_i hz
      cases h
      refine ⟨fun g hg => (by cases hg), fun g hg => ?_⟩
      rw [List.mem_singleton.mp hg]
      obtain ⟨k1, k2, k3, k4, k5, k6, k7, k8, k9, k10, k11, k12⟩ := key
      exact ⟨k1, k2, k3, by omega, k5, k6, k7, k8, k9, k10, k11, k12⟩
    · cases h
  · cases h
    refine ⟨fun g hg => ?_, by simp⟩
    cases hg
    exact key

theorem getSegs_sink {b : Bus} {t : Txn} : ∀ (l : List Nat) (s : Snk) {s' : Snk} {fs : List PTileFrame}, (∀ f, s.frame = some f → SinkOk s.count f) →
    getSegs b t s l = .ok (s', fs) → (∀ f, s'.frame = some f → SinkOk s'.count f) ∧ ∀ f ∈ fs, PTileOk f
  | [], s, s', fs, hs, h => by cases h; exact ⟨hs, by simp⟩
  | seg :: l, s, s', fs, hs, h => by
    rw [getSegs] at h
    split at h
    · cases h
    rename_i s1 f1 h1
    split at h
    · cases h
    rename_i s2 f2 h2
    cases h
    obtain ⟨a1, a2⟩ := getSeg_sink hs h1
    obtain ⟨c1, c2⟩ := getSegs_sink l s1 a1 h2
    refine ⟨c1, fun f hf => ?_⟩
    rcases List.mem_append.mp hf with hf | hf
    · exact a2 f hf
    · exact c2 f hf

theorem run_sink {b : Bus} : ∀ (ts : List Txn) (s : Snk) {s' : Snk} {fs : List PTileFrame}, (∀ f, s.frame = some f → SinkOk s.count f) → Snk.run b s ts = .ok (s', fs) →
    (∀ f, s'.frame = some f → SinkOk s'.count f) ∧ ∀ f ∈ fs, PTileOk f
  | [], s, s', fs, hs, h => by cases h; exact ⟨hs, by simp⟩
  | t :: ts, s, s', fs, hs, h => by
    rw [Snk.run] at h
    split at h
    · cases h
    rename_i s1 f1 h1
    split at h
    · cases h
    rename_i s2 f2 h2
    cases h
    obtain ⟨a1, a2⟩ := getSegs_sink _ s hs h1
    obtain ⟨c1, c2⟩ := run_sink ts s1 a1 h2
    refine ⟨c1, fun f hf => ?_⟩
    rcases List.mem_append.mp hf with hf | hf
    · exact a2 f hf
    · exact c2 f hf

end PTile
end Pcie
