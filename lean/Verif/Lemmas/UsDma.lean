import Verif.Spec.UsDma
import Verif.Lemmas.UsHip
import Verif.Lemmas.BeRange
import Verif.Lemmas.MemRead
namespace Pcie
open Spec
namespace Dma

/-! ### One request -/

/-- A completion as it enters the judgement. -/
def raw (c : Tlp) : UsTlp := { UsTlp.ofTlp c with errorCode := if c.ep then 1 else 0 }

/-- A completion for `r` as the user sees it. -/
def see (r c : Tlp) : UsTlp := (Hip.judge (some r) (raw c)).1

theorem judge_copy (r : Tlp) (u : UsTlp) : Hip.judge (some r.copy) u = Hip.judge (some r) u := rfl

theorem see_tag (r c : Tlp) : (see r c).tlp.tag = c.tag := by
  unfold see; rw [Hip.judge_same]; rfl

theorem see_single {r c : Tlp} (ho : Own r c) (h : c.status ≠ CplStatus.SC ∨ ¬ IsRead r) : SingleSeen c [see r c] := by
  obtain ⟨-, h1, h2, h3, h4⟩ := ho
  refine ⟨see r c, rfl, ?_⟩
  unfold see Hip.judge
  simp only
  rw [if_neg (by simp [raw, UsTlp.ofTlp, Tlp.copy, h1, h3, h4])]
  by_cases hs : c.status = CplStatus.SC
  · have hr : ¬ (r.fmtType = some .MEM_READ ∨ r.fmtType = some .MEM_READ_64) := h.resolve_left (fun hh => hh hs)
    rw [if_neg (by simp [raw, UsTlp.ofTlp, Tlp.copy, hs]), if_neg hr]
    refine ⟨rfl, rfl, ?_⟩
    rw [if_neg (by simp [hs])]; rfl
  · rw [if_pos (by simpa [raw, UsTlp.ofTlp, Tlp.copy] using hs)]
    refine ⟨rfl, rfl, ?_⟩
    rw [if_pos hs]

theorem see_read {r c : Tlp} {addr : Nat} (ho : Own r c) (hr : IsRead r) (he : c.ep = false) (hs : c.status = CplStatus.SC) (hf : c.fmtType = some .CPL_DATA)
    (hl : c.lower_address = addr % 128) (ha : (r.address : Int) + (r.length * 4 - r.lastBeOffset : Int) - c.byte_count = addr) :
    see r c = { UsTlp.ofTlp c with tlp := { c.copy with lower_address := addr % 4096 }, requestCompleted := decide (c.byte_count + addr % 4 ≤ c.length * 4) } := by
  obtain ⟨-, h1, h2, h3, h4⟩ := ho
  unfold IsRead at hr
  unfold see Hip.judge
  simp only
  rw [if_neg (by simp [raw, UsTlp.ofTlp, Tlp.copy, h1, h3, h4]), if_neg (by simp [raw, UsTlp.ofTlp, Tlp.copy, hs]), if_pos hr]
  have e1 : (raw c).tlp.byte_count = c.byte_count := rfl
  have e2 : (raw c).tlp.lower_address = c.lower_address := rfl
  have e3 : (raw c).tlp.fmtType = some .CPL_DATA := hf
  rw [if_neg (by rw [e3]; simp)]
  rw [e1, ha, e2, hl]
  have hne : ¬ (((addr % 128 : Nat) : Int) ≠ (addr : Int) % 128) := by omega
  simp only [if_neg hne]
  have e4 : ((addr : Int) % 4096).toNat = addr % 4096 := by omega
  rw [e4]
  simp only [and_m2]
  have e5 : addr % 4096 % 4 = addr % 4 := by omega
  rw [e5]
  have e6 : (raw c).tlp = c.copy := rfl
  simp only [e6]
  have e7 : c.copy.byte_count = c.byte_count := rfl
  have e8 : c.copy.length = c.length := rfl
  simp only [e7, e8]
  by_cases hc : c.byte_count + addr % 4 ≤ c.length * 4
  · rw [if_pos hc]; simp [hc, raw, UsTlp.ofTlp, he]
  · rw [if_neg hc]; simp [hc, raw, UsTlp.ofTlp, he]

/-- Where the completions of a read are, in terms of the bytes the request asks for. -/
theorem read_low {r : Tlp} {first n : Nat} (h : ReadsBytes r first n) : (r.address : Int) + (r.length * 4 - r.lastBeOffset : Int) = first + n := by
  obtain ⟨-, hb, last, hf, hl, rfl⟩ := h
  obtain ⟨e1, e2⟩ := be_decode r hb first last hf hl
  obtain ⟨b1, b2⟩ := be_count r hb.1
  have b3 := be_first_le r
  have b4 := be_last_le r
  rw [← e2, b1]
  omega

theorem see_legal {r : Tlp} {m : Mem} {rcb mps : Nat} (hr : IsRead r) {first n : Nat} {ans : List Tlp} (h : LegalCpls m rcb mps first n ans)
    (hlow : (r.address : Int) + (r.length * 4 - r.lastBeOffset : Int) = first + n) (ho : ∀ c ∈ ans, Own r c ∧ c.ep = false) :
    ReadSeen m first n (ans.map (see r)) := by
  induction h with
  | last addr n c h0 hs hf hl hb hlen hm hd =>
    obtain ⟨ho, he⟩ := ho c List.mem_cons_self
    have := see_read ho hr he hs hf hl (by rw [hlow, hb]; omega)
    rw [List.map_cons, List.map_nil, this]
    refine .last addr n _ h0 rfl ?_ rfl hb hlen hd
    simp only [decide_eq_true_eq]
    rw [hb, hlen]; omega
  | more addr n c rest hs hf hl hb h0 hgt hm hrcb hd hrest ih =>
    obtain ⟨ho1, he⟩ := ho c List.mem_cons_self
    have := see_read ho1 hr he hs hf hl (by rw [hlow, hb]; omega)
    rw [List.map_cons, this]
    refine .more addr n _ _ rfl ?_ rfl hb h0 hgt hd (ih ?_ fun x hx => ho x (List.mem_cons_of_mem _ hx))
    · simp only [decide_eq_false_iff_not]
      rw [hb]; omega
    · rw [hlow]
      have e : c.copy.length = c.length := rfl
      omega

theorem seen {r : Tlp} {ans : List Tlp} (h : Answers r ans) : Seen r ans (ans.map (see r)) where
  length := by rw [List.length_map]
  tag u hu := by
    obtain ⟨c, hc, rfl⟩ := List.mem_map.mp hu
    rw [see_tag]
    cases h with
    | single c' ho hs => rw [List.mem_singleton.mp hc]; exact ho.2.2.1
    | read m rcb mps first n ans h1 h2 h3 => exact (h3 c hc).1.2.2.1
  single c hc hs := by
    subst hc
    refine see_single ?_ hs
    generalize ha : [c] = ans at h
    cases h with
    | single c' ho hs => cases ha; exact ho
    | read m rcb mps first n ans h1 h2 h3 => subst ha; exact (h3 c List.mem_cons_self).1
  read m rcb mps first n h1 h2 h3 := by
    refine see_legal h1.1 h2 (read_low h1) fun c hc => ⟨?_, h3 c hc⟩
    cases h with
    | single c' ho hs => rw [List.mem_singleton.mp hc]; exact ho
    | read m rcb mps first n ans g1 g2 g3 => exact (g3 c hc).1

theorem ends_legal {r : Tlp} {m : Mem} {rcb mps : Nat} (hr : IsRead r) {first n : Nat} {ans : List Tlp} (h : LegalCpls m rcb mps first n ans)
    (ho : ∀ c ∈ ans, Own r c) : ∀ (i : Nat) (c : Tlp), ans[i]? = some c → endsRequest r c = decide (i + 1 = ans.length) := by
  induction h with
  | last addr n c h0 hs hf hl hb hlen hm hd =>
    intro i c' hi
    obtain ⟨-, h1, h2, h3, h4⟩ := ho c List.mem_cons_self
    cases i with
    | succ i => simp at hi
    | zero =>
      obtain rfl : c = c' := by simpa using hi
      have : c.byte_count + c.lower_address % 4 ≤ c.length * 4 := by rw [hb, hl, hlen]; omega
      simp [endsRequest, h1, h3, h4, this]
  | more addr n c rest hs hf hl hb h0 hgt hm hrcb hd hrest ih =>
    intro i c' hi
    obtain ⟨-, h1, h2, h3, h4⟩ := ho c List.mem_cons_self
    cases i with
    | succ i =>
      rw [ih (fun x hx => ho x (List.mem_cons_of_mem _ hx)) i c' (by simpa using hi)]
      simp
    | zero =>
      obtain rfl : c = c' := by simpa using hi
      have h5 : ¬ c.byte_count + c.lower_address % 4 ≤ c.length * 4 := by rw [hb, hl]; omega
      have h6 : rest ≠ [] := by intro hh; rw [hh] at hrest; cases hrest
      have h7 : ¬ (0 + 1 = (c :: rest).length) := by
        intro hh; apply h6; apply List.eq_nil_of_length_eq_zero; simpa using hh.symm
      have h8 : r.fmtType = some .MEM_READ ∨ r.fmtType = some .MEM_READ_64 := hr
      simp only [h7, decide_false]
      unfold endsRequest
      simp only [h5, hs, hf, h8, ne_eq, not_true, false_or, or_false]
      simp

/-- A request is ended by the last completion of its answer and no other. -/
theorem ends {r : Tlp} {ans : List Tlp} (h : Answers r ans) (i : Nat) (c : Tlp) (hi : ans[i]? = some c) : endsRequest r c = decide (i + 1 = ans.length) := by
  cases h with
  | single c' ho hs =>
    obtain ⟨-, h1, h2, h3, h4⟩ := ho
    cases i with
    | succ i => simp at hi
    | zero =>
      obtain rfl : c' = c := by simpa using hi
      rcases hs with hs | hs
      · simp [endsRequest, h1, h3, h4, hs]
      · have : ¬ (r.fmtType = some .MEM_READ ∨ r.fmtType = some .MEM_READ_64) := hs
        unfold endsRequest
        simp only [h1, h3, h4, this]
        simp
  | read m rcb mps first n ans h1 h2 h3 => exact ends_legal h1.1 h2 (fun c hc => (h3 c hc).1) i c hi

theorem own_of {r : Tlp} {ans : List Tlp} (h : Answers r ans) {c : Tlp} (hc : c ∈ ans) : Own r c := by
  cases h with
  | single c' ho hs => rw [List.mem_singleton.mp hc]; exact ho
  | read m rcb mps first n ans h1 h2 h3 => exact (h3 c hc).1

theorem ans_ne {r : Tlp} {ans : List Tlp} (h : Answers r ans) : 0 < ans.length := by
  cases h with
  | single c' ho hs => simp
  | read m rcb mps first n ans h1 h2 h3 => cases h2 <;> simp

/-! ### The bytes -/

theorem holds_append {m : Mem} {a n k : Nat} {x y : List UInt8} (h1 : Holds m a n x) (h2 : Holds m (a + n) k y) : Holds m a (n + k) (x ++ y) := by
  obtain ⟨l1, b1⟩ := h1
  obtain ⟨l2, b2⟩ := h2
  refine ⟨by rw [List.length_append, l1, l2], fun i hi => ?_⟩
  by_cases hlt : i < x.length
  · rw [List.getElem_append_left hlt, b1 i hlt]
  · rw [List.getElem_append_right (by omega), b2 _ (by rw [List.length_append] at hi; omega)]
    congr 1; omega

theorem holds_drop_take {m : Mem} {a n o k : Nat} {x : List UInt8} (h : Holds m a n x) : Holds m (a + o) (min k (n - o)) ((x.drop o).take k) := by
  obtain ⟨l, b⟩ := h
  refine ⟨by rw [List.length_take, List.length_drop, l], fun i hi => ?_⟩
  rw [List.length_take, List.length_drop] at hi
  rw [List.getElem_take, List.getElem_drop, b _ (by omega)]
  congr 1; omega

theorem seen_bytes {m : Mem} {addr n : Nat} {us : List UsTlp} (h : ReadSeen m addr n us) : Holds m addr n (us.flatMap rcBytes) := by
  induction h with
  | last addr n u h0 he hc hl hb hlen hd =>
    have := holds_drop_take (o := u.tlp.lower_address % 4) (k := u.tlp.byte_count) hd
    rw [List.flatMap_cons, List.flatMap_nil, List.append_nil]
    unfold rcBytes
    have e1 : addr / 4 * 4 + u.tlp.lower_address % 4 = addr := by rw [hl]; omega
    have e2 : min u.tlp.byte_count (4 * u.tlp.length - u.tlp.lower_address % 4) = n := by rw [hl, hb, hlen]; omega
    rwa [e1, e2] at this
  | more addr n u rest he hc hl hb h0 hlt hd hrest ih =>
    have := holds_drop_take (o := u.tlp.lower_address % 4) (k := u.tlp.byte_count) hd
    rw [List.flatMap_cons]
    have e1 : addr / 4 * 4 + u.tlp.lower_address % 4 = addr := by rw [hl]; omega
    have e2 : min u.tlp.byte_count (4 * u.tlp.length - u.tlp.lower_address % 4) = 4 * u.tlp.length - addr % 4 := by rw [hl, hb]; omega
    rw [e1, e2] at this
    have e3 : addr / 4 * 4 + 4 * u.tlp.length = addr + (4 * u.tlp.length - addr % 4) := by omega
    rw [e3] at ih
    have := holds_append this ih
    rwa [show 4 * u.tlp.length - addr % 4 + (addr % 4 + n - 4 * u.tlp.length) = n from by omega] at this

end Dma
end Pcie
