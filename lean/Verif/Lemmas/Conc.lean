import Verif.Spec.Conc
import Verif.Props.Tag
import Verif.Props.Memory
import Verif.Lemmas.BeRange
import Verif.Lemmas.DmaSys
namespace Pcie
open Spec
namespace Conc

variable {σ : Type}

/-! ### Operations that have no answer yet -/

/-- A completion that ends any operation. -/
def dummy : Tlp := { status := CplStatus.UR }

theorem dummy_ends (r : Tlp) : CompleteAnswer r [dummy] :=
  ⟨[], dummy, rfl, by unfold Op.ends; rw [if_pos (by decide)], by simp⟩

def liftOp (sv : List Nat) (i : Nat) (x : Op) : Op := if i ∈ sv then x else { x with answers := [dummy] }
def liftNet (sv : List Nat) (i : Nat) (n : List Tlp) : List Tlp := if i ∈ sv then n else [dummy]

/-- The requester with the operations not answered so far answered by an error. -/
def lift (sv : List Nat) (o : Ops) : Ops := { o with ops := o.ops.mapIdx (liftOp sv), net := o.net.mapIdx (liftNet sv) }

theorem liftOp_same (sv : List Nat) (i : Nat) (x : Op) : (liftOp sv i x).req = x.req ∧ (liftOp sv i x).tag = x.tag ∧ (liftOp sv i x).finished = x.finished ∧ (liftOp sv i x).got = x.got := by
  unfold liftOp; split <;> exact ⟨rfl, rfl, rfl, rfl⟩

theorem mapIdx_set {α β : Type} (f : Nat → α → β) (l : List α) (i : Nat) (y : α) : (l.set i y).mapIdx f = (l.mapIdx f).set i (f i y) := by
  apply List.ext_getElem?
  intro j
  simp only [List.getElem?_mapIdx, List.getElem?_set, List.length_mapIdx]
  by_cases h : i = j
  · subst h
    by_cases h2 : i < l.length <;> simp [h2]
  · simp [h]

theorem lift_get (sv : List Nat) (o : Ops) (i : Nat) : (lift sv o).ops[i]? = o.ops[i]?.map (liftOp sv i) := List.getElem?_mapIdx
theorem lift_net (sv : List Nat) (o : Ops) (i : Nat) : (lift sv o).net[i]? = o.net[i]?.map (liftNet sv i) := List.getElem?_mapIdx

theorem lift_start {sv : List Nat} {o : Ops} (hl : o.net.length = o.ops.length) (hs : o.ops.length ∉ sv) (req : Tlp) (n : Nat) :
    (lift sv o).step (.start req [dummy] n) = (o.step (.start req [] n)).map (lift sv) := by
  unfold Ops.step lift
  simp only
  cases ha : o.pool.alloc n with
  | none => rfl
  | some p =>
    obtain ⟨tag, pool⟩ := p
    simp only [Except.map, List.mapIdx_append, hl, Except.ok.injEq, Ops.mk.injEq, true_and, List.append_cancel_left_eq]
    simp [liftOp, liftNet, hs]

theorem lift_arrive {sv : List Nat} {o : Ops} {i : Nat} (hi : i ∈ sv) : (lift sv o).step (.arrive i) = (o.step (.arrive i)).map (lift sv) := by
  unfold Ops.step
  simp only [lift_get, lift_net]
  cases h1 : o.ops[i]? with
  | none => rfl
  | some x =>
    cases h2 : o.net[i]? with
    | none => rfl
    | some l =>
      have e1 : liftOp sv i x = x := if_pos hi
      have e2 : ∀ l, liftNet sv i l = l := fun l => if_pos hi
      simp only [Option.map_some, e1, e2]
      cases l with
      | nil => rfl
      | cons c rest =>
        simp only [Except.map, Except.ok.injEq, lift, mapIdx_set, e2]

theorem arrive_idle {o : Ops} {i : Nat} (h : ∀ x, o.ops[i]? = some x → o.net[i]? = some []) : o.step (.arrive i) = .ok o := by
  unfold Ops.step
  simp only
  cases h1 : o.ops[i]? with
  | none => rfl
  | some x => rw [h x h1]

theorem lift_recv (sv : List Nat) (o : Ops) (i : Nat) : (lift sv o).step (.recv i) = (o.step (.recv i)).map (lift sv) := by
  unfold Ops.step
  simp only [lift_get]
  cases h1 : o.ops[i]? with
  | none => rfl
  | some x =>
    obtain ⟨e1, e2, e3, e4⟩ := liftOp_same sv i x
    simp only [Option.map_some, e1, e2, e3, e4]
    have hq : (lift sv o).queue = o.queue := rfl
    have hp : (lift sv o).pool = o.pool := rfl
    rw [hq, hp]
    cases hf : x.finished with
    | true => rfl
    | false =>
      simp only [Bool.false_eq_true, if_false]
      cases hqq : o.queue x.tag with
      | nil => rfl
      | cons c rest =>
        simp only
        by_cases he : Op.ends x.req c.2 = true
        · simp only [he, if_true]
          cases hr : o.pool.release x.tag with
          | error e => rfl
          | ok pool =>
            simp only [Except.map, lift, mapIdx_set]
            unfold liftOp
            by_cases hi : i ∈ sv <;> simp only [hi, if_true, if_false]
        · simp only [he, Bool.false_eq_true, if_false]
          simp only [Except.map, lift, mapIdx_set]
          unfold liftOp
          by_cases hi : i ∈ sv <;> simp only [hi, if_true, if_false, hf]

/-- The answers of an operation become known. -/
theorem answer_inv {o : Ops} (h : o.Inv) {i : Nat} {x : Op} {d : Tlp} (hx : o.ops[i]? = some x) (ha : x.answers = [d]) (hn : o.net[i]? = some [d]) {ans : List Tlp}
    (hc : CompleteAnswer x.req ans) : (answer o i ans).Inv := by
  have hf : x.finished = false := by
    cases hf : x.finished with
    | false => rfl
    | true => have := (h.ended i x hx hf).net; rw [hn] at this; cases this
  obtain ⟨l1, ⟨n, l2, l2'⟩, l3, l4⟩ := h.live i x hx hf
  rw [hn] at l2
  injection l2 with l2
  subst l2
  rw [ha] at l2'
  have hnil : x.got.map (·.2) ++ (o.queue x.tag).map (·.2) = [] := by
    have := congrArg List.length l2'
    simp only [List.length_append, List.length_cons, List.length_nil, List.length_map] at this
    rw [List.append_eq_nil_iff]
    exact ⟨List.length_eq_zero_iff.mp (by rw [List.length_map]; omega), List.length_eq_zero_iff.mp (by rw [List.length_map]; omega)⟩
  rw [List.append_eq_nil_iff, List.map_eq_nil_iff, List.map_eq_nil_iff] at hnil
  have get : ∀ (j : Nat) (y : Op), (answer o i ans).ops[j]? = some y → (j = i ∧ y = { x with answers := ans }) ∨ (j ≠ i ∧ o.ops[j]? = some y) := by
    intro j y hy
    unfold answer at hy
    simp only [List.getElem?_modify] at hy
    by_cases hj : i = j
    · subst hj; rw [hx] at hy; simp at hy; exact .inl ⟨rfl, hy.symm⟩
    · refine .inr ⟨fun h => hj h.symm, ?_⟩
      cases hoj : o.ops[j]? with
      | none => rw [hoj] at hy; cases hy
      | some z => rw [hoj] at hy; simpa [hj] using hy
  have net : ∀ j, j ≠ i → (answer o i ans).net[j]? = o.net[j]? := by
    intro j hj
    unfold answer
    simp only [List.getElem?_set]
    rw [if_neg (fun h => hj h.symm)]
  have neti : (answer o i ans).net[i]? = some ans := by
    unfold answer
    have : i < o.net.length := by rw [h.len]; exact (List.getElem?_eq_some_iff.mp hx).1
    simp [this]
  refine ⟨by unfold answer; simp [h.len], h.act, ?_, ?_, ?_, ?_, h.free⟩
  · intro j y hy
    rcases get j y hy with ⟨rfl, rfl⟩ | ⟨-, hy⟩
    · exact ⟨hc, (h.complete _ x hx).2⟩
    · exact h.complete j y hy
  · intro j y hy hfy
    rcases get j y hy with ⟨rfl, rfl⟩ | ⟨hj, hy⟩
    · refine ⟨l1, ⟨ans, neti, ?_⟩, l3, l4⟩
      show ans = x.got.map (·.2) ++ (o.queue x.tag).map (·.2) ++ ans
      rw [hnil.1, hnil.2]; rfl
    · obtain ⟨m1, ⟨n', m2, m2'⟩, m3, m4⟩ := h.live j y hy hfy
      exact ⟨m1, ⟨n', by rw [net j hj]; exact m2, m2'⟩, m3, m4⟩
  · intro j y hy hfy
    rcases get j y hy with ⟨rfl, rfl⟩ | ⟨hj, hy⟩
    · rw [show ({ x with answers := ans } : Op).finished = x.finished from rfl, hf] at hfy; cases hfy
    · obtain ⟨m1, m2, m3⟩ := h.ended j y hy hfy
      exact ⟨by rw [net j hj]; exact m1, m2, m3⟩
  · intro j k y z hy hz hfy hfz ht
    have red : ∀ (j : Nat) (y : Op), (answer o i ans).ops[j]? = some y → ∃ y' : Op, o.ops[j]? = some y' ∧ y'.finished = y.finished ∧ y'.tag = y.tag := by
      intro j y hy
      rcases get j y hy with ⟨rfl, rfl⟩ | ⟨-, hy⟩
      · exact ⟨x, hx, rfl, rfl⟩
      · exact ⟨y, hy, rfl, rfl⟩
    obtain ⟨y', a1, a2, a3⟩ := red j y hy
    obtain ⟨z', b1, b2, b3⟩ := red k z hz
    exact h.uniq j k y' z' a1 b1 (a2 ▸ hfy) (b2 ▸ hfz) (by rw [a3, b3]; exact ht)

theorem lift_answer {sv : List Nat} {o : Ops} {i : Nat} (hi : i ∉ sv) (ans : List Tlp) : lift (sv ++ [i]) (answer o i ans) = answer (lift sv o) i ans := by
  unfold lift answer
  simp only [Ops.mk.injEq, true_and]
  constructor
  · apply List.ext_getElem?
    intro j
    simp only [List.getElem?_mapIdx, List.getElem?_modify]
    cases o.ops[j]? with
    | none => rfl
    | some y =>
      by_cases h : i = j
      · subst h; simp [liftOp, hi]
      · have : j ≠ i := fun e => h e.symm
        simp [liftOp, h, this]
  · apply List.ext_getElem?
    intro j
    simp only [List.getElem?_mapIdx, List.getElem?_set, List.length_mapIdx]
    by_cases h : i = j
    · subst h
      by_cases h2 : i < o.net.length <;> simp [liftNet, h2]
    · have : j ≠ i := fun e => h e.symm
      simp only [h, if_false]
      cases o.net[j]? with
      | none => rfl
      | some y => simp [liftNet, this]

/-! ### Reads -/

theorem legal_complete {M : Mem} {rcb mps addr r : Nat} {cpls : List Tlp} (h : LegalCpls M rcb mps addr r cpls) {req : Tlp} (hr : IsRead req) : CompleteAnswer req cpls := by
  have hmr : Region.isMemRead req = true := by
    unfold Region.isMemRead
    rcases hr with h | h <;> simp [h]
  induction h with
  | last addr r c h0 hs hf hla hbc hl hmp hh =>
    have hoff : c.lower_address &&& 3 = addr % 4 := by rw [hla, and_m2]; omega
    refine ⟨[], c, rfl, ?_, by simp⟩
    unfold Op.ends
    rw [if_neg (by rw [hs]; simp), if_pos hmr]
    exact decide_eq_true (.inl (by rw [hbc, hoff, hl]; omega))
  | more addr r c rest hs hf hla hbc hl hgt hmp hb hh hrest ih =>
    obtain ⟨pre, last, rfl, h1, h2⟩ := ih
    have hoff : c.lower_address &&& 3 = addr % 4 := by rw [hla, and_m2]; omega
    refine ⟨c :: pre, last, rfl, h1, ?_⟩
    intro x hx
    rcases List.mem_cons.mp hx with rfl | hx
    · unfold Op.ends
      rw [if_neg (by rw [hs]; simp), if_pos hmr]
      refine decide_eq_false ?_
      rw [hbc, hoff, hf]
      rintro (h | h | h)
      · omega
      · cases h
      · cases h
    · exact h2 x hx

theorem readOk_isRead {k : Nat} {t : Tlp} (h : ReadOk k t) : IsRead t := by
  have := h.type
  by_cases ha : t.address < 2 ^ 32
  · rw [if_pos ha] at this; exact .inl this
  · rw [if_neg ha] at this; exact .inr this

theorem writeOk_isWrite {k : Nat} {t : Tlp} (h : WriteOk k t) : IsWrite t := by
  have := h.type
  by_cases ha : t.address < 2 ^ 32
  · rw [if_pos ha] at this; exact .inl this
  · rw [if_neg ha] at this; exact .inr this

theorem reads_some {k : Nat} {t : Tlp} (h : ReadOk k t) (hb : BeLegal t) : ∃ first n, ReadsBytes t first n :=
  ⟨_, _, readOk_isRead h, hb, _, firstEnabled_offset t hb, lastEnabled_offset t hb, rfl⟩

/-! ### The invariant -/

/-- A read request of the addresses `lo .. hi - 1`. -/
def ReadIn (rid : PcieId) (lo hi : Nat) (t : Tlp) : Prop := (∃ k, ReadOk k t) ∧ BeLegal t ∧ lo ≤ t.address ∧ t.address + 4 * t.length ≤ hi ∧ From rid t
def WriteIn (rid : PcieId) (lo hi : Nat) (t : Tlp) : Prop := (∃ k, WriteOk k t) ∧ lo ≤ t.address ∧ t.address + 4 * t.length ≤ hi ∧ From rid t

theorem ReadIn.tag {rid : PcieId} {lo hi : Nat} {t : Tlp} (h : ReadIn rid lo hi t) {g : Nat} (hg : g < 256) : ReadIn rid lo hi { t with tag := g } := by
  obtain ⟨⟨k, h1⟩, h2, h3, h4, h5, h6, -⟩ := h
  exact ⟨⟨k, ⟨h1.1, h1.2, h1.3, h1.4, h1.5, h1.6, h1.7, h1.8⟩⟩, h2, h3, h4, h5, h6, hg⟩

def nums (s : Conc σ) : List Nat := s.unsent ++ s.link.filterMap (·.1) ++ s.served

structure I (view : σ → Mem) (Good : σ → Prop) (rid : PcieId) (lo hi : Nat) (m0 : Mem) (s : Conc σ) : Prop where
  good : Good s.mem
  mem : ∀ a, ByteAfter m0 a (actsOf view s.log) (view s.mem a)
  fifo : handledReqs s.log ++ s.link = s.sent
  srv : (handledReqs s.log).filterMap (·.1) = s.served
  ops : (lift s.served s.ops).Inv
  idle : ∀ (i : Nat) (o : Op), s.ops.ops[i]? = some o → i ∉ s.served → s.ops.net[i]? = some []
  req : ∀ (i : Nat) (o : Op), s.ops.ops[i]? = some o → ReadIn rid lo hi o.req
  nodup : s.nums.Nodup
  bound : ∀ i ∈ s.nums, i < s.ops.ops.length
  linkR : ∀ (i : Nat) (t : Tlp), (some i, t) ∈ s.link → ∃ o : Op, s.ops.ops[i]? = some o ∧ t = { o.req with tag := o.tag }
  linkW : ∀ t, (none, t) ∈ s.link → WriteIn rid lo hi t
  done : ∀ (i : Nat) (o : Op), s.ops.ops[i]? = some o → i ∈ s.served → ∃ pre post M rcb mps first n, s.log = pre ++ .req (some i) { o.req with tag := o.tag } :: post ∧
    ReadsBytes o.req first n ∧ LegalCpls M rcb mps first n o.answers ∧ ∀ a, ByteAfter m0 a (actsOf view pre) (M a)
  rd : ∀ i t, (some i, t) ∈ s.sent → IsRead t

theorem init_i {view : σ → Mem} {Good : σ → Prop} (rid : PcieId) (lo hi : Nat) (m : σ) (hm : Good m) : I view Good rid lo hi (view m) { mem := m } where
  good := hm
  mem := fun _ => .start
  fifo := rfl
  srv := rfl
  ops := Ops.inv_init
  idle := fun i o h => by cases h
  req := fun i o h => by cases h
  nodup := List.nodup_nil
  bound := fun i h => by cases h
  linkR := fun i t h => by cases h
  linkW := fun t h => by cases h
  done := fun i o h => by cases h
  rd := fun i t h => by cases h

theorem actsOf_append (view : σ → Mem) (a b : List (ConcAct σ)) : actsOf view (a ++ b) = actsOf view a ++ actsOf view b := List.map_append ..
theorem handledReqs_append (a b : List (ConcAct σ)) : handledReqs (a ++ b) = handledReqs a ++ handledReqs b := List.filterMap_append ..

theorem lift_len (sv : List Nat) (o : Ops) : (lift sv o).ops.length = o.ops.length ∧ (lift sv o).net.length = o.net.length := by
  unfold lift; simp

theorem i_start {view : σ → Mem} {Good : σ → Prop} {rid : PcieId} {lo hi : Nat} {m0 : Mem} {s : Conc σ} (h : I view Good rid lo hi m0 s) (C : Completer σ) {t : Tlp} {n : Nat} (hn : n ≤ 256)
    (ht : ReadIn rid lo hi t) : ∃ s', s.step C (.start t n) = some (.ok s') ∧ I view Good rid lo hi m0 s' := by
  have hlen : s.ops.net.length = s.ops.ops.length := by
    have := h.ops.len
    rw [(lift_len _ _).1, (lift_len _ _).2] at this; exact this
  have hnew : s.ops.ops.length ∉ s.nums := fun hm => Nat.lt_irrefl _ (h.bound _ hm)
  have hsv : s.ops.ops.length ∉ s.served := fun hm => hnew (List.mem_append_right _ hm)
  obtain ⟨o', e1, e2⟩ := Ops.start_inv h.ops t [dummy] n (dummy_ends t) hn
  rw [lift_start hlen hsv] at e1
  unfold step
  simp only
  cases ha : s.ops.pool.alloc n with
  | none =>
    have e : s.ops.step (.start t [] n) = .ok s.ops := by unfold Ops.step; simp only [ha]
    rw [e]
    refine ⟨_, rfl, ?_⟩
    simp only [gt_iff_lt, Nat.lt_irrefl, if_false]
    exact h
  | some p =>
    obtain ⟨tag, pool⟩ := p
    have e : s.ops.step (.start t [] n) = .ok { s.ops with pool := pool, ops := s.ops.ops ++ [{ tag := tag, req := t, answers := [] }], net := s.ops.net ++ [[]] } := by
      unfold Ops.step; simp only [ha]
    rw [e] at e1 ⊢
    have hinv : (lift s.served { s.ops with pool := pool, ops := s.ops.ops ++ [{ tag := tag, req := t, answers := [] }], net := s.ops.net ++ [[]] }).Inv := by
      injection e1 with e1; rw [e1]; exact e2
    refine ⟨_, rfl, ?_⟩
    simp only [List.length_append, List.length_cons, List.length_nil, Nat.zero_add, gt_iff_lt, Nat.lt_add_one, if_true]
    have get : ∀ (j : Nat) (y : Op), (s.ops.ops ++ [{ tag := tag, req := t, answers := [] }])[j]? = some y → (s.ops.ops[j]? = some y) ∨ (j = s.ops.ops.length ∧ y = { tag := tag, req := t, answers := [] }) := by
      intro j y hy
      rcases Nat.lt_or_ge j s.ops.ops.length with hj | hj
      · rw [List.getElem?_append_left hj] at hy; exact .inl hy
      · rw [List.getElem?_append_right hj] at hy
        have hj0 : j - s.ops.ops.length = 0 := by
          rcases Nat.eq_zero_or_pos (j - s.ops.ops.length) with h0 | h0
          · exact h0
          · rw [List.getElem?_eq_none (by simp only [List.length_cons, List.length_nil]; omega)] at hy; cases hy
        rw [hj0] at hy
        simp at hy
        exact .inr ⟨by omega, hy.symm⟩
    have hperm : ((s.unsent ++ [s.ops.ops.length]) ++ s.link.filterMap (·.1) ++ s.served).Perm (s.ops.ops.length :: s.nums) := by
      unfold nums
      rw [List.append_assoc, List.append_assoc, List.append_assoc]
      exact List.perm_middle
    refine ⟨h.good, h.mem, h.fifo, h.srv, hinv, ?_, ?_, ?_, ?_, ?_, h.linkW, ?_, h.rd⟩
    · intro i o ho hi
      rcases get i o ho with ho | ⟨rfl, rfl⟩
      · show (s.ops.net ++ [[]])[i]? = some []
        rw [List.getElem?_append_left (by rw [hlen]; exact (List.getElem?_eq_some_iff.mp ho).1)]
        exact h.idle i o ho hi
      · show (s.ops.net ++ [[]])[s.ops.ops.length]? = some []
        rw [← hlen]; simp
    · intro i o ho
      rcases get i o ho with ho | ⟨rfl, rfl⟩
      · exact h.req i o ho
      · exact ht
    · exact hperm.nodup_iff.mpr (List.nodup_cons.mpr ⟨hnew, h.nodup⟩)
    · intro i hi
      show i < (s.ops.ops ++ _).length
      rw [List.length_append]
      rcases List.mem_cons.mp (hperm.mem_iff.mp hi) with rfl | hi
      · simp
      · exact Nat.lt_of_lt_of_le (h.bound i hi) (Nat.le_add_right ..)
    · intro i t' hm
      obtain ⟨o, ho, e⟩ := h.linkR i t' hm
      exact ⟨o, by show (s.ops.ops ++ _)[i]? = _; rw [List.getElem?_append_left (List.getElem?_eq_some_iff.mp ho).1]; exact ho, e⟩
    · intro i o ho hi
      rcases get i o ho with ho | ⟨rfl, rfl⟩
      · exact h.done i o ho hi
      · exact absurd hi hsv

theorem tag_lt {view : σ → Mem} {Good : σ → Prop} {rid : PcieId} {lo hi : Nat} {m0 : Mem} {s : Conc σ} (h : I view Good rid lo hi m0 s) {i : Nat} {o : Op} (ho : s.ops.ops[i]? = some o) :
    o.tag < 256 := by
  have := (h.ops.complete i (liftOp s.served i o) (by rw [lift_get, ho]; rfl)).2
  rw [(liftOp_same s.served i o).2.1] at this
  exact this

theorem i_send {view : σ → Mem} {Good : σ → Prop} {rid : PcieId} {lo hi : Nat} {m0 : Mem} {s : Conc σ} (h : I view Good rid lo hi m0 s) {i : Nat} {o : Op} (ho : s.ops.ops[i]? = some o)
    (hu : i ∈ s.unsent) : I view Good rid lo hi m0
      { s with unsent := s.unsent.erase i, link := s.link ++ [(some i, { o.req with tag := o.tag })], sent := s.sent ++ [(some i, { o.req with tag := o.tag })] } := by
  have hperm : (s.unsent.erase i ++ (s.link ++ [((some i, { o.req with tag := o.tag }) : Option Nat × Tlp)]).filterMap (·.1) ++ s.served).Perm s.nums := by
    unfold nums
    rw [List.filterMap_append]
    refine List.Perm.append_right _ ?_
    refine List.Perm.trans ?_ (List.Perm.append_right _ (List.perm_cons_erase hu).symm)
    rw [← List.append_assoc]
    exact List.perm_append_comm
  refine ⟨h.good, h.mem, ?_, h.srv, h.ops, h.idle, h.req, ?_, ?_, ?_, ?_, h.done, ?_⟩
  · show handledReqs s.log ++ (s.link ++ _) = s.sent ++ _
    rw [← List.append_assoc, h.fifo]
  · exact hperm.nodup_iff.mpr h.nodup
  · intro j hj; exact h.bound j (hperm.mem_iff.mp hj)
  · intro j t hm
    rcases List.mem_append.mp hm with hm | hm
    · exact h.linkR j t hm
    · have := List.mem_singleton.mp hm
      injection this with a b
      injection a with a
      subst a
      exact ⟨o, ho, b⟩
  · intro t hm
    rcases List.mem_append.mp hm with hm | hm
    · exact h.linkW t hm
    · have := List.mem_singleton.mp hm
      injection this with a b
      cases a
  · intro j t hm
    rcases List.mem_append.mp hm with hm | hm
    · exact h.rd j t hm
    · have := List.mem_singleton.mp hm
      injection this with a b
      subst b
      obtain ⟨⟨k, r⟩, -⟩ := (h.req i o ho).tag (tag_lt h ho)
      exact readOk_isRead r

theorem i_post {view : σ → Mem} {Good : σ → Prop} {rid : PcieId} {lo hi : Nat} {m0 : Mem} {s : Conc σ} (h : I view Good rid lo hi m0 s) {t : Tlp} (ht : WriteIn rid lo hi t) :
    I view Good rid lo hi m0 { s with link := s.link ++ [(none, t)], sent := s.sent ++ [(none, t)] } := by
  have hn : ((s.link ++ [((none, t) : Option Nat × Tlp)]).filterMap (·.1) : List Nat) = s.link.filterMap (·.1) := by rw [List.filterMap_append]; simp
  refine ⟨h.good, h.mem, ?_, h.srv, h.ops, h.idle, h.req, ?_, ?_, ?_, ?_, h.done, ?_⟩
  · show handledReqs s.log ++ (s.link ++ _) = s.sent ++ _
    rw [← List.append_assoc, h.fifo]
  · show (s.unsent ++ (s.link ++ [((none, t) : Option Nat × Tlp)]).filterMap (·.1) ++ s.served).Nodup
    rw [hn]; exact h.nodup
  · show ∀ i ∈ (s.unsent ++ (s.link ++ [((none, t) : Option Nat × Tlp)]).filterMap (·.1) ++ s.served), _
    rw [hn]; exact h.bound
  · intro j t' hm
    rcases List.mem_append.mp hm with hm | hm
    · exact h.linkR j t' hm
    · have := List.mem_singleton.mp hm
      injection this with a b
      cases a
  · intro t' hm
    rcases List.mem_append.mp hm with hm | hm
    · exact h.linkW t' hm
    · have := List.mem_singleton.mp hm
      injection this with a b
      exact b ▸ ht
  · intro j t' hm
    rcases List.mem_append.mp hm with hm | hm
    · exact h.rd j t' hm
    · have := List.mem_singleton.mp hm
      injection this with a b
      cases a

/-- More in the log does not change what is known about the operations answered. -/
theorem done_grow {view : σ → Mem} {m0 : Mem} {log : List (ConcAct σ)} {i : Nat} {o : Op} (x : List (ConcAct σ))
    (h : ∃ pre post M rcb mps first n, log = pre ++ .req (some i) { o.req with tag := o.tag } :: post ∧
      ReadsBytes o.req first n ∧ LegalCpls M rcb mps first n o.answers ∧ ∀ a, ByteAfter m0 a (actsOf view pre) (M a)) :
    ∃ pre post M rcb mps first n, log ++ x = pre ++ .req (some i) { o.req with tag := o.tag } :: post ∧
      ReadsBytes o.req first n ∧ LegalCpls M rcb mps first n o.answers ∧ ∀ a, ByteAfter m0 a (actsOf view pre) (M a) := by
  obtain ⟨pre, post, M, rcb, mps, first, n, e, h⟩ := h
  exact ⟨pre, post ++ x, M, rcb, mps, first, n, by rw [e]; simp, h⟩

theorem i_other {view : σ → Mem} {Good : σ → Prop} {rid : PcieId} {lo hi : Nat} {m0 : Mem} {s : Conc σ} (h : I view Good rid lo hi m0 s) {m : σ} (hm : Good m) :
    I view Good rid lo hi m0 { s with mem := m, log := s.log ++ [.other m] } := by
  have he : handledReqs (s.log ++ [.other m]) = handledReqs s.log := by rw [handledReqs_append]; exact List.append_nil _
  refine ⟨hm, ?_, ?_, ?_, h.ops, h.idle, h.req, h.nodup, h.bound, h.linkR, h.linkW, fun i o h1 h2 => done_grow _ (h.done i o h1 h2), h.rd⟩
  · intro a
    show ByteAfter m0 a (actsOf view (s.log ++ [.other m])) (view m a)
    rw [actsOf_append]
    exact .other _ _
  · show handledReqs (s.log ++ [.other m]) ++ s.link = _
    rw [he]; exact h.fifo
  · show (handledReqs (s.log ++ [.other m])).filterMap (·.1) = _
    rw [he]; exact h.srv

theorem i_write {C : Completer σ} {view : σ → Mem} {Good : σ → Prop} {rid : PcieId} {lo hi : Nat} (hC : ServesMem C view Good rid lo hi) {m0 : Mem} {s : Conc σ} (h : I view Good rid lo hi m0 s)
    {t : Tlp} {rest : List (Option Nat × Tlp)} (hl : s.link = (none, t) :: rest) :
    ∃ m, C.write s.mem t = .ok m ∧ I view Good rid lo hi m0 { s with link := rest, mem := m, log := s.log ++ [.req none t] } := by
  obtain ⟨⟨k, w1⟩, w2, w3, w4⟩ := h.linkW t (by rw [hl]; exact List.mem_cons_self ..)
  obtain ⟨m, e1, e2, e3, e4⟩ := hC.write s.mem t k h.good w1 w2 w3 w4
  have hn : s.link.filterMap (·.1) = (rest.filterMap (·.1) : List Nat) := by rw [hl]; rfl
  have he : handledReqs (s.log ++ [.req none t]) = handledReqs s.log ++ [(none, t)] := handledReqs_append ..
  refine ⟨m, e1, e2, ?_, ?_, ?_, h.ops, h.idle, h.req, ?_, ?_, ?_, ?_, fun i o h1 h2 => done_grow _ (h.done i o h1 h2), h.rd⟩
  · intro a
    show ByteAfter m0 a (actsOf view (s.log ++ [.req none t])) (view m a)
    rw [actsOf_append]
    by_cases hb : byteEnabled t a
    · have e : t.address + (a - t.address) = a := Nat.add_sub_cancel' hb.1
      refine .write _ t _ (writeOk_isWrite w1) hb ?_
      have := e3 (a - t.address) (by rw [e]; exact hb)
      rw [e] at this; exact this
    · refine .keep _ t _ (fun h => hb h.2) ?_
      rw [e4 a (by rintro ⟨i, rfl, h⟩; exact hb h)]
      exact h.mem a
  · show handledReqs (s.log ++ [.req none t]) ++ rest = s.sent
    rw [he, ← h.fifo, hl, List.append_assoc]; rfl
  · show (handledReqs (s.log ++ [.req none t])).filterMap (·.1) = s.served
    rw [he, List.filterMap_append, h.srv]; exact List.append_nil _
  · show (s.unsent ++ rest.filterMap (·.1) ++ s.served).Nodup
    rw [← hn]; exact h.nodup
  · show ∀ i ∈ (s.unsent ++ rest.filterMap (·.1) ++ s.served), _
    rw [← hn]; exact h.bound
  · intro i t' hm; exact h.linkR i t' (by rw [hl]; exact List.mem_cons_of_mem _ hm)
  · intro t' hm; exact h.linkW t' (by rw [hl]; exact List.mem_cons_of_mem _ hm)

theorem i_read {C : Completer σ} {view : σ → Mem} {Good : σ → Prop} {rid : PcieId} {lo hi : Nat} (hC : ServesMem C view Good rid lo hi) {m0 : Mem} {s : Conc σ} (h : I view Good rid lo hi m0 s)
    {i : Nat} {t : Tlp} {rest : List (Option Nat × Tlp)} (hl : s.link = (some i, t) :: rest) :
    ∃ ans, C.read s.mem t = .ok ans ∧
      I view Good rid lo hi m0 { s with link := rest, ops := answer s.ops i ans, served := s.served ++ [i], log := s.log ++ [.req (some i) t] } := by
  obtain ⟨o, ho, rfl⟩ := h.linkR i t (by rw [hl]; exact List.mem_cons_self ..)
  have hreq := h.req i o ho
  obtain ⟨⟨k, r1⟩, r2, r3, r4, r5⟩ := hreq.tag (tag_lt h ho)
  obtain ⟨first, n, hrb⟩ := reads_some r1 r2
  obtain ⟨ans, rcb, mps, e1, e2⟩ := hC.read s.mem _ k first n h.good r1 hrb r3 r4 r5
  have hn : s.link.filterMap (·.1) = i :: (rest.filterMap (·.1) : List Nat) := by rw [hl]; rfl
  have hperm : (s.unsent ++ rest.filterMap (·.1) ++ (s.served ++ [i])).Perm s.nums := by
    unfold nums
    rw [hn, ← List.append_assoc]
    refine List.perm_append_comm.trans ?_
    rw [List.append_assoc, List.append_assoc]
    exact (List.perm_middle (l₁ := s.unsent) (l₂ := rest.filterMap (·.1) ++ s.served) (a := i)).symm
  have hns : i ∉ s.served := by
    have := h.nodup
    unfold nums at this
    rw [hn] at this
    intro hm
    exact List.disjoint_of_nodup_append this (List.mem_append_right _ (List.mem_cons_self ..)) hm
  have he : handledReqs (s.log ++ [.req (some i) { o.req with tag := o.tag }]) = handledReqs s.log ++ [(some i, { o.req with tag := o.tag })] := handledReqs_append ..
  have get : ∀ (j : Nat) (y : Op), (answer s.ops i ans).ops[j]? = some y → (j = i ∧ y = { o with answers := ans }) ∨ (j ≠ i ∧ s.ops.ops[j]? = some y) := by
    intro j y hy
    unfold answer at hy
    simp only [List.getElem?_modify] at hy
    by_cases hj : i = j
    · subst hj; rw [ho] at hy; simp at hy; exact .inl ⟨rfl, hy.symm⟩
    · refine .inr ⟨fun h => hj h.symm, ?_⟩
      cases hoj : s.ops.ops[j]? with
      | none => rw [hoj] at hy; cases hy
      | some z => rw [hoj] at hy; simpa [hj] using hy
  have keep : ∀ (j : Nat) (y : Op), s.ops.ops[j]? = some y → ∃ y' : Op, (answer s.ops i ans).ops[j]? = some y' ∧ y'.req = y.req ∧ y'.tag = y.tag := by
    intro j y hy
    unfold answer
    simp only [List.getElem?_modify, hy]
    by_cases hj : i = j
    · exact ⟨{ y with answers := ans }, by simp [hj], rfl, rfl⟩
    · exact ⟨y, by simp [hj], rfl, rfl⟩
  refine ⟨ans, e1, h.good, ?_, ?_, ?_, ?_, ?_, ?_, ?_, ?_, ?_, ?_, ?_, h.rd⟩
  · intro a
    show ByteAfter m0 a (actsOf view (s.log ++ [.req (some i) _])) (view s.mem a)
    rw [actsOf_append]
    refine .keep _ _ _ (fun hw => ?_) (h.mem a)
    rcases readOk_isRead r1 with h1 | h1 <;> rcases hw.1 with h2 | h2 <;> rw [h1] at h2 <;> cases h2
  · show handledReqs (s.log ++ [.req (some i) _]) ++ rest = s.sent
    rw [he, ← h.fifo, hl, List.append_assoc]; rfl
  · show (handledReqs (s.log ++ [.req (some i) _])).filterMap (·.1) = s.served ++ [i]
    rw [he, List.filterMap_append, h.srv]; rfl
  · show (lift (s.served ++ [i]) (answer s.ops i ans)).Inv
    rw [lift_answer hns]
    refine answer_inv h.ops (x := liftOp s.served i o) (d := dummy) ?_ ?_ ?_ ?_
    · rw [lift_get, ho]; rfl
    · unfold liftOp; rw [if_neg hns]
    · rw [lift_net, h.idle i o ho hns]; unfold liftNet; simp [hns]
    · rw [(liftOp_same _ _ _).1]
      exact legal_complete e2 (readOk_isRead hreq.1.choose_spec)
  · intro j y hy hj
    rcases get j y hy with ⟨rfl, rfl⟩ | ⟨hji, hy⟩
    · exact absurd (List.mem_append_right _ (List.mem_singleton_self _)) hj
    · show ((s.ops.net).set i ans)[j]? = some []
      rw [List.getElem?_set, if_neg (fun h => hji h.symm)]
      exact h.idle j y hy (fun hm => hj (List.mem_append_left _ hm))
  · intro j y hy
    rcases get j y hy with ⟨rfl, rfl⟩ | ⟨-, hy⟩
    · exact hreq
    · exact h.req j y hy
  · exact hperm.nodup_iff.mpr h.nodup
  · intro j hj
    show j < ((s.ops.ops).modify i _).length
    rw [List.length_modify]
    exact h.bound j (hperm.mem_iff.mp hj)
  · intro j t' hm
    obtain ⟨y, hy, rfl⟩ := h.linkR j t' (by rw [hl]; exact List.mem_cons_of_mem _ hm)
    obtain ⟨y', k1, k2, k3⟩ := keep j y hy
    exact ⟨y', k1, by rw [k2, k3]⟩
  · intro t' hm; exact h.linkW t' (by rw [hl]; exact List.mem_cons_of_mem _ hm)
  · intro j y hy hj
    rcases get j y hy with ⟨rfl, rfl⟩ | ⟨hji, hy⟩
    · exact ⟨s.log, [], view s.mem, rcb, mps, first, n, rfl, hrb, e2, h.mem⟩
    · refine done_grow _ (h.done j y hy ?_)
      rcases List.mem_append.mp hj with hj | hj
      · exact hj
      · exact absurd (List.mem_singleton.mp hj) hji

theorem i_ops {view : σ → Mem} {Good : σ → Prop} {rid : PcieId} {lo hi : Nat} {m0 : Mem} {s : Conc σ} (h : I view Good rid lo hi m0 s) {o' : Ops} (h1 : (lift s.served o').Inv)
    (h2 : o'.ops.map (fun x => (x.req, x.tag, x.answers)) = s.ops.ops.map (fun x => (x.req, x.tag, x.answers)))
    (h3 : ∀ i, i ∉ s.served → o'.net[i]? = s.ops.net[i]?) : I view Good rid lo hi m0 { s with ops := o' } := by
  have back : ∀ (j : Nat) (y : Op), o'.ops[j]? = some y → ∃ x : Op, s.ops.ops[j]? = some x ∧ x.req = y.req ∧ x.tag = y.tag ∧ x.answers = y.answers := by
    intro j y hy
    have := congrArg (·[j]?) h2
    simp only [List.getElem?_map, hy, Option.map_some] at this
    cases hx : s.ops.ops[j]? with
    | none => rw [hx] at this; cases this
    | some x =>
      rw [hx] at this
      simp only [Option.map_some, Option.some.injEq, Prod.mk.injEq] at this
      exact ⟨x, rfl, this.1.symm, this.2.1.symm, this.2.2.symm⟩
  have fwd : ∀ (j : Nat) (y : Op), s.ops.ops[j]? = some y → ∃ x : Op, o'.ops[j]? = some x ∧ x.req = y.req ∧ x.tag = y.tag := by
    intro j y hy
    have := congrArg (·[j]?) h2
    simp only [List.getElem?_map, hy, Option.map_some] at this
    cases hx : o'.ops[j]? with
    | none => rw [hx] at this; cases this
    | some x =>
      rw [hx] at this
      simp only [Option.map_some, Option.some.injEq, Prod.mk.injEq] at this
      exact ⟨x, rfl, this.1, this.2.1⟩
  have hlen : o'.ops.length = s.ops.ops.length := by simpa using congrArg List.length h2
  refine ⟨h.good, h.mem, h.fifo, h.srv, h1, ?_, ?_, h.nodup, ?_, ?_, h.linkW, ?_, h.rd⟩
  · intro i o ho hi
    obtain ⟨x, hx, -⟩ := back i o ho
    show o'.net[i]? = _
    rw [h3 i hi]; exact h.idle i x hx hi
  · intro i o ho
    obtain ⟨x, hx, e, -⟩ := back i o ho
    exact e ▸ h.req i x hx
  · intro i hi
    show i < o'.ops.length
    rw [hlen]; exact h.bound i hi
  · intro i t hm
    obtain ⟨o, ho, rfl⟩ := h.linkR i t hm
    obtain ⟨x, hx, e1, e2⟩ := fwd i o ho
    exact ⟨x, hx, by rw [e1, e2]⟩
  · intro i o ho hi
    obtain ⟨x, hx, e1, e2, e3⟩ := back i o ho
    have := h.done i x hx hi
    rw [e1, e2, e3] at this
    exact this

theorem recv_same {o o' : Ops} {i : Nat} (h : o.step (.recv i) = .ok o') :
    o'.ops.map (fun x => (x.req, x.tag, x.answers)) = o.ops.map (fun x => (x.req, x.tag, x.answers)) ∧ o'.net = o.net := by
  have key : ∀ (x y : Op), o.ops[i]? = some x → (y.req, y.tag, y.answers) = (x.req, x.tag, x.answers) →
      (o.ops.set i y).map (fun x => (x.req, x.tag, x.answers)) = o.ops.map (fun x => (x.req, x.tag, x.answers)) := by
    intro x y hx hy
    rw [List.map_set]
    apply List.ext_getElem?
    intro j
    rw [List.getElem?_set]
    by_cases hj : i = j
    · subst hj
      obtain ⟨hlt, -⟩ := List.getElem?_eq_some_iff.mp hx
      simp only [if_true, List.length_map, hlt, List.getElem?_map, hx, Option.map_some]
      rw [hy]
    · rw [if_neg hj]
  unfold Ops.step at h
  simp only at h
  cases hx : o.ops[i]? with
  | none => rw [hx] at h; injection h with h; subst h; exact ⟨rfl, rfl⟩
  | some x =>
    rw [hx] at h
    simp only at h
    cases hf : x.finished with
    | true => rw [hf] at h; simp only [if_true] at h; injection h with h; subst h; exact ⟨rfl, rfl⟩
    | false =>
      rw [hf] at h
      simp only [Bool.false_eq_true, if_false] at h
      cases hq : o.queue x.tag with
      | nil => rw [hq] at h; injection h with h; subst h; exact ⟨rfl, rfl⟩
      | cons c rest =>
        rw [hq] at h
        simp only at h
        by_cases he : Op.ends x.req c.2 = true
        · simp only [he, if_true] at h
          cases hr : o.pool.release x.tag with
          | error e => rw [hr] at h; cases h
          | ok pool => rw [hr] at h; injection h with h; subst h; exact ⟨key x _ hx rfl, rfl⟩
        · simp only [he, Bool.false_eq_true, if_false] at h
          injection h with h; subst h; exact ⟨key x _ hx rfl, rfl⟩

theorem arrive_same {o o' : Ops} {i : Nat} (h : o.step (.arrive i) = .ok o') : o'.ops = o.ops ∧ ∀ j, j ≠ i → o'.net[j]? = o.net[j]? := by
  unfold Ops.step at h
  simp only at h
  split at h
  · injection h with h; subst h
    refine ⟨rfl, fun j hj => ?_⟩
    show (o.net.set i _)[j]? = _
    rw [List.getElem?_set, if_neg (fun h => hj h.symm)]
  · injection h with h; subst h; exact ⟨rfl, fun _ _ => rfl⟩

theorem step_i {C : Completer σ} {view : σ → Mem} {Good : σ → Prop} {rid : PcieId} {lo hi : Nat} (hC : ServesMem C view Good rid lo hi) {m0 : Mem} {s : Conc σ} (h : I view Good rid lo hi m0 s)
    {e : ConcEv σ} (he : TaskOk Good rid lo hi e) : s.step C e = none ∨ ∃ s', s.step C e = some (.ok s') ∧ I view Good rid lo hi m0 s' := by
  cases e with
  | start t n => exact .inr (i_start h C he.1 he.2)
  | send i =>
    unfold step
    simp only
    cases ho : s.ops.ops[i]? with
    | none => exact .inl rfl
    | some o =>
      simp only
      by_cases hi : i ∈ s.unsent
      · rw [if_pos hi]; exact .inr ⟨_, rfl, i_send h ho hi⟩
      · rw [if_neg hi]; exact .inl rfl
  | post t => exact .inr ⟨_, rfl, i_post h he⟩
  | handle =>
    unfold step
    simp only
    cases hl : s.link with
    | nil => exact .inl rfl
    | cons x rest =>
      obtain ⟨j, t⟩ := x
      cases j with
      | none =>
        obtain ⟨m, e1, e2⟩ := i_write hC h hl
        simp only [e1]
        exact .inr ⟨_, rfl, e2⟩
      | some i =>
        obtain ⟨m, e1, e2⟩ := i_read hC h hl
        simp only [e1]
        exact .inr ⟨_, rfl, e2⟩
  | other m => exact .inr ⟨_, rfl, i_other h he⟩
  | arrive i =>
    refine .inr ?_
    unfold step
    simp only
    by_cases hi : i ∈ s.served
    · obtain ⟨o', e1, e2⟩ := Ops.arrive_inv h.ops i
      rw [lift_arrive hi] at e1
      cases hs : s.ops.step (.arrive i) with
      | error e => rw [hs] at e1; cases e1
      | ok o2 =>
        rw [hs] at e1
        injection e1 with e1
        obtain ⟨k1, k2⟩ := arrive_same hs
        exact ⟨_, rfl, i_ops h (by rw [e1]; exact e2) (by rw [k1]) (fun j hj => k2 j (fun h => hj (h ▸ hi)))⟩
    · rw [arrive_idle (fun x hx => h.idle i x hx hi)]
      exact ⟨_, rfl, h⟩
  | recv i =>
    refine .inr ?_
    unfold step
    simp only
    obtain ⟨o', e1, e2⟩ := Ops.recv_inv h.ops i
    rw [lift_recv] at e1
    cases hs : s.ops.step (.recv i) with
    | error e => rw [hs] at e1; cases e1
    | ok o2 =>
      rw [hs] at e1
      injection e1 with e1
      obtain ⟨k1, k2⟩ := recv_same hs
      exact ⟨_, rfl, i_ops h (by rw [e1]; exact e2) k1 (fun j _ => by rw [k2])⟩

theorem run_i {C : Completer σ} {view : σ → Mem} {Good : σ → Prop} {rid : PcieId} {lo hi : Nat} (hC : ServesMem C view Good rid lo hi) {m0 : Mem} : ∀ (es : List (ConcEv σ)) {s : Conc σ},
    I view Good rid lo hi m0 s → (∀ e ∈ es, TaskOk Good rid lo hi e) → s.run C es = none ∨ ∃ s', s.run C es = some (.ok s') ∧ I view Good rid lo hi m0 s'
  | [], s, h, _ => .inr ⟨s, rfl, h⟩
  | e :: es, s, h, he => by
    unfold run
    rcases step_i hC h (he e (List.mem_cons_self ..)) with h1 | ⟨s', h1, h2⟩
    · rw [h1]; exact .inl rfl
    · rw [h1]; exact run_i hC es h2 (fun x hx => he x (List.mem_cons_of_mem _ hx))

/-- A finished operation has the completions computed when its request was handled. -/
theorem finished {view : σ → Mem} {Good : σ → Prop} {rid : PcieId} {lo hi : Nat} {m0 : Mem} {s : Conc σ} (h : I view Good rid lo hi m0 s) {i : Nat} {o : Op} (ho : s.ops.ops[i]? = some o)
    (hf : o.finished = true) : i ∈ s.served ∧ o.got.map (·.2) = o.answers := by
  have hlo : (lift s.served s.ops).ops[i]? = some (liftOp s.served i o) := by rw [lift_get, ho]; rfl
  obtain ⟨e1, e2, e3⟩ := h.ops.ended i _ hlo (by rw [(liftOp_same _ _ _).2.2.1]; exact hf)
  have hi : i ∈ s.served := by
    by_cases hi : i ∈ s.served
    · exact hi
    · rw [lift_net, h.idle i o ho hi] at e1
      unfold liftNet at e1
      simp [hi] at e1
  refine ⟨hi, ?_⟩
  unfold liftOp at e2
  rw [if_pos hi] at e2
  exact e2

end Conc
end Pcie
