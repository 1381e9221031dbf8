import Verif.Spec.DmaSys
import Verif.Lemmas.UsDmaRun
import Verif.Props.UsDma
import Verif.Props.UsOrder
namespace Pcie
open Spec
namespace DmaSys

/-! ### The memory -/

/-- One action on the memory. -/
def act (m : AddrSpace) : MemAct → AddrSpace
  | .req t => if IsWrite t then Rc.handleMemWrite m t else m
  | .other c => { m with mem := c }

/-- The memory after some actions. -/
def memAfter (m : AddrSpace) (log : List MemAct) : AddrSpace := log.foldl act m

theorem memAfter_snoc (m : AddrSpace) (log : List MemAct) (a : MemAct) : memAfter m (log ++ [a]) = act (memAfter m log) a := by
  unfold memAfter; rw [List.foldl_append]; rfl

theorem applyRuns_same (base : Nat) (data : List UInt8) : ∀ (l : List (Nat × Nat)) (s : AddrSpace), ∃ m, (Rc.applyRuns base data l s).1 = { s with mem := m }
  | [], s => ⟨s.mem, rfl⟩
  | (a, b) :: rest, s => by
    unfold Rc.applyRuns
    split
    · exact ⟨s.mem, rfl⟩
    · next s' h =>
      unfold AddrSpace.write at h
      split at h
      · cases h
        obtain ⟨m, hm⟩ := applyRuns_same base data rest { s with mem := s.mem.write (base + a) (slice data a b) }
        exact ⟨m, hm⟩
      · cases h

theorem act_same (s : AddrSpace) (x : MemAct) : ∃ m, act s x = { s with mem := m } := by
  cases x with
  | other c => exact ⟨c, rfl⟩
  | req t =>
    unfold act
    simp only
    split
    · unfold Rc.handleMemWrite
      split
      · exact ⟨s.mem, rfl⟩
      · split
        · exact ⟨s.mem, rfl⟩
        · exact applyRuns_same _ _ _ _
    · exact ⟨s.mem, rfl⟩

theorem memAfter_same (s : AddrSpace) (log : List MemAct) : ∃ m, memAfter s log = { s with mem := m } := by
  induction log generalizing s with
  | nil => exact ⟨s.mem, rfl⟩
  | cons x log ih =>
    obtain ⟨m, hm⟩ := act_same s x
    obtain ⟨m', hm'⟩ := ih (act s x)
    exact ⟨m', by unfold memAfter at hm' ⊢; rw [List.foldl_cons, hm', hm]⟩

theorem handledOf_append (a b : List MemAct) : handledOf (a ++ b) = handledOf a ++ handledOf b := List.filterMap_append ..

theorem takes_same {s : AddrSpace} {m : Mem} {w : Tlp} (h : Takes s w) : Takes { s with mem := m } w := ⟨h.1, h.2, h.3, h.4, h.5⟩

theorem byteAfter (m : AddrSpace) (a : Nat) : ∀ (log : List MemAct), (∀ w ∈ handledOf log, IsWrite w → Takes m w) → ByteAfter m.mem a log ((memAfter m log).mem a) := by
  intro log
  induction h : log.length generalizing log with
  | zero => intro _; rw [List.length_eq_zero_iff.mp h]; exact .start
  | succ n ih =>
    intro ht
    rcases List.eq_nil_or_concat log with rfl | ⟨l, x, rfl⟩
    · cases h
    · rw [List.concat_eq_append] at ht h ⊢
      rw [memAfter_snoc]
      have hl := ih l (by simpa using h) (fun w hw => ht w (by rw [handledOf_append]; exact List.mem_append_left _ hw))
      cases x with
      | other c => exact .other l c
      | req t =>
        obtain ⟨m', hm'⟩ := memAfter_same m l
        unfold act
        simp only
        by_cases hw : IsWrite t
        · rw [if_pos hw]
          have hT : Takes (memAfter m l) t := by
            rw [hm']; exact takes_same (ht t (by rw [handledOf_append]; simp [handledOf]) hw)
          obtain ⟨m2, h2, h3, h4⟩ := C11_rc_write_tlp (memAfter m l) t hT.1 hT.2 hT.3 hT.4 hT.5
          rw [h2]
          by_cases he : byteEnabled t a
          · have e : t.address + (a - t.address) = a := Nat.add_sub_cancel' he.1
            refine .write l t _ hw he ?_
            have := h3 (a - t.address) (by rw [e]; exact he)
            rw [e] at this; exact this
          · refine .keep l t _ (fun h => he h.2) ?_
            simp only
            rw [h4 a]
            · exact hl
            · rintro ⟨i, rfl, h⟩; exact he h
        · rw [if_neg hw]
          exact .keep l t _ (fun h => hw h.1) hl

theorem byteAfter_unique {m0 : Mem} {a : Nat} {log : List MemAct} {b : UInt8} (h : ByteAfter m0 a log b) : ∀ b', ByteAfter m0 a log b' → b = b' := by
  have inj : ∀ {l l' : List MemAct} {x y : MemAct}, l ++ [x] = l' ++ [y] → l = l' ∧ x = y := by
    intro l l' x y h
    have := List.append_inj' h rfl
    exact ⟨this.1, by simpa using this.2⟩
  induction h with
  | start =>
    intro b' h'
    generalize hl : ([] : List MemAct) = l at h'
    cases h' with
    | start => rfl
    | _ => simp at hl
  | other log m =>
    intro b' h'
    generalize hl : log ++ [MemAct.other m] = l at h'
    cases h' with
    | start => simp at hl
    | other => cases (inj hl).2; rfl
    | write => cases (inj hl).2
    | keep => cases (inj hl).2
  | write log w b h1 h2 h3 =>
    intro b' h'
    generalize hl : log ++ [MemAct.req w] = l at h'
    cases h' with
    | start => simp at hl
    | other => cases (inj hl).2
    | write _ _ _ _ _ h4 => cases (inj hl).2; rw [h3] at h4; exact Option.some.inj h4
    | keep _ _ _ h4 => cases (inj hl).2; exact absurd ⟨h1, h2⟩ h4
  | keep log t b h1 _ ih =>
    intro b' h'
    generalize hl : log ++ [MemAct.req t] = l at h'
    cases h' with
    | start => simp at hl
    | other => cases (inj hl).2
    | write _ _ _ h3 h4 => cases (inj hl).2; exact absurd ⟨h3, h4⟩ h1
    | keep _ _ _ _ h4 => cases (inj hl).2; rw [(inj hl).1] at ih; exact ih _ h4

/-! ### What happens in one step -/

theorem sent_eq (h : List HipObs) : sentTlps h = sentOf h := rfl

theorem sentOf_append (a b : List HipObs) : sentOf (a ++ b) = sentOf a ++ sentOf b := List.filterMap_append ..

theorem sentNp_eq (h : List HipObs) : Dma.sentNp h = (sentOf h).filter (·.isNonposted) := by
  induction h with
  | nil => rfl
  | cons o h ih =>
    cases o with
    | sent t =>
      by_cases hn : t.isNonposted = true
      · simpa [Dma.sentNp, sentOf, hn] using ih
      · simpa [Dma.sentNp, sentOf, hn] using ih
    | _ => simpa [Dma.sentNp, sentOf] using ih

/-- The number of requests among those handled that want an answer. -/
def npCount (log : List MemAct) : Nat := ((handledOf log).filter (·.isNonposted)).length

/-- The answer to request `t` after `log`. -/
structure AnswerAt (cfg : CplCfg) (m0 : AddrSpace) (log : List MemAct) (t : Tlp) (ans : List Tlp) : Prop where
  read : IsRead t → ans = Rc.handleMemRead cfg (memAfter m0 log) t
  other : ¬ IsRead t → Answers t ans

structure I (cfg : CplCfg) (m0 : AddrSpace) (s : DmaSys) : Prop where
  mem : s.mem = memAfter m0 s.log
  fifo : handledOf s.log ++ s.link = sentOf s.hip.hist
  reqs : s.reqs.map (·.req) = (sentOf s.hip.hist).filter (·.isNonposted)
  count : s.served = npCount s.log
  done : ∀ i q, s.reqs[i]? = some q → i < s.served → ∃ b a, s.log = b ++ .req q.req :: a ∧ npCount b = i ∧ AnswerAt cfg m0 b q.req q.ans
  todo : ∀ i q, s.reqs[i]? = some q → s.served ≤ i → q.ans = [] ∧ q.done = 0

/-- How the answers grow. -/
structure Grow (s s' : DmaSys) : Prop where
  served : s.served ≤ s'.served
  ans : ∀ i, i < s.served → s'.reqs[i]?.map (·.ans) = s.reqs[i]?.map (·.ans)

theorem Grow.refl (s : DmaSys) : Grow s s := ⟨Nat.le_refl _, fun _ _ => rfl⟩

theorem Grow.trans {a b c : DmaSys} (h : Grow a b) (h' : Grow b c) : Grow a c :=
  ⟨Nat.le_trans h.1 h'.1, fun i hi => (h'.2 i (Nat.lt_of_lt_of_le hi h.1)).trans (h.2 i hi)⟩

theorem I.len {cfg : CplCfg} {m0 : AddrSpace} {s : DmaSys} (h : I cfg m0 s) : s.served + (s.link.filter (·.isNonposted)).length = s.reqs.length := by
  have h1 := congrArg List.length h.reqs
  rw [← h.fifo, List.length_map, List.filter_append, List.length_append] at h1
  rw [h.count]; unfold npCount; omega

theorem npCount_snoc (log : List MemAct) (t : Tlp) : npCount (log ++ [.req t]) = npCount log + if t.isNonposted then 1 else 0 := by
  unfold npCount
  rw [handledOf_append, List.filter_append, List.length_append]
  congr 1
  by_cases h : t.isNonposted = true <;> simp [handledOf, h]

/-- The next request on the link is the next one to answer. -/
theorem I.next {cfg : CplCfg} {m0 : AddrSpace} {s : DmaSys} (h : I cfg m0 s) {t : Tlp} {rest : List Tlp} (hl : s.link = t :: rest) (hn : t.isNonposted = true) :
    ∃ q, s.reqs[s.served]? = some q ∧ q.req = t := by
  have h1 : (s.reqs.map (·.req))[s.served]? = some t := by
    rw [h.reqs, ← h.fifo, hl, List.filter_append, List.filter_cons_of_pos hn, List.getElem?_append_right (by rw [h.count]; exact Nat.le_refl _), h.count]
    unfold npCount; simp
  rw [List.getElem?_map] at h1
  cases hq : s.reqs[s.served]? with
  | none => rw [hq] at h1; cases h1
  | some q => rw [hq] at h1; exact ⟨q, rfl, Option.some.inj h1⟩

theorem handled_same {log : List MemAct} {t : Tlp} {link rest : List Tlp} {h : List HipObs} (hf : handledOf log ++ link = sentOf h) (hl : link = t :: rest) :
    handledOf (log ++ [.req t]) ++ rest = sentOf h := by
  rw [handledOf_append, ← hf, hl]; simp [handledOf]

theorem answer_i {cfg : CplCfg} {m0 : AddrSpace} {s : DmaSys} (h : I cfg m0 s) {t : Tlp} {rest : List Tlp} (hl : s.link = t :: rest) (hn : t.isNonposted = true) (hw : ¬ IsWrite t) {io : AddrSpace}
    {ans : List Tlp} (ha : AnswerAt cfg m0 s.log t ans) :
    I cfg m0 (answer { s with link := rest, log := s.log ++ [.req t], io := io } ans) ∧ Grow s (answer { s with link := rest, log := s.log ++ [.req t], io := io } ans) := by
  obtain ⟨q, hq, hqt⟩ := h.next hl hn
  have hcnt : npCount (s.log ++ [.req t]) = s.served + 1 := by rw [npCount_snoc, if_pos hn, h.count]
  refine ⟨⟨?_, handled_same h.fifo hl, ?_, hcnt.symm, ?_, ?_⟩, ⟨Nat.le_succ _, ?_⟩⟩
  · show s.mem = memAfter m0 (s.log ++ [.req t])
    rw [memAfter_snoc, h.mem]; unfold act; simp only; rw [if_neg hw]
  · show (s.reqs.modify s.served _).map _ = (sentOf s.hip.hist).filter _
    rw [← h.reqs]
    apply List.ext_getElem?
    intro i
    rw [List.getElem?_map, List.getElem?_modify, List.getElem?_map]
    by_cases hi : s.served = i
    · rw [hi]; cases s.reqs[i]? <;> simp
    · cases s.reqs[i]? <;> simp [hi]
  · intro i x hx hi
    change (s.reqs.modify _ _)[i]? = some x at hx
    change i < s.served + 1 at hi
    rw [List.getElem?_modify] at hx
    by_cases he : s.served = i
    · subst he
      rw [hq] at hx
      simp at hx
      subst hx
      exact ⟨s.log, [], by simp only [hqt]; rfl, h.count.symm, by simp only [hqt]; exact ha⟩
    · have hx' : s.reqs[i]? = some x := by
        cases hr : s.reqs[i]? with
        | none => rw [hr] at hx; cases hx
        | some y =>
          rw [hr] at hx
          simp only [if_neg he, Option.map_eq_map, Option.map_some] at hx
          exact hx
      obtain ⟨b, a, h1, h2, h3⟩ := h.done i x hx' (by omega)
      exact ⟨b, a ++ [.req t], by show s.log ++ _ = _; rw [h1]; simp, h2, h3⟩
  · intro i x hx hi
    change (s.reqs.modify _ _)[i]? = some x at hx
    change s.served + 1 ≤ i at hi
    rw [List.getElem?_modify] at hx
    have hx' : s.reqs[i]? = some x := by
      cases hr : s.reqs[i]? with
      | none => rw [hr] at hx; cases hx
      | some y => rw [hr] at hx; simpa [show s.served ≠ i by omega] using hx
    exact h.todo i x hx' (by omega)
  · intro i hi
    show (s.reqs.modify _ _)[i]?.map _ = _
    rw [List.getElem?_modify]
    cases s.reqs[i]? <;> simp [show s.served ≠ i by omega]

theorem host_i {cfg : CplCfg} {m0 : AddrSpace} {s s' : DmaSys} (h : I cfg m0 s) {t : Tlp} {rest : List Tlp} (hl : s.link = t :: rest)
    (hs : handle cfg { s with link := rest, log := s.log ++ [.req t] } t = .ok s') : I cfg m0 s' ∧ Grow s s' ∧ s'.hip = s.hip := by
  unfold handle at hs
  have np : ∀ {f : TlpType}, t.fmtType = some f → t.isNonposted = decide (f.fcType = some .NP) := by
    intro f hf
    have e : t.isNonposted = decide (t.fmtType.bind TlpType.fcType = some .NP) := rfl
    rw [e, hf]; rfl
  have read : t.fmtType = some .MEM_READ ∨ t.fmtType = some .MEM_READ_64 → s' = answer { s with link := rest, log := s.log ++ [.req t] } (Rc.handleMemRead cfg s.mem t) →
      I cfg m0 s' ∧ Grow s s' ∧ s'.hip = s.hip := by
    intro hr hs'
    subst hs'
    have hn : t.isNonposted = true := by rcases hr with hr | hr <;> rw [np hr] <;> decide
    have hw : ¬ IsWrite t := by
      unfold IsWrite; rcases hr with hr | hr <;> rw [hr] <;> decide
    have := answer_i (io := s.io) h hl hn hw (ans := Rc.handleMemRead cfg s.mem t) ⟨fun _ => by rw [h.mem], fun hx => absurd hr hx⟩
    exact ⟨this.1, this.2, rfl⟩
  have write : t.fmtType = some .MEM_WRITE ∨ t.fmtType = some .MEM_WRITE_64 → s' = { s with link := rest, log := s.log ++ [.req t], mem := Rc.handleMemWrite s.mem t } →
      I cfg m0 s' ∧ Grow s s' ∧ s'.hip = s.hip := by
    intro hr hs'
    subst hs'
    have hn : t.isNonposted = false := by rcases hr with hr | hr <;> rw [np hr] <;> decide
    refine ⟨⟨?_, handled_same h.fifo hl, h.reqs, ?_, ?_, h.todo⟩, ⟨Nat.le_refl _, fun _ _ => rfl⟩, rfl⟩
    · show Rc.handleMemWrite s.mem t = _
      rw [memAfter_snoc, h.mem]; unfold act; simp only; rw [if_pos (show IsWrite t from hr)]
    · show s.served = npCount (s.log ++ [.req t])
      rw [npCount_snoc, hn, h.count]; simp
    · intro i x hx hi
      obtain ⟨b, a, h1, h2, h3⟩ := h.done i x hx hi
      exact ⟨b, a ++ [.req t], by show s.log ++ _ = _; rw [h1]; simp, h2, h3⟩
  split at hs
  · next hf => exact read (.inl hf) (Except.ok.inj hs).symm
  · next hf => exact read (.inr hf) (Except.ok.inj hs).symm
  · next hf => exact write (.inl hf) (Except.ok.inj hs).symm
  · next hf => exact write (.inr hf) (Except.ok.inj hs).symm
  · next hf =>
    have hr : ¬ IsRead t := by unfold IsRead; rw [hf]; decide
    split at hs
    · cases hs
    · next ans ha =>
      have := answer_i (io := s.io) h hl (by rw [np hf]; decide) (by unfold IsWrite; rw [hf]; decide) (ans := ans) ⟨fun hx => absurd hx hr, fun _ => C67_host_io cfg.id s.io s.io t ans hr (.inl ha)⟩
      have hs := Except.ok.inj hs
      subst hs
      exact ⟨this.1, this.2, rfl⟩
  · next hf =>
    have hr : ¬ IsRead t := by unfold IsRead; rw [hf]; decide
    split at hs
    · cases hs
    · next io ans ha =>
      have := answer_i (io := io) h hl (by rw [np hf]; decide) (by unfold IsWrite; rw [hf]; decide) (ans := ans) ⟨fun hx => absurd hx hr, fun _ => C67_host_io cfg.id s.io io t ans hr (.inr ha)⟩
      have hs := Except.ok.inj hs
      subst hs
      exact ⟨this.1, this.2, rfl⟩
  · cases hs

theorem isCpl_iff (e : HipEv) : e.isCpl = false ↔ ∀ c, e ≠ .cpl c := by
  cases e <;> simp [HipEv.isCpl]

theorem dev_i {cfg : CplCfg} {m0 : AddrSpace} {p : HipParams} {s : DmaSys} {h' : Hip} {e : HipEv} (h : I cfg m0 s) (he : ∀ c, e ≠ .cpl c) (hs : s.hip.step p e = some (.ok h')) :
    ∃ o, h'.hist = s.hip.hist ++ o ∧ h'.hist.drop s.hip.hist.length = o ∧ (Dma.sentNp o).length ≤ 1 ∧
    I cfg m0 { s with hip := h', link := s.link ++ sentTlps o, reqs := s.reqs ++ (Dma.sentNp o).map fun t => { req := t, ans := [] } } ∧
    Grow s { s with hip := h', link := s.link ++ sentTlps o, reqs := s.reqs ++ (Dma.sentNp o).map fun t => { req := t, ans := [] } } := by
  obtain ⟨⟨a, b, hq⟩, -⟩ := Dma.dev_obs he hs
  have hle : s.served ≤ s.reqs.length := by have := h.len; omega
  refine ⟨a ++ b, hq.hist, by rw [hq.hist, List.drop_left], ?_, ⟨h.mem, ?_, ?_, h.count, ?_, ?_⟩, ⟨Nat.le_refl _, ?_⟩⟩
  · rw [Dma.sentNp_append]
    have h1 : (Dma.sentNp a).length = 0 := by rcases hq.first with rfl | ⟨t, rfl⟩ <;> rfl
    have h2 : (Dma.sentNp b).length ≤ 1 := by
      rcases hq.second with rfl | ⟨t, rfl⟩ | ⟨t, rfl⟩ | ⟨t, rfl⟩
      · exact Nat.zero_le _
      · exact Nat.zero_le _
      · exact List.length_filterMap_le _ _
      · exact Nat.zero_le _
    rw [List.length_append]; omega
  · show handledOf s.log ++ (s.link ++ sentTlps (a ++ b)) = sentOf h'.hist
    rw [hq.hist, sentOf_append, ← h.fifo, sent_eq, List.append_assoc]
  · show (s.reqs ++ _).map _ = (sentOf h'.hist).filter _
    rw [hq.hist, sentOf_append, List.filter_append, ← h.reqs, ← sentNp_eq, List.map_append, List.map_map]
    congr 1
    exact List.map_id _
  · intro i q hq' hi
    change (s.reqs ++ _)[i]? = some q at hq'
    rw [List.getElem?_append_left (by change i < s.served at hi; omega)] at hq'
    exact h.done i q hq' hi
  · intro i q hq' hi
    change (s.reqs ++ _)[i]? = some q at hq'
    rcases Nat.lt_or_ge i s.reqs.length with hlt | hge
    · rw [List.getElem?_append_left hlt] at hq'
      exact h.todo i q hq' hi
    · rw [List.getElem?_append_right hge, List.getElem?_map] at hq'
      cases hx : (Dma.sentNp (a ++ b))[i - s.reqs.length]? with
      | none => rw [hx] at hq'; cases hq'
      | some t => rw [hx] at hq'; cases hq'; exact ⟨rfl, rfl⟩
  · intro i hi
    show (s.reqs ++ _)[i]?.map _ = _
    rw [List.getElem?_append_left (by omega)]

theorem cpl_i {cfg : CplCfg} {m0 : AddrSpace} {p : HipParams} {s : DmaSys} {h' : Hip} {i : Nat} {q : DmaReq} {c : Tlp} (h : I cfg m0 s) (hq : s.reqs[i]? = some q) (hc : q.ans[q.done]? = some c)
    (hs : s.hip.step p (.cpl c) = some (.ok h')) :
    i < s.served ∧ I cfg m0 { s with hip := h', reqs := s.reqs.set i { q with done := q.done + 1 } } ∧ Grow s { s with hip := h', reqs := s.reqs.set i { q with done := q.done + 1 } } := by
  have hi : i < s.served := by
    rcases Nat.lt_or_ge i s.served with hi | hi
    · exact hi
    · rw [(h.todo i q hq hi).1] at hc; cases hc
  obtain ⟨-, b, hb, hns⟩ := Dma.cpl_funcs hs
  have hso : sentOf h'.hist = sentOf s.hip.hist := by
    rw [hb, sentOf_append]
    have : sentOf b = [] := by
      unfold sentOf
      rw [List.filterMap_eq_nil_iff]
      intro o ho
      cases o with
      | sent t => exact absurd rfl (hns _ ho t)
      | _ => rfl
    rw [this, List.append_nil]
  obtain ⟨hil, hqi⟩ := List.getElem?_eq_some_iff.mp hq
  have get : ∀ (j : Nat) (x : DmaReq), (s.reqs.set i { q with done := q.done + 1 })[j]? = some x → ∃ y, s.reqs[j]? = some y ∧ x.req = y.req ∧ x.ans = y.ans ∧ (j ≠ i → x = y) := by
    intro j x hx
    rw [List.getElem?_set] at hx
    split at hx
    · next hij =>
      subst hij
      cases hx
      exact ⟨q, hq, rfl, rfl, fun hh => absurd rfl hh⟩
    · exact ⟨x, hx, rfl, rfl, fun _ => rfl⟩
  refine ⟨hi, ⟨h.mem, by show _ = sentOf h'.hist; rw [hso]; exact h.fifo, ?_, h.count, ?_, ?_⟩, ⟨Nat.le_refl _, ?_⟩⟩
  · show (s.reqs.set _ _).map _ = (sentOf h'.hist).filter _
    rw [hso, ← h.reqs, List.map_set]
    apply List.ext_getElem?
    intro j
    rw [List.getElem?_set, List.getElem?_map]
    split
    · next hij => subst hij; rw [hq, List.length_map, if_pos hil]; rfl
    · rfl
  · intro j x hx hj
    obtain ⟨y, h1, h2, h3, -⟩ := get j x hx
    obtain ⟨b, a, g1, g2, g3⟩ := h.done j y h1 hj
    exact ⟨b, a, by rw [h2]; exact g1, g2, by rw [h2, h3]; exact g3⟩
  · intro j x hx hj
    obtain ⟨y, h1, h2, h3, h4⟩ := get j x hx
    have hj : s.served ≤ j := hj
    rw [h4 (by omega)]
    exact h.todo j y h1 hj
  · intro j _
    show (s.reqs.set _ _)[j]?.map _ = _
    rw [List.getElem?_set]
    split
    · next hij => subst hij; rw [hq]; rfl
    · rfl

/-! ### The device sees what it would see if the answers were known in advance -/

/-- The device with all its requests, the answers being `fut`. -/
def lift (fut : Nat → List Tlp) (s : DmaSys) : Dma := { hip := s.hip, reqs := s.reqs.mapIdx fun i q => { q with ans := fut i } }

theorem lift_get (fut : Nat → List Tlp) (s : DmaSys) (i : Nat) : (lift fut s).reqs[i]? = s.reqs[i]?.map fun q => { q with ans := fut i } := by
  unfold lift; rw [List.getElem?_mapIdx]

theorem step_sim {cfg : CplCfg} {m0 : AddrSpace} {p : HipParams} {ids : List PcieId} {s s' : DmaSys} {e : SysEv} (h : I cfg m0 s) (hids : KeepsIds ids e) (hs : s.step p cfg e = some (.ok s'))
    (fut : Nat → List Tlp) (hf : ∀ i q, s.reqs[i]? = some q → i < s.served → fut i = q.ans) :
    I cfg m0 s' ∧ Grow s s' ∧ ∃ des, (∀ d ∈ des, SameIds ids d) ∧ ∀ es, Dma.run p (lift fut s) (des ++ es) = Dma.run p (lift fut s') es := by
  cases e with
  | dev e =>
    unfold step at hs
    by_cases hc : e.isCpl = true
    · simp only at hs; rw [if_pos hc] at hs; cases hs
    · simp only at hs
      rw [if_neg hc] at hs
      have he := (isCpl_iff e).mp (by simpa using hc)
      split at hs
      · cases hs
      · cases hs
      · next h' hh =>
        have hs := Except.ok.inj (Option.some.inj hs)
        obtain ⟨o, h1, h2, h3, h4, h5⟩ := dev_i h he hh
        rw [h2] at hs
        subst hs
        refine ⟨h4, h5, [.dev e (fut s.reqs.length)], ?_, ?_⟩
        · intro d hd
          rw [List.mem_singleton.mp hd]
          cases e <;> exact hids
        · intro es
          have hstep : (lift fut s).step p (.dev e (fut s.reqs.length)) =
              some (.ok { hip := h', reqs := (lift fut s).reqs ++ (Dma.sentNp (h'.hist.drop s.hip.hist.length)).map fun t => { req := t, ans := fut s.reqs.length } }) := by
            have : (lift fut s).hip.step p e = some (.ok h') := hh
            cases e with
            | cpl c => exact absurd rfl (he c)
            | _ => simp only [Dma.step, this]; rfl
          rw [List.singleton_append]
          conv => lhs; unfold Dma.run
          rw [hstep, h2]
          simp only
          congr 1
          unfold lift
          simp only [List.mapIdx_append]
          congr 2
          match hx : Dma.sentNp o, h3 with
          | [], _ => rfl
          | [t], _ => simp
  | host =>
    simp only [step] at hs
    split at hs
    · cases hs
    · next t rest hl =>
      obtain ⟨h1, h2, h3⟩ := host_i h hl (Option.some.inj hs)
      refine ⟨h1, h2, [], by simp, ?_⟩
      intro es
      rw [List.nil_append]
      congr 1
      unfold lift
      rw [h3]
      congr 1
      -- the requests differ in their answers only
      have key : ∀ (x : DmaSys), x.reqs = s.reqs ∨ (∃ ans, x.reqs = s.reqs.modify s.served fun q => { q with ans := ans }) →
          s.reqs.mapIdx (fun i q => { q with ans := fut i }) = x.reqs.mapIdx (fun i q => ({ q with ans := fut i } : DmaReq)) := by
        intro x hx
        rcases hx with hx | ⟨ans, hx⟩
        · rw [hx]
        · rw [hx]
          apply List.ext_getElem?
          intro i
          rw [List.getElem?_mapIdx, List.getElem?_mapIdx, List.getElem?_modify]
          cases s.reqs[i]? with
          | none => rfl
          | some q => by_cases hi : s.served = i <;> simp [hi]
      apply key
      have hs := Option.some.inj hs
      unfold handle at hs
      split at hs
      · cases hs; exact .inr ⟨_, rfl⟩
      · cases hs; exact .inr ⟨_, rfl⟩
      · cases hs; exact .inl rfl
      · cases hs; exact .inl rfl
      · split at hs
        · cases hs
        · cases hs; exact .inr ⟨_, rfl⟩
      · split at hs
        · cases hs
        · cases hs; exact .inr ⟨_, rfl⟩
      · cases hs
  | other m io =>
    have hs := Except.ok.inj (Option.some.inj hs)
    subst hs
    refine ⟨⟨?_, ?_, h.reqs, ?_, ?_, h.todo⟩, ⟨Nat.le_refl _, fun _ _ => rfl⟩, [], by simp, fun es => rfl⟩
    · show ({ s.mem with mem := m } : AddrSpace) = _
      rw [memAfter_snoc, ← h.mem]; rfl
    · show handledOf (s.log ++ _) ++ s.link = _
      rw [handledOf_append]; simpa [handledOf] using h.fifo
    · show s.served = npCount (s.log ++ _)
      unfold npCount; rw [handledOf_append]; simpa [handledOf, npCount] using h.count
    · intro i x hx hi
      obtain ⟨b, a, h1, h2, h3⟩ := h.done i x hx hi
      exact ⟨b, a ++ [.other m], by show s.log ++ _ = _; rw [h1]; simp, h2, h3⟩
  | cpl i =>
    simp only [step] at hs
    split at hs
    · cases hs
    · next q hq =>
      split at hs
      · cases hs
      · next c hc =>
        split at hs
        · cases hs
        · cases hs
        · next h' hh =>
          have hs := Except.ok.inj (Option.some.inj hs)
          subst hs
          obtain ⟨h1, h2, h3⟩ := cpl_i h hq hc hh
          refine ⟨h2, h3, [.cpl i], by simp [SameIds], ?_⟩
          intro es
          have hfi := hf i q hq h1
          have hstep : (lift fut s).step p (.cpl i) = some (.ok { hip := h', reqs := (lift fut s).reqs.set i { q with ans := fut i, done := q.done + 1 } }) := by
            have e1 : (lift fut s).hip.step p (.cpl c) = some (.ok h') := hh
            have e2 : (fut i)[q.done]? = some c := by rw [hfi]; exact hc
            simp only [Dma.step, lift_get, hq, Option.map_some, e2, e1]
          rw [List.singleton_append]
          conv => lhs; unfold Dma.run
          rw [hstep]
          simp only
          congr 1
          unfold lift
          simp only [List.mapIdx_set]

theorem run_sim {cfg : CplCfg} {m0 : AddrSpace} {p : HipParams} {ids : List PcieId} {s' : DmaSys} (fut : Nat → List Tlp) (hf : ∀ i q, s'.reqs[i]? = some q → i < s'.served → fut i = q.ans) :
    ∀ (es : List SysEv) (s : DmaSys), I cfg m0 s → (∀ e ∈ es, KeepsIds ids e) → s.run p cfg es = some (.ok s') →
    I cfg m0 s' ∧ Grow s s' ∧ ∃ des, (∀ d ∈ des, SameIds ids d) ∧ Dma.run p (lift fut s) des = some (.ok (lift fut s')) := by
  intro es
  induction es with
  | nil =>
    intro s h _ hr
    have hr := Except.ok.inj (Option.some.inj hr)
    subst hr
    exact ⟨h, .refl _, [], by simp, rfl⟩
  | cons e es ih =>
    intro s h hids hr
    unfold run at hr
    split at hr
    · cases hr
    · cases hr
    · next s1 h1 =>
      have hi1 : I cfg m0 s1 ∧ Grow s s1 := by
        have := step_sim h (hids e List.mem_cons_self) h1 (fun i => (s.reqs[i]?.map (·.ans)).getD []) (by intro i q hq _; simp [hq])
        exact ⟨this.1, this.2.1⟩
      obtain ⟨g1, g2, des', g3, g4⟩ := ih s1 hi1.1 (fun x hx => hids x (List.mem_cons_of_mem _ hx)) hr
      have hgrow := hi1.2.trans g2
      have hf' : ∀ i q, s.reqs[i]? = some q → i < s.served → fut i = q.ans := by
        intro i q hq hi
        have := hgrow.ans i hi
        rw [hq] at this
        cases hq' : s'.reqs[i]? with
        | none => rw [hq'] at this; cases this
        | some q' =>
          rw [hq'] at this
          rw [hf i q' hq' (Nat.lt_of_lt_of_le hi hgrow.served)]
          exact Option.some.inj this
      obtain ⟨-, -, des, k3, k4⟩ := step_sim h (hids e List.mem_cons_self) h1 fut hf'
      refine ⟨g1, hgrow, des ++ des', ?_, by rw [k4, g4]⟩
      intro d hd
      rcases List.mem_append.mp hd with hd | hd
      · exact k3 d hd
      · exact g3 d hd

theorem init_i (cfg : CplCfg) (m0 io : AddrSpace) (init : Hip) (hinit : init = { ext := init.ext, busNum := init.busNum, funcs := init.funcs }) : I cfg m0 { hip := init, mem := m0, io := io } where
  mem := rfl
  fifo := by rw [hinit]; rfl
  reqs := by rw [hinit]; rfl
  count := rfl
  done := by intro i q hq; cases hq
  todo := by intro i q hq; cases hq

end DmaSys
end Pcie
