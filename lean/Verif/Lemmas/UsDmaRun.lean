import Verif.Lemmas.UsDma
namespace Pcie
open Spec
namespace Dma

/-! ### Steps of the device -/

/-- A step of the device other than the arrival of a completion. -/
structure Quiet (s s' : Hip) (a b : List HipObs) : Prop where
  hist : s'.hist = s.hist ++ (a ++ b)
  first : a = [] ∨ ∃ t, a = [.accepted t]
  second : b = [] ∨ (∃ t, b = [.refused t]) ∨ (∃ t, b = [.sent t]) ∨ ∃ u, b = [.delivered u]
  user : deliveredOf s'.hist ++ buffered s' = deliveredOf s.hist ++ buffered s

theorem Quiet.mk' {s s' : Hip} {a b : List HipObs} (h1 : s'.hist = s.hist ++ (a ++ b)) (h2 : a = [] ∨ ∃ t, a = [.accepted t])
    (h3 : b = [] ∨ (∃ t, b = [.refused t]) ∨ (∃ t, b = [.sent t])) (h4 : buffered s' = buffered s) : Quiet s s' a b where
  hist := h1
  first := h2
  second := by rcases h3 with h | h | h <;> simp [h]
  user := by
    rw [h4, h1]
    congr 1
    rcases h2 with rfl | ⟨t, rfl⟩ <;> rcases h3 with rfl | ⟨t, rfl⟩ | ⟨t, rfl⟩ <;> simp [deliveredOf]

theorem issue_obs {p : HipParams} {s s' : Hip} {t : Tlp} (h : Hip.issue p s t = .ok s') :
    (∃ x, s'.hist = s.hist ++ [.sent x]) ∧ buffered s' = buffered s ∧ s'.funcs = s.funcs := by
  unfold Hip.issue at h
  split at h
  · cases h
  · split at h
    · cases h
    · cases h
    · cases h; exact ⟨⟨_, rfl⟩, rfl, rfl⟩

theorem npTry_obs {p : HipParams} {s s' : Hip} {t : Tlp} (h : Hip.npTry p s t = .ok s') : (∃ b, Quiet s s' [] b) ∧ s'.funcs = s.funcs := by
  unfold Hip.npTry at h
  split at h
  · cases h; exact ⟨⟨[], .mk' (by simp) (.inl rfl) (.inl rfl) rfl⟩, rfl⟩
  · split at h
    · cases h; exact ⟨⟨[], .mk' (by simp) (.inl rfl) (.inl rfl) rfl⟩, rfl⟩
    · simp only at h
      split at h
      · cases h
      · cases h; exact ⟨⟨_, .mk' rfl (.inl rfl) (.inr (.inl ⟨_, rfl⟩)) rfl⟩, rfl⟩
      · obtain ⟨⟨x, h1⟩, h2, h3⟩ := issue_obs h
        exact ⟨⟨_, .mk' h1 (.inl rfl) (.inr (.inr ⟨x, rfl⟩)) h2⟩, h3⟩

theorem enqueue_obs (p : HipParams) (s : Hip) (t : Tlp) :
    (Hip.enqueue p s t).hist = s.hist ∧ buffered (Hip.enqueue p s t) = buffered s ∧ (Hip.enqueue p s t).funcs = s.funcs := by
  unfold Hip.enqueue; split <;> exact ⟨rfl, rfl, rfl⟩

theorem rqRecv_obs {p : HipParams} {s s' : Hip} {u : UsTlp} (h : Hip.rqRecv p s u = .ok s') : (∃ a b, Quiet s s' a b) ∧ s'.funcs = s.funcs := by
  unfold Hip.rqRecv at h
  split at h
  · cases h; exact ⟨⟨[], [], .mk' (by simp) (.inl rfl) (.inl rfl) rfl⟩, rfl⟩
  · simp only at h
    generalize s.requester u = t at h
    split at h
    · cases h
    · unfold Hip.rqNonposted at h
      simp only at h
      split at h
      · split at h
        · cases h
        · cases h; exact ⟨⟨[.accepted t], [.refused t], .mk' (by simp) (.inr ⟨_, rfl⟩) (.inr (.inl ⟨_, rfl⟩)) rfl⟩, rfl⟩
        · by_cases hb : t.tag < (if s.ext then p.tagMax else 32)
          · rw [if_pos hb] at h
            obtain ⟨⟨x, h1⟩, h2, h3⟩ := issue_obs h
            exact ⟨⟨[.accepted t], [.sent x], .mk' (by rw [h1]; simp) (.inr ⟨_, rfl⟩) (.inr (.inr ⟨_, rfl⟩)) h2⟩, h3⟩
          · rw [if_neg hb] at h; cases h
      · cases h
        obtain ⟨h1, h2, h3⟩ := enqueue_obs p { s with hist := s.hist ++ [.accepted t] } t
        exact ⟨⟨[.accepted t], [], .mk' (by rw [h1]; simp) (.inr ⟨_, rfl⟩) (.inl rfl) h2⟩, h3⟩
    · unfold Hip.rqPosted at h
      split at h
      · cases h
      · cases h; exact ⟨⟨[.accepted t], [.refused t], .mk' (by simp) (.inr ⟨_, rfl⟩) (.inr (.inl ⟨_, rfl⟩)) rfl⟩, rfl⟩
      · cases h; exact ⟨⟨[.accepted t], [.sent t.copy], .mk' (by simp) (.inr ⟨_, rfl⟩) (.inr (.inr ⟨_, rfl⟩)) rfl⟩, rfl⟩

theorem dev_obs {p : HipParams} {s s' : Hip} {e : HipEv} (he : ∀ c, e ≠ .cpl c) (h : Hip.step p s e = some (.ok s')) :
    (∃ a b, Quiet s s' a b) ∧ (s'.funcs = s.funcs ∨ ∃ x y f, e = .cfg x y f ∧ s'.funcs = f) := by
  cases e with
  | rq u =>
    simp only [Hip.step] at h
    split at h
    · obtain ⟨h1, h2⟩ := rqRecv_obs (Option.some.inj h); exact ⟨h1, .inl h2⟩
    · cases h
  | rqWake =>
    simp only [Hip.step] at h
    split at h
    · next t hr =>
      have h := Option.some.inj h
      cases h
      obtain ⟨h1, h2, h3⟩ := enqueue_obs p s t
      exact ⟨⟨[], [], .mk' (by rw [h1]; simp) (.inl rfl) (.inl rfl) h2⟩, .inl h3⟩
    · cases h
  | npGet =>
    simp only [Hip.step] at h
    split at h
    · obtain ⟨⟨b, h1⟩, h2⟩ := npTry_obs (Option.some.inj h)
      exact ⟨⟨[], b, h1.hist, h1.first, h1.second, h1.user⟩, .inl h2⟩
    · cases h
  | npWake =>
    simp only [Hip.step] at h
    split at h
    · obtain ⟨⟨b, h1⟩, h2⟩ := npTry_obs (Option.some.inj h)
      exact ⟨⟨[], b, h1⟩, .inl h2⟩
    · cases h
  | cpl c => exact absurd rfl (he c)
  | rcGet =>
    simp only [Hip.step] at h
    split at h
    · next u rest hn hq =>
      have h := Option.some.inj h
      cases h
      exact ⟨⟨[], [], .mk' (by simp) (.inl rfl) (.inl rfl) (by simp [buffered, hn, hq])⟩, .inl rfl⟩
    · cases h
  | rcDone =>
    simp only [Hip.step] at h
    split at h
    · next u hn =>
      have h := Option.some.inj h
      cases h
      exact ⟨⟨[], [.delivered u], by simp, .inl rfl, .inr (.inr (.inr ⟨u, rfl⟩)), by simp [deliveredOf, buffered, hn]⟩, .inl rfl⟩
    · cases h
  | cfg ext b f =>
    have h := Option.some.inj h
    cases h
    exact ⟨⟨[], [], .mk' (by simp) (.inl rfl) (.inl rfl) rfl⟩, .inr ⟨_, _, _, rfl, rfl⟩⟩

/-- The arrival of a completion for an outstanding request. -/
theorem cpl_obs {p : HipParams} {s s' : Hip} {c r : Tlp} (h : Hip.step p s (.cpl c) = some (.ok s')) (hr : c.requester_id ∈ s.funcs.map (·.1))
    (ha : s.active[c.tag]? = some (some r)) : s'.funcs = s.funcs ∧
    ((s'.hist = s.hist ++ [.cpl c] ∧ buffered s' = buffered s ++ [see r.copy c]) ∨ ∃ u, s'.hist = s.hist ++ [.cpl c] ++ [.lost u]) := by
  simp only [Hip.step] at h
  split at h
  · have h := Option.some.inj h
    unfold Hip.cplRecv at h
    rw [if_pos hr, ha] at h
    simp only at h
    have hv : (Hip.judge (some r) { UsTlp.ofTlp c with errorCode := if c.ep then 1 else 0 }).1 = see r.copy c := rfl
    rw [hv] at h
    generalize see r.copy c = u at h
    have h := Except.ok.inj h
    subst h
    unfold Hip.account Hip.buffer
    simp only
    split
    · refine ⟨rfl, .inl ⟨rfl, ?_⟩⟩
      simp [buffered]
    · exact ⟨rfl, .inr ⟨_, rfl⟩⟩
  · cases h

theorem cpl_funcs {p : HipParams} {s s' : Hip} {c : Tlp} (h : Hip.step p s (.cpl c) = some (.ok s')) : s'.funcs = s.funcs ∧
    ∃ b, s'.hist = s.hist ++ b ∧ (∀ o ∈ b, ∀ t, o ≠ .sent t) := by
  simp only [Hip.step] at h
  split at h
  · have h := Option.some.inj h
    unfold Hip.cplRecv at h
    split at h
    · split at h
      · cases h
      · simp only at h
        generalize Hip.judge _ _ = j at h
        have h := Except.ok.inj h
        subst h
        unfold Hip.account Hip.buffer
        simp only
        split
        · exact ⟨rfl, [.cpl c], rfl, by simp⟩
        · exact ⟨rfl, [.cpl c, .lost j.1], by simp, by simp⟩
    · cases h; exact ⟨rfl, [], by simp, by simp⟩
  · cases h

theorem sentNp_append (a b : List HipObs) : sentNp (a ++ b) = sentNp a ++ sentNp b := List.filterMap_append ..

theorem sentNp_none {b : List HipObs} (h : ∀ o ∈ b, ∀ t, o ≠ .sent t) : sentNp b = [] := by
  unfold sentNp
  rw [List.filterMap_eq_nil_iff]
  intro o ho
  cases o with
  | sent t => exact absurd rfl (h _ ho t)
  | _ => rfl

/-! ### The invariant -/

/-- What the user sees of the completions of `q` that have arrived. -/
def _root_.Pcie.DmaReq.shown (q : DmaReq) : List UsTlp := (q.ans.map (see q.req)).take q.done

structure Core (s : Dma) : Prop where
  le : ∀ q ∈ s.reqs, q.done ≤ q.ans.length
  opn : ∀ q ∈ s.reqs, q.done < q.ans.length → outstanding s.hip.hist q.req.tag = some q.req
  out : ∀ k r, outstanding s.hip.hist k = some r → ∃ q ∈ s.reqs, q.req = r ∧ r.tag = k ∧ q.done < q.ans.length
  ord : s.reqs.Pairwise fun a b => a.req.tag = b.req.tag → a.done = a.ans.length
  user : ∀ k, (deliveredOf s.hip.hist ++ buffered s.hip).filter (fun u => u.tlp.tag = k) = (s.reqs.filter fun q => q.req.tag = k).flatMap DmaReq.shown

structure W (p : HipParams) (ids : List PcieId) (s : Dma) : Prop where
  inv : Hip.Inv p s.hip
  idsEq : s.hip.funcs.map (·.1) = ids
  sent : sentNp s.hip.hist = s.reqs.map (·.req)
  core : Served ids s.reqs → lostOf s.hip.hist = [] → Core s

theorem outstanding_append (h b : List HipObs) : outstanding (h ++ b) = b.foldl track (outstanding h) := by
  unfold outstanding; rw [List.foldl_append]

theorem dev_w {p : HipParams} {ids : List PcieId} {s : Dma} {h : Hip} {e : HipEv} {ans : List Tlp} (hw : W p ids s) (he : ∀ c, e ≠ .cpl c) (hids : SameIds ids (.dev e ans))
    (hs : s.hip.step p e = some (.ok h)) :
    W p ids { hip := h, reqs := s.reqs ++ (sentNp (h.hist.drop s.hip.hist.length)).map fun t => { req := t, ans := ans } } := by
  obtain ⟨⟨a, b, hq⟩, hf⟩ := dev_obs he hs
  have hinv := Hip.step_inv hw.inv hs
  have hd : h.hist.drop s.hip.hist.length = a ++ b := by rw [hq.hist, List.drop_left]
  have ha : sentNp a = [] := sentNp_none (by rcases hq.first with rfl | ⟨t, rfl⟩ <;> simp)
  have hao : outstanding (s.hip.hist ++ a) = outstanding s.hip.hist := by
    rw [outstanding_append]; rcases hq.first with rfl | ⟨t, rfl⟩ <;> rfl
  have hlost : lostOf h.hist = lostOf s.hip.hist := by
    rw [hq.hist]; unfold lostOf
    rcases hq.first with rfl | ⟨t, rfl⟩ <;> rcases hq.second with rfl | ⟨t, rfl⟩ | ⟨t, rfl⟩ | ⟨t, rfl⟩ <;> simp
  rw [hd, sentNp_append, ha, List.nil_append]
  refine ⟨hinv, ?_, ?_, ?_⟩
  · rcases hf with hf | ⟨x, y, f, rfl, hf⟩
    · rw [hf]; exact hw.idsEq
    · rw [hf]; exact hids
  · rw [hq.hist, sentNp_append, sentNp_append, ha, hw.sent]; simp [Function.comp_def]
  · intro hsv hl
    simp only at hsv hl
    rw [hlost] at hl
    have hc := hw.core (fun q hq => hsv q (List.mem_append_left _ hq)) hl
    have hcase : (sentNp b = [] ∧ outstanding h.hist = outstanding s.hip.hist) ∨
        ∃ t, sentNp b = [t] ∧ outstanding s.hip.hist t.tag = none ∧ outstanding h.hist = fun k => if k = t.tag then some t else outstanding s.hip.hist k := by
      have hh : h.hist = (s.hip.hist ++ a) ++ b := by rw [hq.hist, List.append_assoc]
      have ho : outstanding h.hist = b.foldl track (outstanding s.hip.hist) := by rw [hh, outstanding_append, hao]
      rcases hq.second with rfl | ⟨t, rfl⟩ | ⟨t, rfl⟩ | ⟨t, rfl⟩
      · exact .inl ⟨rfl, ho⟩
      · exact .inl ⟨rfl, ho⟩
      · by_cases hn : t.isNonposted = true
        · refine .inr ⟨t, by simp [sentNp, hn], ?_, ?_⟩
          · have := (hinv.core.fresh (s.hip.hist ++ a) t [] hh hn).1
            rwa [hao] at this
          · rw [ho]; simp [track, hn]
        · refine .inl ⟨by simp [sentNp, hn], ?_⟩
          rw [ho]; simp [track, hn]
      · exact .inl ⟨rfl, ho⟩
    rcases hcase with ⟨h1, h2⟩ | ⟨t, h1, h2, h3⟩
    · rw [h1, List.map_nil, List.append_nil]
      refine ⟨hc.le, ?_, ?_, hc.ord, ?_⟩
      · simp only [h2]; exact hc.opn
      · simp only [h2]; exact hc.out
      · simp only [hq.user]; exact hc.user
    · rw [h1, List.map_cons, List.map_nil]
      refine ⟨?_, ?_, ?_, ?_, ?_⟩
      · intro q hq
        rcases List.mem_append.mp hq with hq | hq
        · exact hc.le q hq
        · rw [List.mem_singleton.mp hq]; exact Nat.zero_le _
      · intro q hq hlt
        simp only [h3]
        rcases List.mem_append.mp hq with hq | hq
        · have h4 := hc.opn q hq hlt
          rw [if_neg, h4]
          intro hh; rw [hh, h2] at h4; cases h4
        · rw [List.mem_singleton.mp hq]; simp
      · intro k r hr
        simp only [h3] at hr
        split at hr
        · next hk =>
          cases hr
          refine ⟨_, List.mem_append_right _ (List.mem_singleton.mpr rfl), rfl, hk.symm, ?_⟩
          exact ans_ne (hsv { req := t, ans := ans } (List.mem_append_right _ (by rw [h1]; simp))).2
        · obtain ⟨q, m1, m2⟩ := hc.out k r hr
          exact ⟨q, List.mem_append_left _ m1, m2⟩
      · simp only [List.pairwise_append, List.pairwise_singleton, List.mem_singleton]
        refine ⟨hc.ord, trivial, ?_⟩
        rintro q hq b rfl ht
        simp only at ht
        have h5 := hc.le q hq
        rcases Nat.lt_or_ge q.done q.ans.length with h6 | h6
        · have := hc.opn q hq h6
          rw [ht, h2] at this; cases this
        · omega
      · intro k
        simp only [hq.user, hc.user k, List.filter_append, List.flatMap_append]
        have : (List.filter (fun q => decide (q.req.tag = k)) [{ req := t, ans := ans }]).flatMap DmaReq.shown = [] := by
          by_cases hk : t.tag = k <;> simp [hk, DmaReq.shown]
        rw [this, List.append_nil]

theorem cpl_w {p : HipParams} {ids : List PcieId} {s : Dma} {h : Hip} {i : Nat} {q : DmaReq} {c : Tlp} (hw : W p ids s) (hq : s.reqs[i]? = some q) (hc : q.ans[q.done]? = some c)
    (hs : s.hip.step p (.cpl c) = some (.ok h)) : W p ids { hip := h, reqs := s.reqs.set i { q with done := q.done + 1 } } := by
  have hinv := Hip.step_inv hw.inv hs
  obtain ⟨hf, b, hb, hns⟩ := cpl_funcs hs
  obtain ⟨hi, hqi⟩ := List.getElem?_eq_some_iff.mp hq
  obtain ⟨l1, l2, e1, -, e2⟩ := List.exists_of_set (a' := { q with done := q.done + 1 }) hi
  rw [hqi] at e1
  rw [e2]
  refine ⟨hinv, ?_, ?_, ?_⟩
  · rw [hf]; exact hw.idsEq
  · rw [hb, sentNp_append, sentNp_none hns, hw.sent, e1]; simp
  · intro hsv hl
    simp only at hsv hl
    have hsv' : Served ids s.reqs := by
      intro x hx
      rw [e1] at hx
      rcases List.mem_append.mp hx with hx | hx
      · exact hsv x (List.mem_append_left _ hx)
      · rcases List.mem_cons.mp hx with rfl | hx
        · exact hsv { x with done := x.done + 1 } (List.mem_append_right _ List.mem_cons_self)
        · exact hsv x (List.mem_append_right _ (List.mem_cons_of_mem _ hx))
    have hl' : lostOf s.hip.hist = [] := by
      rw [hb, lostOf, List.filterMap_append] at hl
      exact (List.append_eq_nil_iff.mp hl).1
    have hco := hw.core hsv' hl'
    have hmem : q ∈ s.reqs := by rw [e1]; exact List.mem_append_right _ List.mem_cons_self
    obtain ⟨hid, hans⟩ := hsv' q hmem
    obtain ⟨hlt, hcq⟩ := List.getElem?_eq_some_iff.mp hc
    obtain ⟨o1, o2, o3, o4, o5⟩ := own_of hans (List.mem_of_getElem? hc)
    have hout := hco.opn q hmem hlt
    have hact := hw.inv.core.act q.req.tag
    rw [hout] at hact
    obtain ⟨r, hr1, hr2⟩ : ∃ r, s.hip.active[c.tag]? = some (some r) ∧ r.copy = q.req := by
      rw [o3]
      cases hx : s.hip.active[q.req.tag]? with
      | none => rw [hx] at hact; cases hact
      | some x =>
        cases x with
        | none => rw [hx] at hact; cases hact
        | some r => rw [hx] at hact; exact ⟨r, rfl, Option.some.inj hact⟩
    obtain ⟨-, hob⟩ := cpl_obs hs (by rw [hw.idsEq, o2]; exact hid) hr1
    rw [hr2] at hob
    rcases hob with ⟨hh, hbuf⟩ | ⟨u, hh⟩
    swap
    · rw [hh] at hl; simp [lostOf] at hl
    have hend := ends hans q.done c hc
    have hord := hco.ord
    rw [e1] at hord
    obtain ⟨p1, p2, p3⟩ := List.pairwise_append.mp hord
    obtain ⟨p4, p5⟩ := List.pairwise_cons.mp p2
    have hl2 : ∀ x ∈ l2, x.req.tag ≠ q.req.tag := by
      intro x hx ht
      have := p4 x hx ht.symm
      omega
    have hl1 : ∀ x ∈ l1, x.req.tag = q.req.tag → x.done = x.ans.length := fun x hx ht => p3 x hx q List.mem_cons_self ht
    have hno : outstanding h.hist = fun k => if k = q.req.tag ∧ q.done + 1 = q.ans.length then none else outstanding s.hip.hist k := by
      rw [hh, Hip.outstanding_snoc]
      funext k
      simp only [track, o3]
      by_cases hk : k = q.req.tag
      · subst hk
        rw [hout]
        simp [hend]
      · simp [hk]
    have hold : ∀ x ∈ l1 ++ l2, x ∈ s.reqs := by
      intro x hx
      rw [e1]
      rcases List.mem_append.mp hx with hx | hx
      · exact List.mem_append_left _ hx
      · exact List.mem_append_right _ (List.mem_cons_of_mem _ hx)
    have hsplit : ∀ x, x ∈ l1 ++ { q with done := q.done + 1 } :: l2 → x ∈ l1 ++ l2 ∨ x = { q with done := q.done + 1 } := by
      intro x hx
      rcases List.mem_append.mp hx with hx | hx
      · exact .inl (List.mem_append_left _ hx)
      · rcases List.mem_cons.mp hx with hx | hx
        · exact .inr hx
        · exact .inl (List.mem_append_right _ hx)
    refine ⟨?_, ?_, ?_, ?_, ?_⟩
    · intro x hx
      rcases hsplit x hx with hx | rfl
      · exact hco.le x (hold x hx)
      · exact hlt
    · intro x hx hxl
      simp only [hno]
      rcases hsplit x hx with hx | rfl
      · rw [if_neg, hco.opn x (hold x hx) hxl]
        rintro ⟨ht, -⟩
        rcases List.mem_append.mp hx with hx | hx
        · have := hl1 x hx ht; omega
        · exact hl2 x hx ht
      · simp only at hxl ⊢
        rw [if_neg (by omega), hout]
    · intro k r' hr'
      simp only [hno] at hr'
      split at hr'
      · cases hr'
      · next hk =>
        obtain ⟨x, m1, m2, m3, m4⟩ := hco.out k r' hr'
        rw [e1] at m1
        rcases List.mem_append.mp m1 with m1 | m1
        · exact ⟨x, List.mem_append_left _ m1, m2, m3, m4⟩
        · rcases List.mem_cons.mp m1 with rfl | m1
          · refine ⟨_, List.mem_append_right _ List.mem_cons_self, m2, m3, ?_⟩
            simp only
            have : ¬ x.done + 1 = x.ans.length := fun hh => hk ⟨by rw [← m3, m2], hh⟩
            omega
          · exact ⟨x, List.mem_append_right _ (List.mem_cons_of_mem _ m1), m2, m3, m4⟩
    · refine List.pairwise_append.mpr ⟨p1, List.pairwise_cons.mpr ⟨?_, p5⟩, ?_⟩
      · intro x hx ht
        exact absurd ht.symm (hl2 x hx)
      · intro x hx y hy ht
        rcases List.mem_cons.mp hy with rfl | hy
        · exact hl1 x hx ht
        · exact p3 x hx y (List.mem_cons_of_mem _ hy) ht
    · intro k
      have hd : deliveredOf h.hist = deliveredOf s.hip.hist := by rw [hh]; simp [deliveredOf]
      have := hco.user k
      simp only [hd, hbuf]
      rw [← List.append_assoc, List.filter_append, this, e1]
      simp only [List.filter_append, List.filter_cons, List.filter_nil, see_tag, o3]
      by_cases hk : q.req.tag = k
      · have hz : l2.filter (fun x => decide (x.req.tag = k)) = [] := by
          rw [List.filter_eq_nil_iff]
          intro x hx
          simpa [← hk] using hl2 x hx
        simp only [hk, decide_true, if_true, hz, List.flatMap_append, List.flatMap_cons, List.flatMap_nil, List.append_nil, List.append_assoc]
        congr 1
        unfold DmaReq.shown
        simp only
        rw [List.take_add_one, List.getElem?_map, hc]
        rfl
      · simp [hk]

theorem step_w {p : HipParams} {ids : List PcieId} {s s' : Dma} {e : DmaEv} (hw : W p ids s) (hids : SameIds ids e) (h : s.step p e = some (.ok s')) : W p ids s' := by
  cases e with
  | dev e ans =>
    have key : (∀ c, e ≠ .cpl c) → W p ids s' := by
      intro he
      have : s.step p (.dev e ans) = match s.hip.step p e with
        | none => none
        | some (.error x) => some (.error x)
        | some (.ok h) => some (.ok { hip := h, reqs := s.reqs ++ (sentNp (h.hist.drop s.hip.hist.length)).map fun t => { req := t, ans := ans } }) := by
        cases e with
        | cpl c => exact absurd rfl (he c)
        | _ => rfl
      rw [this] at h
      split at h
      · cases h
      · cases h
      · next h' hs =>
        have h := Except.ok.inj (Option.some.inj h)
        subst h
        exact dev_w hw he hids hs
    cases e with
    | cpl c => cases h
    | _ => exact key (fun c => by simp)
  | cpl i =>
    unfold step at h
    simp only at h
    split at h
    · cases h
    · next q hq =>
      split at h
      · cases h
      · next c hc =>
        split at h
        · cases h
        · cases h
        · next h' hs =>
          have h := Except.ok.inj (Option.some.inj h)
          subst h
          exact cpl_w hw hq hc hs

theorem run_w {p : HipParams} {ids : List PcieId} {s s' : Dma} (hw : W p ids s) : ∀ (es : List DmaEv), (∀ e ∈ es, SameIds ids e) → s.run p es = some (.ok s') → W p ids s' := by
  intro es
  induction es generalizing s with
  | nil => intro _ h; cases h; exact hw
  | cons e es ih =>
    intro hids h
    unfold run at h
    split at h
    · cases h
    · cases h
    · next s1 h1 => exact ih (step_w hw (hids e List.mem_cons_self) h1) (fun x hx => hids x (List.mem_cons_of_mem _ hx)) h

theorem init_w (p : HipParams) (s : Hip) (hs : s = { ext := s.ext, busNum := s.busNum, funcs := s.funcs }) : W p (s.funcs.map (·.1)) { hip := s } where
  inv := Hip.inv_init p s hs
  idsEq := rfl
  sent := by rw [hs]; rfl
  core _ _ := by
    rw [hs]
    exact ⟨by simp, by simp, (by intro k r h; cases h), .nil, by simp [deliveredOf, buffered]⟩

end Dma
end Pcie
