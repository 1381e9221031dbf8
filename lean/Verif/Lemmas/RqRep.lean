import Verif.Spec.RqRep
import Mathlib.Data.List.Perm.Basic
namespace Pcie
open Spec
namespace RqRep

structure RInv (p : RepPorts) (s : RqRep) : Prop where
  seq : Connected p → repSeqs s.hist ++ s.seqQ = (repLinked s.hist).map (·.seqNum)
  tag : Connected p → repTags s.hist ++ s.tagQ = if p.client then [] else ((repStarted s.hist).filter (·.tlp.isNonposted)).map (·.tlp.tag)
  link : (repStarted s.hist).Perm (repLinked s.hist ++ repFlying s)
  acc : ((repAccepted s.hist).map noTag).Perm ((repStarted s.hist ++ repDropped s.hist ++ repWaiting s).map noTag)
  posted : (repStarted s.hist).filter postedReq = (repLinked s.hist).filter postedReq ++ (sendingOf s.rq).filter postedReq
  order : ((repStarted s.hist).filter postedReq).Sublist ((repAccepted s.hist).filter postedReq)
  nps : (∀ u ∈ repWaiting s, u.tlp.isNonposted = true) ∧ ∀ u, s.np = .sending u → u.tlp.isNonposted = true

theorem acc_append (a b : List RepObs) : repAccepted (a ++ b) = repAccepted a ++ repAccepted b := List.filterMap_append ..
theorem drp_append (a b : List RepObs) : repDropped (a ++ b) = repDropped a ++ repDropped b := List.filterMap_append ..
theorem sta_append (a b : List RepObs) : repStarted (a ++ b) = repStarted a ++ repStarted b := List.filterMap_append ..
theorem lnk_append (a b : List RepObs) : repLinked (a ++ b) = repLinked a ++ repLinked b := List.filterMap_append ..
theorem seqs_append (a b : List RepObs) : repSeqs (a ++ b) = repSeqs a ++ repSeqs b := List.flatMap_append ..
theorem tags_append (a b : List RepObs) : repTags (a ++ b) = repTags a ++ repTags b := List.flatMap_append ..

theorem noTag_retag (p : RepPorts) (u : UsTlp) (t : Nat) : noTag (retag p u t) = noTag u := by
  unfold retag; split <;> rfl

theorem retag_np (p : RepPorts) (u : UsTlp) (t : Nat) : (retag p u t).tlp.isNonposted = u.tlp.isNonposted := by
  unfold retag; split <;> rfl

theorem retag_seq (p : RepPorts) (u : UsTlp) (t : Nat) : (retag p u t).seqNum = u.seqNum := by
  unfold retag; split <;> rfl

theorem retag_tag (p : RepPorts) (u : UsTlp) (t : Nat) (h : p.client = false) : (retag p u t).tlp.tag = t := by
  unfold retag; rw [h]; rfl

theorem pop_conn (q : List Nat) : (pop true q).1.toList ++ (pop true q).2 = q := by cases q <;> rfl

theorem pop2_conn {wide c0 c1 : Bool} (h0 : c0 = true) (h1 : wide = true → c1 = true) (q : List Nat) :
    (pop2 wide c0 c1 q).1.toList ++ (pop2 wide c0 c1 q).2.1.toList ++ (pop2 wide c0 c1 q).2.2 = q := by
  subst h0
  unfold pop2
  simp only
  cases wide with
  | false => simpa using pop_conn q
  | true =>
    obtain rfl := h1 rfl
    simp only [if_true]
    rw [List.append_assoc, pop_conn, pop_conn]

/-- A request is taken from the user and waits. -/
theorem taken {p : RepPorts} {s : RqRep} (hi : RInv p s) (u : UsTlp) :
    ((repAccepted s.hist ++ [u]).map noTag).Perm ((repStarted s.hist ++ repDropped s.hist ++ (repWaiting s ++ [u])).map noTag) := by
  have := hi.acc.append_right [noTag u]
  simpa [List.map_append, List.append_assoc] using this

theorem mid {a b c : List UsTlp} {u v : UsTlp} {l : List UsTlp} (h : l.Perm (a ++ b ++ (u :: c))) (hv : v = u) : l.Perm ((a ++ [v]) ++ b ++ c) := by
  subst hv
  refine h.trans ?_
  simp only [List.append_assoc, List.singleton_append]
  exact List.perm_middle.append_left a

theorem mid2 {a b c : List UsTlp} {u : UsTlp} {l : List UsTlp} (h : l.Perm (a ++ b ++ (u :: c))) : l.Perm (a ++ (b ++ [u]) ++ c) := by
  simpa [List.append_assoc] using h

theorem rot {a w : List UsTlp} {u : UsTlp} {l : List UsTlp} (h : l.Perm (a ++ (w ++ [u]))) : l.Perm (a ++ u :: w) :=
  h.trans ((List.perm_append_comm (l₁ := w) (l₂ := [u])).append_left a)

theorem step_inv {p : RepPorts} {s s' : RqRep} {e : RepEv} (hi : RInv p s) (h : s.step p e = some s') : RInv p s' := by
  cases e with
  | rq u room master tag =>
    simp only [step] at h
    split at h
    · next hrq =>
      split at h
      · cases h; exact hi
      · have hw : repWaiting s = waitingOf s.np ++ s.npq := by simp [repWaiting, waitingOf, hrq]
        have hfl : repFlying s = sendingOf s.np := by simp [repFlying, sendingOf, hrq]
        have hpo := hi.posted
        rw [hrq] at hpo
        simp only [sendingOf, List.filter_nil, List.append_nil] at hpo
        have htk := taken hi u
        split at h
        · next hnp =>
          split at h
          · -- sent or dropped at once
            have hseq := hi.seq; have htag := hi.tag; have hlink := hi.link; have hord := hi.order
            have hrot := rot (by simpa [List.map_append] using htk : ((repAccepted s.hist ++ [u]).map noTag).Perm
              (((repStarted s.hist).map noTag ++ (repDropped s.hist).map noTag) ++ ((repWaiting s).map noTag ++ [noTag u])))
            cases master with
            | true =>
              simp only [go, if_true] at h
              cases h
              refine ⟨?_, ?_, ?_, ?_, ?_, ?_, ?_, ?_⟩
              · intro hc; simpa [repSeqs, repLinked] using hseq hc
              · intro hc
                have := htag hc
                cases hcl : p.client with
                | true => rw [hcl] at this; simpa [repTags, hcl] using this
                | false =>
                  rw [hcl] at this
                  simp only [Bool.false_eq_true, if_false] at this ⊢
                  simp only [tags_append, sta_append]
                  have e1 : repTags [.accepted u] = [] := rfl
                  have e2 : repTags [.started (retag p u tag)] = [] := rfl
                  have e3 : repStarted [.accepted u] = [] := rfl
                  have e4 : repStarted [.started (retag p u tag)] = [retag p u tag] := rfl
                  rw [e1, e2, e3, e4, List.append_nil, List.append_nil, List.append_nil, ← List.append_assoc, this]
                  simp [List.filter_append, retag_np, hnp, retag_tag _ _ _ hcl]
              · simp only [sta_append, lnk_append]
                have e3 : repStarted [.accepted u] = [] := rfl
                have e4 : repStarted [.started (retag p u tag)] = [retag p u tag] := rfl
                have e5 : repLinked [.accepted u] = [] := rfl
                have e6 : repLinked [.started (retag p u tag)] = [] := rfl
                rw [e3, e4, e5, e6, List.append_nil, List.append_nil, List.append_nil]
                rw [hfl] at hlink
                refine (hlink.append_right _).trans ?_
                rw [List.append_assoc]
                exact (List.perm_append_comm).append_left _
              · have e : repWaiting { s with rq := .sending (retag p u tag), tagQ := if p.client then s.tagQ else s.tagQ ++ [tag], hist := s.hist ++ [.accepted u] ++ [.started (retag p u tag)] } = repWaiting s := by
                  rw [hw]; simp [repWaiting, waitingOf]
                rw [e]
                simp only [acc_append, sta_append, drp_append]
                have := mid hrot (noTag_retag p u tag)
                simpa [repAccepted, repStarted, repDropped, List.map_append] using this
              · simp only [sta_append, lnk_append, List.filter_append, hpo]
                simp [repStarted, repLinked, sendingOf, postedReq, retag_np, hnp]
              · simp only [sta_append, acc_append, List.filter_append]
                simpa [repStarted, repAccepted, postedReq, retag_np, hnp] using hord
              · have e : repWaiting { s with rq := .sending (retag p u tag), tagQ := if p.client then s.tagQ else s.tagQ ++ [tag], hist := s.hist ++ [.accepted u] ++ [.started (retag p u tag)] } = repWaiting s := by
                  rw [hw]; simp [repWaiting, waitingOf]
                rw [e]; exact hi.nps.1
              · exact hi.nps.2
            | false =>
              simp only [go, Bool.false_eq_true, if_false] at h
              cases h
              have e : repWaiting { s with rq := .idle, hist := s.hist ++ [.accepted u] ++ [.dropped u] } = repWaiting s := by
                rw [hw]; simp [repWaiting, waitingOf]
              refine ⟨?_, ?_, ?_, ?_, ?_, ?_, ?_, ?_⟩
              · intro hc; simpa [repSeqs, repLinked] using hseq hc
              · intro hc; simpa [repTags, repStarted] using htag hc
              · have : repFlying { s with rq := .idle, hist := s.hist ++ [.accepted u] ++ [.dropped u] } = repFlying s := by rw [hfl]; simp [repFlying, sendingOf]
                rw [this]; simpa [repStarted, repLinked] using hlink
              · rw [e]
                simp only [acc_append, sta_append, drp_append]
                have := mid2 hrot
                simpa [repAccepted, repStarted, repDropped, List.map_append] using this
              · simpa [repStarted, repLinked, sendingOf] using hpo
              · simpa [repStarted, repAccepted, postedReq, hnp] using hord
              · rw [e]; exact hi.nps.1
              · exact hi.nps.2
          · split at h
            · cases h
              have e : repWaiting { s with rq := .waiting u, hist := s.hist ++ [.accepted u] } = repWaiting s ++ [u] := by rw [hw]; simp [repWaiting, waitingOf]
              have ef : repFlying { s with rq := .waiting u, hist := s.hist ++ [.accepted u] } = repFlying s := by rw [hfl]; simp [repFlying, sendingOf]
              refine ⟨?_, ?_, ?_, ?_, ?_, ?_, ?_, hi.nps.2⟩
              · intro hc; simpa [repSeqs, repLinked] using hi.seq hc
              · intro hc; simpa [repTags, repStarted] using hi.tag hc
              · rw [ef]; simpa [repStarted, repLinked] using hi.link
              · rw [e]; simpa [repAccepted, repStarted, repDropped] using htk
              · simpa [repStarted, repLinked, sendingOf] using hpo
              · simpa [repStarted, repAccepted, postedReq, hnp] using hi.order
              · rw [e]; intro x hx
                rcases List.mem_append.mp hx with hx | hx
                · exact hi.nps.1 x hx
                · rw [List.mem_singleton.mp hx]; exact hnp
            · cases h
              have e : repWaiting { s with npq := s.npq ++ [u], hist := s.hist ++ [.accepted u] } = repWaiting s ++ [u] := by rw [hw]; simp [repWaiting, waitingOf, hrq]
              have ef : repFlying { s with npq := s.npq ++ [u], hist := s.hist ++ [.accepted u] } = repFlying s := rfl
              refine ⟨?_, ?_, ?_, ?_, ?_, ?_, ?_, hi.nps.2⟩
              · intro hc; simpa [repSeqs, repLinked] using hi.seq hc
              · intro hc; simpa [repTags, repStarted] using hi.tag hc
              · rw [ef]; simpa [repStarted, repLinked] using hi.link
              · rw [e]; simpa [repAccepted, repStarted, repDropped] using htk
              · simpa [repStarted, repLinked, sendingOf, hrq] using hpo
              · simpa [repStarted, repAccepted, postedReq, hnp] using hi.order
              · rw [e]; intro x hx
                rcases List.mem_append.mp hx with hx | hx
                · exact hi.nps.1 x hx
                · rw [List.mem_singleton.mp hx]; exact hnp
        · next hnp =>
          have hpq : postedReq u = true := by simp [postedReq, hnp]
          have hnp' : u.tlp.isNonposted = false := by simpa using hnp
          have hrot := rot (by simpa [List.map_append] using htk : ((repAccepted s.hist ++ [u]).map noTag).Perm
              (((repStarted s.hist).map noTag ++ (repDropped s.hist).map noTag) ++ ((repWaiting s).map noTag ++ [noTag u])))
          cases master with
          | true =>
            simp only [if_true] at h
            cases h
            have e : repWaiting { s with rq := .sending u, hist := s.hist ++ [.accepted u] ++ [.started u] } = repWaiting s := by rw [hw]; simp [repWaiting, waitingOf]
            refine ⟨?_, ?_, ?_, ?_, ?_, ?_, ?_, hi.nps.2⟩
            · intro hc; simpa [repSeqs, repLinked] using hi.seq hc
            · intro hc; simpa [repTags, repStarted, hnp'] using hi.tag hc
            · have hlink := hi.link
              rw [hfl] at hlink
              simp only [sta_append, lnk_append]
              have e3 : repStarted [.accepted u] = [] := rfl
              have e4 : repStarted [.started u] = [u] := rfl
              have e5 : repLinked [.accepted u] = [] := rfl
              have e6 : repLinked [.started u] = [] := rfl
              rw [e3, e4, e5, e6, List.append_nil, List.append_nil, List.append_nil]
              refine (hlink.append_right _).trans ?_
              rw [List.append_assoc]
              exact (List.perm_append_comm).append_left _
            · rw [e]
              simp only [acc_append, sta_append, drp_append]
              have := mid hrot rfl
              simpa [repAccepted, repStarted, repDropped, List.map_append] using this
            · simp only [sta_append, lnk_append, List.filter_append, hpo]
              simp [repStarted, repLinked, sendingOf, hpq]
            · simp only [sta_append, acc_append, List.filter_append]
              have := hi.order.append_right [u]
              simpa [repStarted, repAccepted, hpq] using this
            · rw [e]; exact hi.nps.1
          | false =>
            simp only [Bool.false_eq_true, if_false] at h
            cases h
            have e : repWaiting { s with hist := s.hist ++ [.accepted u] ++ [.dropped u] } = repWaiting s := rfl
            have ef : repFlying { s with hist := s.hist ++ [.accepted u] ++ [.dropped u] } = repFlying s := rfl
            refine ⟨?_, ?_, ?_, ?_, ?_, ?_, ?_, hi.nps.2⟩
            · intro hc; simpa [repSeqs, repLinked] using hi.seq hc
            · intro hc; simpa [repTags, repStarted] using hi.tag hc
            · rw [ef]; simpa [repStarted, repLinked] using hi.link
            · rw [e]
              simp only [acc_append, sta_append, drp_append]
              have := mid2 hrot
              simpa [repAccepted, repStarted, repDropped, List.map_append] using this
            · simpa [repStarted, repLinked, sendingOf, hrq] using hpo
            · simp only [sta_append, acc_append, List.filter_append]
              have e3 : repStarted [.accepted u] = [] := rfl
              have e4 : repStarted [.dropped u] = [] := rfl
              rw [e3, e4, List.filter_nil, List.append_nil, List.append_nil, List.append_assoc]
              exact hi.order.trans (List.sublist_append_left _ _)
            · rw [e]; exact hi.nps.1
    · cases h
  | rqWake =>
    simp only [step] at h
    split at h
    · next u hrq =>
      split at h
      · cases h
      · cases h
        have e : repWaiting { s with rq := .idle, npq := s.npq ++ [u] } = repWaiting s := by simp [repWaiting, waitingOf, hrq]
        have ef : repFlying { s with rq := .idle, npq := s.npq ++ [u] } = repFlying s := by simp [repFlying, sendingOf, hrq]
        have hpo := hi.posted
        rw [hrq] at hpo
        exact ⟨hi.seq, hi.tag, by rw [ef]; exact hi.link, by rw [e]; exact hi.acc, hpo, hi.order, by rw [e]; exact hi.nps.1, hi.nps.2⟩
    · cases h
  | rqSent =>
    simp only [step] at h
    split at h
    · next u hrq =>
      cases h
      have e : repWaiting { s with rq := .idle, seqQ := s.seqQ ++ [u.seqNum], hist := s.hist ++ [.linked u] } = repWaiting s := by simp [repWaiting, waitingOf, hrq]
      have hfl : repFlying s = [u] ++ repFlying { s with rq := .idle, seqQ := s.seqQ ++ [u.seqNum], hist := s.hist ++ [.linked u] } := by simp [repFlying, sendingOf, hrq]
      have hpo := hi.posted
      rw [hrq] at hpo
      refine ⟨?_, ?_, ?_, ?_, ?_, ?_, ?_, hi.nps.2⟩
      · intro hc
        have := hi.seq hc
        simp only [seqs_append, lnk_append, List.map_append, ← this]
        simp [repSeqs, repLinked]
      · intro hc; simpa [repTags, repStarted] using hi.tag hc
      · have := hi.link
        rw [hfl] at this
        simpa [repStarted, repLinked] using this
      · rw [e]; simpa [repAccepted, repStarted, repDropped] using hi.acc
      · simpa [repStarted, repLinked, sendingOf, List.filter_append] using hpo
      · simpa [repStarted, repAccepted] using hi.order
      · rw [e]; exact hi.nps.1
    · cases h
  | npGet =>
    simp only [step] at h
    split at h
    · next u rest hn hq =>
      cases h
      have e : repWaiting { s with np := .waiting u, npq := rest } = repWaiting s := by simp [repWaiting, waitingOf, hn, hq]
      have ef : repFlying { s with np := .waiting u, npq := rest } = repFlying s := by simp [repFlying, sendingOf, hn]
      exact ⟨hi.seq, hi.tag, by rw [ef]; exact hi.link, by rw [e]; exact hi.acc, hi.posted, hi.order, by rw [e]; exact hi.nps.1, fun u h => by cases h⟩
    · cases h
  | npGo master tag =>
    simp only [step] at h
    split at h
    · next u hn =>
      have hnp : u.tlp.isNonposted = true := hi.nps.1 u (by simp [repWaiting, waitingOf, hn])
      have hacc := hi.acc
      have hfl : repFlying s = sendingOf s.rq := by simp [repFlying, sendingOf, hn]
      cases master with
      | true =>
        simp only [go, if_true] at h
        cases h
        have e : repWaiting s = u :: repWaiting { s with np := .sending (retag p u tag), tagQ := if p.client then s.tagQ else s.tagQ ++ [tag], hist := s.hist ++ [.started (retag p u tag)] } := by
          simp [repWaiting, waitingOf, hn]
        rw [e] at hacc
        refine ⟨?_, ?_, ?_, ?_, ?_, ?_, ?_, ?_⟩
        · intro hc; simpa [repSeqs, repLinked] using hi.seq hc
        · intro hc
          have := hi.tag hc
          cases hcl : p.client with
          | true => rw [hcl] at this; simpa [repTags, hcl] using this
          | false =>
            rw [hcl] at this
            simp only [Bool.false_eq_true, if_false] at this ⊢
            simp only [tags_append, sta_append]
            have e2 : repTags [.started (retag p u tag)] = [] := rfl
            have e4 : repStarted [.started (retag p u tag)] = [retag p u tag] := rfl
            rw [e2, e4, List.append_nil, ← List.append_assoc, this]
            simp [List.filter_append, retag_np, hnp, retag_tag _ _ _ hcl]
        · have hlink := hi.link
          rw [hfl] at hlink
          simp only [sta_append, lnk_append]
          have e4 : repStarted [.started (retag p u tag)] = [retag p u tag] := rfl
          have e6 : repLinked [.started (retag p u tag)] = [] := rfl
          rw [e4, e6, List.append_nil]
          refine (hlink.append_right _).trans ?_
          rw [List.append_assoc]
          exact List.Perm.refl _
        · simp only [acc_append, sta_append, drp_append]
          have := mid (by simpa [List.map_append] using hacc) (noTag_retag p u tag)
          simpa [repAccepted, repStarted, repDropped, List.map_append] using this
        · have := hi.posted
          simp only [sta_append, lnk_append, List.filter_append, this]
          simp [repStarted, repLinked, postedReq, retag_np, hnp]
        · simpa [repStarted, repAccepted, postedReq, retag_np, hnp] using hi.order
        · intro x hx; exact hi.nps.1 x (by rw [e]; exact List.mem_cons_of_mem _ hx)
        · intro x hx; cases hx; rw [retag_np]; exact hnp
      | false =>
        simp only [go, Bool.false_eq_true, if_false] at h
        cases h
        have e : repWaiting s = u :: repWaiting { s with np := .idle, hist := s.hist ++ [.dropped u] } := by simp [repWaiting, waitingOf, hn]
        have ef : repFlying { s with np := .idle, hist := s.hist ++ [.dropped u] } = repFlying s := by rw [hfl]; simp [repFlying, sendingOf]
        rw [e] at hacc
        refine ⟨?_, ?_, ?_, ?_, ?_, ?_, ?_, fun u h => by cases h⟩
        · intro hc; simpa [repSeqs, repLinked] using hi.seq hc
        · intro hc; simpa [repTags, repStarted] using hi.tag hc
        · rw [ef]; simpa [repStarted, repLinked] using hi.link
        · simp only [acc_append, sta_append, drp_append]
          have := mid2 (by simpa [List.map_append] using hacc)
          simpa [repAccepted, repStarted, repDropped, List.map_append] using this
        · simpa [repStarted, repLinked] using hi.posted
        · simpa [repStarted, repAccepted] using hi.order
        · intro x hx; exact hi.nps.1 x (by rw [e]; exact List.mem_cons_of_mem _ hx)
    · cases h
  | npSent =>
    simp only [step] at h
    split at h
    · next u hn =>
      cases h
      have hnp := hi.nps.2 u hn
      have e : repWaiting { s with np := .idle, seqQ := s.seqQ ++ [u.seqNum], hist := s.hist ++ [.linked u] } = repWaiting s := by simp [repWaiting, waitingOf, hn]
      have hfl : repFlying s = repFlying { s with np := .idle, seqQ := s.seqQ ++ [u.seqNum], hist := s.hist ++ [.linked u] } ++ [u] := by simp [repFlying, sendingOf, hn]
      refine ⟨?_, ?_, ?_, ?_, ?_, ?_, ?_, fun u h => by cases h⟩
      · intro hc
        have := hi.seq hc
        simp only [seqs_append, lnk_append, List.map_append, ← this]
        simp [repSeqs, repLinked]
      · intro hc; simpa [repTags, repStarted] using hi.tag hc
      · have := hi.link
        rw [hfl] at this
        simp only [sta_append, lnk_append]
        have e4 : repStarted [.linked u] = [] := rfl
        have e6 : repLinked [.linked u] = [u] := rfl
        rw [e4, e6, List.append_nil, List.append_assoc]
        exact this.trans ((List.perm_append_comm).append_left _)
      · rw [e]; simpa [repAccepted, repStarted, repDropped] using hi.acc
      · have := hi.posted
        simpa [repStarted, repLinked, postedReq, hnp] using this
      · simpa [repStarted, repAccepted] using hi.order
      · rw [e]; exact hi.nps.1
    · cases h
  | clock =>
    simp only [step] at h
    cases h
    have e : ∀ q r a b c d, repWaiting { s with seqQ := q, tagQ := r, hist := s.hist ++ [.shown a b c d] } = repWaiting s := fun _ _ _ _ _ _ => rfl
    refine ⟨?_, ?_, ?_, ?_, ?_, ?_, hi.nps.1, hi.nps.2⟩
    · intro hc
      have := hi.seq hc
      have hp := pop2_conn (wide := p.wide) hc.1 (fun h => (hc.2.2 h).1) s.seqQ
      simp only [seqs_append, lnk_append]
      rw [show repLinked [RepObs.shown _ _ _ _] = [] from rfl, List.append_nil, ← this, List.append_assoc]
      congr 1
      simpa [repSeqs] using hp
    · intro hc
      have := hi.tag hc
      have hp := pop2_conn (wide := p.wide) hc.2.1 (fun h => (hc.2.2 h).2) s.tagQ
      simp only [tags_append, sta_append]
      rw [show repStarted [RepObs.shown _ _ _ _] = [] from rfl, List.append_nil, ← this, List.append_assoc]
      congr 1
      simpa [repTags] using hp
    · have := hi.link; simpa [repStarted, repLinked, repFlying] using this
    · simpa [repAccepted, repStarted, repDropped, repWaiting] using hi.acc
    · simpa [repStarted, repLinked] using hi.posted
    · simpa [repStarted, repAccepted] using hi.order

theorem init_inv (p : RepPorts) : RInv p {} := by
  refine ⟨fun _ => rfl, fun _ => ?_, ?_, ?_, rfl, ?_, ?_, ?_⟩
  · cases p.client <;> rfl
  · exact List.Perm.refl _
  · exact List.Perm.refl _
  · exact List.Sublist.refl _
  · intro u hu; simp [repWaiting, waitingOf] at hu
  · intro u hu; cases hu

theorem run_inv {p : RepPorts} {s s' : RqRep} (hi : RInv p s) : ∀ es, s.run p es = some s' → RInv p s' := by
  intro es
  induction es generalizing s with
  | nil => intro h; cases h; exact hi
  | cons e es ih =>
    intro h
    unfold run at h
    split at h
    · cases h
    · next s1 h1 => exact ih (step_inv hi h1) h

end RqRep
end Pcie

namespace Pcie
open Spec
namespace RqRep

/-! ### Clock edges -/

/-- How many values can be shown at a clock edge. -/
theorem pop2_drop (wide c0 c1 : Bool) (q : List Nat) : (pop2 wide c0 c1 q).2.2 = q.drop (if wide then 2 else 1) := by
  cases wide <;> rcases q with _ | ⟨a, _ | ⟨b, q⟩⟩ <;> rfl

theorem clocks (p : RepPorts) : ∀ (n : Nat) (s : RqRep), ∃ s', s.run p (List.replicate n .clock) = some s' ∧ s'.seqQ = s.seqQ.drop (n * if p.wide then 2 else 1) ∧
    s'.tagQ = s.tagQ.drop (n * if p.wide then 2 else 1) ∧ repLinked s'.hist = repLinked s.hist ∧ repStarted s'.hist = repStarted s.hist := by
  intro n
  induction n with
  | zero => intro s; exact ⟨s, rfl, by simp, by simp, rfl, rfl⟩
  | succ n ih =>
    intro s
    obtain ⟨s1, h1, hq, ht, hl, hst⟩ : ∃ s1, s.step p .clock = some s1 ∧ s1.seqQ = s.seqQ.drop (if p.wide then 2 else 1) ∧ s1.tagQ = s.tagQ.drop (if p.wide then 2 else 1) ∧
        repLinked s1.hist = repLinked s.hist ∧ repStarted s1.hist = repStarted s.hist :=
      ⟨_, rfl, pop2_drop .., pop2_drop .., by simp [repLinked], by simp [repStarted]⟩
    obtain ⟨s', h', hq', ht', hl', hst'⟩ := ih s1
    refine ⟨s', ?_, ?_, ?_, hl'.trans hl, hst'.trans hst⟩
    · rw [List.replicate_succ, run, h1]; exact h'
    · rw [hq', hq, List.drop_drop, Nat.succ_mul, Nat.add_comm]
    · rw [ht', ht, List.drop_drop, Nat.succ_mul, Nat.add_comm]

/-! ### Requests wait for the posted requests before them -/

def Before (h : List RepObs) : Prop :=
  ∀ pre post u, h = pre ++ .accepted u :: post → (repLinked pre).filter postedReq = (repStarted pre).filter postedReq

theorem before_append {h : List RepObs} (hb : Before h) (o : RepObs) (ho : ∀ u, o ≠ .accepted u) : Before (h ++ [o]) := by
  intro pre post u he
  rcases List.append_eq_append_iff.mp he with ⟨a, ha, hb2⟩ | ⟨a, ha, hb2⟩
  · cases a with
    | nil => simp only [List.nil_append] at hb2; exact absurd (List.cons.inj hb2).1 (ho u)
    | cons x a => rw [List.cons_append] at hb2; exact absurd (List.cons.inj hb2).2 (by simp)
  · cases a with
    | nil => simp only [List.nil_append] at hb2; exact absurd (List.cons.inj hb2).1.symm (ho u)
    | cons x a =>
      rw [List.cons_append] at hb2
      obtain ⟨rfl, -⟩ := List.cons.inj hb2
      exact hb pre a u ha

theorem before_acc {h : List RepObs} (hb : Before h) (v : UsTlp) (hv : (repLinked h).filter postedReq = (repStarted h).filter postedReq) : Before (h ++ [.accepted v]) := by
  intro pre post u he
  rcases List.append_eq_append_iff.mp he with ⟨a, ha, hb2⟩ | ⟨a, ha, hb2⟩
  · cases a with
    | nil => rw [List.append_nil] at ha; rw [ha]; exact hv
    | cons x a => rw [List.cons_append] at hb2; exact absurd (List.cons.inj hb2).2 (by simp)
  · cases a with
    | nil => rw [List.append_nil] at ha; rw [← ha]; exact hv
    | cons x a =>
      rw [List.cons_append] at hb2
      obtain ⟨rfl, -⟩ := List.cons.inj hb2
      exact hb pre a u ha

theorem go_hist (p : RepPorts) (s : RqRep) (u : UsTlp) (m : Bool) (t : Nat) :
    ∃ o, (∀ u, o ≠ RepObs.accepted u) ∧ (go p s u m t).1.hist = s.hist ++ [o] := by
  unfold go; cases m with
  | true => exact ⟨.started (retag p u t), ⟨fun u h => (by cases h), rfl⟩⟩
  | false => exact ⟨.dropped u, ⟨fun u h => (by cases h), rfl⟩⟩

theorem step_before {p : RepPorts} {s s' : RqRep} {e : RepEv} (hi : RInv p s) (hb : Before s.hist) (h : s.step p e = some s') : Before s'.hist := by
  cases e with
  | rq u room master tag =>
    simp only [step] at h
    split at h
    · next hrq =>
      have hpo := hi.posted
      rw [hrq] at hpo
      simp only [sendingOf, List.filter_nil, List.append_nil] at hpo
      have ha := before_acc hb u hpo.symm
      split at h
      · cases h; exact hb
      · split at h
        · split at h
          · cases h
            obtain ⟨o, ho, he⟩ := go_hist p { s with hist := s.hist ++ [.accepted u] } u master tag
            rw [he]; exact before_append ha o ho
          · split at h <;> (cases h; exact ha)
        · split at h
          · cases h; exact before_append ha _ (fun u h => by cases h)
          · cases h; exact before_append ha _ (fun u h => by cases h)
    · cases h
  | rqWake =>
    simp only [step] at h
    split at h
    · split at h <;> cases h; exact hb
    · cases h
  | rqSent =>
    simp only [step] at h
    split at h
    · cases h; exact before_append hb _ (fun u h => by cases h)
    · cases h
  | npGet =>
    simp only [step] at h
    split at h <;> cases h; exact hb
  | npGo master tag =>
    simp only [step] at h
    split at h
    · next u _ =>
      cases h
      obtain ⟨o, ho, he⟩ := go_hist p s u master tag
      rw [he]; exact before_append hb o ho
    · cases h
  | npSent =>
    simp only [step] at h
    split at h
    · cases h; exact before_append hb _ (fun u h => by cases h)
    · cases h
  | clock =>
    simp only [step] at h
    cases h; exact before_append hb _ (fun u h => by cases h)

theorem run_before {p : RepPorts} {s s' : RqRep} (hi : RInv p s) (hb : Before s.hist) : ∀ es, s.run p es = some s' → Before s'.hist := by
  intro es
  induction es generalizing s with
  | nil => intro h; cases h; exact hb
  | cons e es ih =>
    intro h
    unfold run at h
    split at h
    · cases h
    · next s1 h1 => exact ih (step_inv hi h1) (step_before hi hb h1) h

/-! ### The order of tags -/

theorem started_fifo {p : RepPorts} : ∀ (es : List RepEv) {s s' : RqRep}, RInv p s →
    (∀ k u room m t r, es[k]? = some (.rq u room m t) → s.run p (es.take k) = some r → waitingOf r.np = []) →
    repDropped s'.hist = [] → s.run p es = some s' →
    ((repAccepted s.hist).filter (·.tlp.isNonposted)).map noTag = (((repStarted s.hist).filter (·.tlp.isNonposted)) ++ repWaiting s).map noTag →
    ((repAccepted s'.hist).filter (·.tlp.isNonposted)).map noTag = (((repStarted s'.hist).filter (·.tlp.isNonposted)) ++ repWaiting s').map noTag := by
  intro es
  induction es with
  | nil => intro s s' _ _ _ h hf; cases h; exact hf
  | cons e es ih =>
    intro s s' hi hq hd h hf
    have h0 := h
    unfold run at h
    split at h
    · cases h
    · next s1 h1 =>
      refine ih (step_inv hi h1) ?_ hd h ?_
      · intro k u room m t r hk hr
        refine hq (k + 1) u room m t r (by simpa using hk) ?_
        rw [List.take_succ_cons, run, h1]; exact hr
      · have hd1 : repDropped s1.hist = [] := by
          have mono : ∀ (es : List RepEv) (a b : RqRep), a.run p es = some b → repDropped b.hist = [] → repDropped a.hist = [] := by
            intro es
            induction es with
            | nil => intro a b hab hb; cases hab; exact hb
            | cons x es ih2 =>
              intro a b hab hb
              unfold run at hab
              split at hab
              · cases hab
              · next a1 ha1 =>
                have := ih2 a1 b hab hb
                obtain ⟨l, hl⟩ : ∃ l, a1.hist = a.hist ++ l := by
                  cases x <;> simp only [step] at ha1
                  case rq =>
                    split at ha1
                    · split at ha1
                      · cases ha1; exact ⟨[], by simp⟩
                      · split at ha1
                        · split at ha1
                          · cases ha1
                            obtain ⟨o, -, he⟩ := go_hist p { a with hist := a.hist ++ [.accepted _] } _ _ _
                            exact ⟨_, by rw [he, List.append_assoc]⟩
                          · split at ha1 <;> (cases ha1; exact ⟨_, rfl⟩)
                        · split at ha1 <;> (cases ha1; exact ⟨_, List.append_assoc ..⟩)
                    · cases ha1
                  case rqWake =>
                    split at ha1
                    · split at ha1 <;> cases ha1; exact ⟨[], by simp⟩
                    · cases ha1
                  case rqSent => split at ha1 <;> cases ha1; exact ⟨_, rfl⟩
                  case npGet => split at ha1 <;> cases ha1; exact ⟨[], by simp⟩
                  case npGo =>
                    split at ha1
                    · cases ha1
                      obtain ⟨o, -, he⟩ := go_hist p a _ _ _
                      exact ⟨_, he⟩
                    · cases ha1
                  case npSent => split at ha1 <;> cases ha1; exact ⟨_, rfl⟩
                  case clock => cases ha1; exact ⟨_, rfl⟩
                rw [hl, drp_append, List.append_eq_nil_iff] at this
                exact this.1
          exact mono es s1 s' h hd
        cases e with
        | rq u room master tag =>
          have hw0 := hq 0 u room master tag s rfl rfl
          simp only [step] at h1
          split at h1
          · next hrq =>
            split at h1
            · cases h1; exact hf
            · split at h1
              · next hnp =>
                split at h1
                · next hr =>
                  cases master with
                  | true =>
                    simp only [go, if_true] at h1
                    cases h1
                    have hw : repWaiting s = [] := by rw [repWaiting, hw0, hr.1, hrq]; rfl
                    rw [hw, List.append_nil] at hf
                    have hw2 : repWaiting { s with rq := .sending (retag p u tag), tagQ := if p.client then s.tagQ else s.tagQ ++ [tag], hist := s.hist ++ [.accepted u] ++ [.started (retag p u tag)] } = [] := by
                      rw [repWaiting]; simp only [hw0, hr.1]; rfl
                    rw [hw2, List.append_nil]
                    simp only [acc_append, sta_append, List.filter_append, List.map_append, hf]
                    simp [repAccepted, repStarted, retag_np, hnp, noTag_retag]
                  | false =>
                    simp only [go, Bool.false_eq_true, if_false] at h1
                    cases h1
                    simp [repDropped] at hd1
                · split at h1
                  · cases h1
                    simp only [acc_append, sta_append, List.filter_append, List.map_append] at hf ⊢
                    rw [hf]
                    simp [repWaiting, repAccepted, repStarted, hrq, waitingOf, hnp]
                  · cases h1
                    simp only [acc_append, sta_append, List.filter_append, List.map_append] at hf ⊢
                    rw [hf]
                    simp [repWaiting, repAccepted, repStarted, hrq, waitingOf, hnp]
              · next hnp =>
                split at h1
                · cases h1
                  simp only [acc_append, sta_append, List.filter_append, List.map_append] at hf ⊢
                  rw [hf]
                  simp [repWaiting, repAccepted, repStarted, hrq, waitingOf, hnp]
                · cases h1; simp [repDropped] at hd1
          · cases h1
        | rqWake =>
          simp only [step] at h1
          split at h1
          · next hrq =>
            split at h1
            · cases h1
            · cases h1
              rw [hf]; simp [repWaiting, hrq, waitingOf]
          · cases h1
        | rqSent =>
          simp only [step] at h1
          split at h1
          · next hrq =>
            cases h1
            simpa [repWaiting, repAccepted, repStarted, hrq, waitingOf] using hf
          · cases h1
        | npGet =>
          simp only [step] at h1
          split at h1
          · next hn hqq =>
            cases h1
            rw [hf]; simp [repWaiting, hn, hqq, waitingOf]
          · cases h1
        | npGo master tag =>
          simp only [step] at h1
          split at h1
          · next u hn =>
            have hnp : u.tlp.isNonposted = true := hi.nps.1 u (by simp [repWaiting, waitingOf, hn])
            cases master with
            | true =>
              simp only [go, if_true] at h1
              cases h1
              simp only [acc_append, sta_append, List.filter_append, List.map_append] at hf ⊢
              rw [show repAccepted [RepObs.started (retag p u tag)] = [] from rfl, List.filter_nil, List.map_nil, List.append_nil, hf]
              simp [repWaiting, repStarted, hn, waitingOf, retag_np, hnp, noTag_retag]
            | false =>
              simp only [go, Bool.false_eq_true, if_false] at h1
              cases h1
              simp [repDropped] at hd1
          · cases h1
        | npSent =>
          simp only [step] at h1
          split at h1
          · next hn =>
            cases h1
            simpa [repWaiting, repAccepted, repStarted, hn, waitingOf] using hf
          · cases h1
        | clock =>
          simp only [step] at h1
          cases h1
          simpa [repWaiting, repAccepted, repStarted] using hf

end RqRep
end Pcie
