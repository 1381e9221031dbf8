import Verif.Lemmas.UsHip
import Verif.Spec.UsOrder
/-
Lemmas for C53: what a step of the Xilinx hard IP models adds to the history.
-/
namespace Pcie
open Spec
namespace Hip

/-- The request that a task holds. -/
def npWait : NpSt → List Tlp
  | .idle => []
  | .waitCredit t => [t]
  | .ready t => [t]
  | .waitTag t => [t]
@[inherit_doc npWait] def rqWait : RqSt → List Tlp
  | .idle => []
  | .blocked t => [t]
  | .ready t => [t]

theorem waits_eq (s : Hip) : waiting s = npWait s.np ++ s.npq ++ rqWait s.rq := by
  obtain ⟨np, rq, h1, h2⟩ : ∃ np rq, s.np = np ∧ s.rq = rq := ⟨_, _, rfl, rfl⟩
  rw [waiting, h1, h2]
  cases np <;> cases rq <;> rfl

/-- What a step adds to the history, with the change of the waiting requests. -/
inductive Adds (s s' : Hip) : List HipObs → Prop
  | posted (t : Tlp) (o : HipObs) : t.isNonposted = false → (o = .sent t.copy ∨ o = .refused t) → waiting s' = waiting s → Adds s s' [.accepted t, o]
  | direct (t x : Tlp) (o : HipObs) : t.isNonposted = true → x.isNonposted = true → untagged x = untagged t → (o = .sent x ∨ o = .refused x) → s.npq = [] → s.rq = .idle →
      waiting s' = waiting s → Adds s s' [.accepted t, o]
  | queue (t : Tlp) : t.isNonposted = true → waiting s' = waiting s ++ [t] → Adds s s' [.accepted t]
  | leave (t x : Tlp) (o : HipObs) : t.isNonposted = true → x.isNonposted = true → untagged x = untagged t → (o = .sent x ∨ o = .refused x) →
      waiting s = t :: waiting s' → Adds s s' [o]
  | other (d : List HipObs) : (∀ o ∈ d, (∀ t, o ≠ .accepted t) ∧ (∀ t, o ≠ .sent t) ∧ ∀ t, o ≠ .refused t) → waiting s' = waiting s → Adds s s' d

theorem issue_adds {p : HipParams} {s s' : Hip} {t : Tlp} (h : issue p s t = .ok s') :
    ∃ k, s'.hist = s.hist ++ [.sent ({ t with tag := k } : Tlp).copy] ∧ s'.np = s.np ∧ s'.npq = s.npq ∧ s'.rq = s.rq := by
  unfold issue at h
  split at h
  · cases h
  · split at h
    · cases h
    · cases h
    · cases h; exact ⟨_, rfl, rfl, rfl, rfl⟩

theorem enqueue_len (p : HipParams) (s : Hip) (t : Tlp) (h : s.npq.length ≤ p.npLimit) : (enqueue p s t).npq.length ≤ p.npLimit := by
  unfold enqueue
  split
  · exact h
  · simp; omega

theorem enqueue_waiting {p : HipParams} {s : Hip} {t : Tlp} : waiting (enqueue p s t) = npWait s.np ++ s.npq ++ [t] := by
  unfold enqueue
  split
  · simp [waits_eq, rqWait]
  · simp [waits_eq, rqWait]

theorem enqueue_hist (p : HipParams) (s : Hip) (t : Tlp) : (enqueue p s t).hist = s.hist := by
  unfold enqueue; split <;> rfl

theorem rqRecv_adds {p : HipParams} {s s' : Hip} {u : UsTlp} (hr : s.rq = .idle) (h : rqRecv p s u = .ok s') :
    ∃ d, s'.hist = s.hist ++ d ∧ Adds s s' d ∧ (s.npq.length ≤ p.npLimit → s'.npq.length ≤ p.npLimit) := by
  unfold rqRecv at h
  split at h
  · cases h; exact ⟨[], by simp, .other _ (by simp) rfl, id⟩
  simp only at h
  generalize s.requester u = t at h
  split at h
  · cases h
  · next hf =>
    have ht : t.isNonposted = true := by simp [Tlp.isNonposted, hf]
    unfold rqNonposted at h
    simp only at h
    split at h
    · next hc =>
      split at h
      · cases h
      · cases h
        exact ⟨[.accepted t, .refused t], by simp, .direct t t _ ht ht rfl (.inr rfl) hc.1 hr rfl, id⟩
      · by_cases hb : t.tag < (if s.ext then p.tagMax else 32)
        · rw [if_pos hb] at h
          obtain ⟨k, a1, a2, a3, a4⟩ := issue_adds h
          refine ⟨[.accepted t, .sent ({ t with tag := k } : Tlp).copy], by rw [a1]; simp, .direct t ({ t with tag := k } : Tlp).copy _ ht ht rfl (.inl rfl) hc.1 hr ?_, by rw [a3]; exact id⟩
          exact waiting_congr a2 a3 a4
        · rw [if_neg hb] at h; cases h
    · cases h
      refine ⟨[.accepted t], enqueue_hist _ _ _, .queue t ht ?_, enqueue_len p { s with hist := s.hist ++ [.accepted t] } t⟩
      rw [enqueue_waiting, waits_eq s, hr]
      simp [rqWait]
  · next fc hne hf =>
    have ht : t.isNonposted = false := by
      unfold Tlp.isNonposted
      rw [hf]
      cases fc with
      | NP => exact absurd rfl hne
      | _ => rfl
    unfold rqPosted at h
    split at h
    · cases h
    · cases h; exact ⟨[.accepted t, .refused t], by simp, .posted t _ ht (.inr rfl) rfl, id⟩
    · cases h; exact ⟨[.accepted t, .sent t.copy], by simp, .posted t _ ht (.inl rfl) rfl, id⟩

theorem npTry_adds {p : HipParams} {s0 s s' : Hip} {t : Tlp} (ht : t.isNonposted = true) (hh : s0.hist = s.hist)
    (hw : waiting s0 = t :: (s.npq ++ rqWait s.rq)) (h : npTry p s t = .ok s') :
    ∃ d, s'.hist = s0.hist ++ d ∧ Adds s0 s' d ∧ s'.npq = s.npq := by
  unfold npTry at h
  split at h
  · cases h
    exact ⟨[], by simp [hh], .other _ (by simp) (by rw [hw, waits_eq]; simp [npWait]), rfl⟩
  split at h
  · cases h
    exact ⟨[], by simp [hh], .other _ (by simp) (by rw [hw, waits_eq]; simp [npWait]), rfl⟩
  simp only at h
  split at h
  · cases h
  · cases h
    exact ⟨[.refused t], by simp [hh], .leave t t _ ht ht rfl (.inr rfl) (by rw [hw, waits_eq]; simp [npWait]), rfl⟩
  · obtain ⟨k, a1, a2, a3, a4⟩ := issue_adds h
    refine ⟨[.sent ({ t with tag := k } : Tlp).copy], by rw [a1, hh], .leave t ({ t with tag := k } : Tlp).copy _ ht ht rfl (.inl rfl) ?_, a3⟩
    rw [hw, waits_eq s', a2, a3, a4]
    simp [npWait]

theorem cplRecv_adds {p : HipParams} {s s' : Hip} {c : Tlp} (h : cplRecv p s c = .ok s') :
    ∃ d, s'.hist = s.hist ++ d ∧ Adds s s' d ∧ s'.npq = s.npq := by
  unfold cplRecv at h
  split at h
  · split at h
    · cases h
    · next req hr =>
      simp only at h
      generalize judge req { UsTlp.ofTlp c with errorCode := if c.ep then 1 else 0 } = j at h
      cases h
      unfold account
      simp only
      have hw : ∀ (r : Hip), r.np = release s.np → r.npq = s.npq → r.rq = s.rq → waiting r = waiting s := by
        intro r h1 h2 h3
        rw [waits_eq, waits_eq, h1, h2, h3]
        cases s.np <;> rfl
      unfold buffer
      simp only
      split
      · exact ⟨[.cpl c], rfl, .other _ (by simp) (hw _ rfl rfl rfl), rfl⟩
      · exact ⟨[.cpl c, .lost j.1], by simp, .other _ (by simp) (hw _ rfl rfl rfl), rfl⟩
  · cases h; exact ⟨[], by simp, .other _ (by simp) rfl, rfl⟩

theorem step_adds {p : HipParams} {s s' : Hip} {e : HipEv} (hi : Inv p s) (h : step p s e = some (.ok s')) :
    ∃ d, s'.hist = s.hist ++ d ∧ Adds s s' d ∧ (s.npq.length ≤ p.npLimit → s'.npq.length ≤ p.npLimit) := by
  cases e with
  | rq u =>
    simp only [step] at h
    split at h
    · next hr => exact rqRecv_adds hr (Option.some.inj h)
    · cases h
  | rqWake =>
    simp only [step] at h
    split at h
    · next t hr =>
      have h := Option.some.inj h
      cases h
      exact ⟨[], by simp [enqueue_hist], .other _ (by simp) (by rw [enqueue_waiting, waits_eq s, hr]; rfl), enqueue_len p s t⟩
    · cases h
  | npGet =>
    simp only [step] at h
    split at h
    · next t rest hn hq =>
      have hw : waiting s = t :: (rest ++ rqWait (unblock s.rq)) := by
        rw [waits_eq, hn, hq]
        cases s.rq <;> rfl
      obtain ⟨d, d1, d2, d3⟩ := npTry_adds (s0 := s) (s := { s with npq := rest, rq := unblock s.rq }) (hi.np t (by rw [hw]; simp)) rfl hw (Option.some.inj h)
      exact ⟨d, d1, d2, fun hl => by rw [d3]; rw [hq] at hl; simp at hl ⊢; omega⟩
    · cases h
  | npWake =>
    simp only [step] at h
    split at h
    · next t hn =>
      have hw : waiting s = t :: (s.npq ++ rqWait s.rq) := by rw [waits_eq, hn]; simp [npWait]
      obtain ⟨d, d1, d2, d3⟩ := npTry_adds (hi.np t (by rw [hw]; simp)) rfl hw (Option.some.inj h)
      exact ⟨d, d1, d2, fun hl => by rw [d3]; exact hl⟩
    · cases h
  | cpl c =>
    simp only [step] at h
    split at h
    · obtain ⟨d, d1, d2, d3⟩ := cplRecv_adds (Option.some.inj h)
      exact ⟨d, d1, d2, fun hl => by rw [d3]; exact hl⟩
    · cases h
  | rcGet =>
    simp only [step] at h
    split at h
    · have h := Option.some.inj h
      cases h
      exact ⟨[], by simp, .other _ (by simp) rfl, id⟩
    · cases h
  | rcDone =>
    simp only [step] at h
    split at h
    · next u hn =>
      have h := Option.some.inj h
      cases h
      exact ⟨[.delivered u], rfl, .other _ (by simp) rfl, id⟩
    · cases h
  | cfg ext b f =>
    have h := Option.some.inj h
    cases h
    exact ⟨[], by simp, .other _ (by simp) rfl, id⟩

/-- A posted request is followed at once by its sending or dropping. -/
def AtOnce (h : List HipObs) : Prop := ∀ pre t post, h = pre ++ .accepted t :: post → t.isNonposted = false → ∃ post', post = .sent t.copy :: post' ∨ post = .refused t :: post'

theorem atOnce_append {h d : List HipObs} (h1 : AtOnce h) (h2 : AtOnce d) : AtOnce (h ++ d) := by
  intro pre t post he ht
  rcases List.append_eq_append_iff.mp he with ⟨a, rfl, ha⟩ | ⟨a, rfl, ha⟩
  · exact h2 a t post ha ht
  · rcases a with _ | ⟨x, a⟩
    · simp at ha
      exact h2 [] t post (by simpa using ha.symm) ht
    · simp only [List.cons_append, List.cons.injEq] at ha
      obtain ⟨rfl, rfl⟩ := ha
      obtain ⟨q, hq | hq⟩ := h1 pre t a rfl ht
      · exact ⟨q ++ d, .inl (by rw [hq]; rfl)⟩
      · exact ⟨q ++ d, .inr (by rw [hq]; rfl)⟩

theorem adds_atOnce {s s' : Hip} {d : List HipObs} (h : Adds s s' d) : AtOnce d := by
  intro pre t post he ht
  cases h with
  | posted t' o h1 h2 _ =>
    rcases pre with _ | ⟨x, pre⟩
    · simp only [List.nil_append, List.cons.injEq, HipObs.accepted.injEq] at he
      obtain ⟨rfl, rfl⟩ := he
      rcases h2 with rfl | rfl
      · exact ⟨[], .inl rfl⟩
      · exact ⟨[], .inr rfl⟩
    · have hm : HipObs.accepted t ∈ [o] := by
        simp only [List.cons_append, List.cons.injEq] at he
        rw [he.2]; simp
      rw [List.mem_singleton] at hm
      rcases h2 with rfl | rfl <;> cases hm
  | direct t' x o h1 h2 h3 h4 =>
    exfalso
    have hm : HipObs.accepted t ∈ [.accepted t', o] := by rw [he]; simp
    simp only [List.mem_cons, List.not_mem_nil, or_false, HipObs.accepted.injEq] at hm
    rcases hm with rfl | hm
    · rw [h1] at ht; cases ht
    · rcases h4 with rfl | rfl <;> cases hm
  | queue t' h1 h2 =>
    exfalso
    have hm : HipObs.accepted t ∈ [.accepted t'] := by rw [he]; simp
    simp only [List.mem_cons, List.not_mem_nil, or_false, HipObs.accepted.injEq] at hm
    subst hm
    rw [h1] at ht; cases ht
  | leave t' x o h1 h2 h3 h4 =>
    exfalso
    have hm : HipObs.accepted t ∈ [o] := by rw [he]; simp
    rw [List.mem_singleton] at hm
    rcases h4 with rfl | rfl <;> cases hm
  | other _ h1 =>
    exfalso
    exact (h1 (.accepted t) (by rw [he]; simp)).1 t rfl

theorem postedDone_append (a b : List HipObs) : postedDone (a ++ b) = postedDone a ++ postedDone b := List.filterMap_append
theorem nonpostedDone_append (a b : List HipObs) : nonpostedDone (a ++ b) = nonpostedDone a ++ nonpostedDone b := List.filterMap_append
theorem postedMade_append (a b : List HipObs) : postedMade (a ++ b) = postedMade a ++ postedMade b := by simp [postedMade, acceptedOf, List.filterMap_append]
theorem nonpostedMade_append (a b : List HipObs) : nonpostedMade (a ++ b) = nonpostedMade a ++ nonpostedMade b := by simp [nonpostedMade, acceptedOf, List.filterMap_append]

theorem other_nil {d : List HipObs} (h : ∀ o ∈ d, (∀ t, o ≠ .accepted t) ∧ (∀ t, o ≠ .sent t) ∧ ∀ t, o ≠ .refused t) :
    postedDone d = [] ∧ nonpostedDone d = [] ∧ acceptedOf d = [] := by
  refine ⟨?_, ?_, ?_⟩ <;> refine List.filterMap_eq_nil_iff.mpr fun o ho => ?_
  all_goals
    obtain ⟨h1, h2, h3⟩ := h o ho
    cases o <;> first | rfl | (exact absurd rfl (h1 _)) | (exact absurd rfl (h2 _)) | (exact absurd rfl (h3 _))

/-- Posted requests leave in the order in which they were made. -/
theorem adds_posted {s s' : Hip} {d : List HipObs} (h : Adds s s' d) : postedDone d = postedMade d := by
  cases h with
  | posted t o h1 h2 _ =>
    rcases h2 with rfl | rfl <;> simp [postedDone, postedMade, acceptedOf, h1, copy_isNonposted, untagged_copy]
  | direct t x o h1 h2 h3 h4 => rcases h4 with rfl | rfl <;> simp [postedDone, postedMade, acceptedOf, h1, h2]
  | queue t h1 h2 => simp [postedDone, postedMade, acceptedOf, h1]
  | leave t x o h1 h2 h3 h4 => rcases h4 with rfl | rfl <;> simp [postedDone, postedMade, acceptedOf, h2]
  | other _ h1 =>
    obtain ⟨e1, _, e3⟩ := other_nil h1
    simp [e1, postedMade, e3]

theorem adds_nonposted {s s' : Hip} {d : List HipObs} (h : Adds s s' d) (hd : ∀ t o, d = [.accepted t, o] → t.isNonposted = true → s.np = .idle) :
    (waiting s).map untagged ++ nonpostedMade d = nonpostedDone d ++ (waiting s').map untagged := by
  cases h with
  | posted t o h1 h2 h3 =>
    rcases h2 with rfl | rfl <;> simp [nonpostedDone, nonpostedMade, acceptedOf, h1, copy_isNonposted, h3]
  | direct t x o h1 h2 h3 h4 h5 h6 h7 =>
    have : waiting s = [] := by rw [waits_eq, hd t o rfl h1, h5, h6]; rfl
    rcases h4 with rfl | rfl <;> simp [nonpostedDone, nonpostedMade, acceptedOf, h1, h2, h7, this, h3]
  | queue t h1 h2 => simp [nonpostedDone, nonpostedMade, acceptedOf, h1, h2]
  | leave t x o h1 h2 h3 h4 h5 => rcases h4 with rfl | rfl <;> simp [nonpostedDone, nonpostedMade, acceptedOf, h2, h5, h3]
  | other _ h1 h2 =>
    obtain ⟨_, e1, e3⟩ := other_nil h1
    simp [e1, nonpostedMade, e3, h2]

theorem run_order {p : HipParams} : ∀ (es : List HipEv) {s s' : Hip}, Inv p s → s.npq.length ≤ p.npLimit → AtOnce s.hist → run p s es = some (.ok s') →
    AtOnce s'.hist ∧ s'.npq.length ≤ p.npLimit
  | [], s, s', _, hl, ha, h => by cases h; exact ⟨ha, hl⟩
  | e :: es, s, s', hi, hl, ha, h => by
    rw [run] at h
    split at h
    · cases h
    · cases h
    · next s1 h1 =>
      obtain ⟨d, d1, d2, d3⟩ := step_adds hi h1
      exact run_order es (step_inv hi h1) (d3 hl) (by rw [d1]; exact atOnce_append ha (adds_atOnce d2)) h

theorem run_posted {p : HipParams} : ∀ (es : List HipEv) {s s' : Hip}, Inv p s → run p s es = some (.ok s') →
    ∃ d, s'.hist = s.hist ++ d ∧ postedDone d = postedMade d
  | [], s, s', _, h => by cases h; exact ⟨[], by simp, rfl⟩
  | e :: es, s, s', hi, h => by
    rw [run] at h
    split at h
    · cases h
    · cases h
    · next s1 h1 =>
      obtain ⟨d, d1, d2, d3⟩ := step_adds hi h1
      obtain ⟨d', d4, d5⟩ := run_posted es (step_inv hi h1) h
      exact ⟨d ++ d', by rw [d4, d1, List.append_assoc], by rw [postedDone_append, postedMade_append, d5, adds_posted d2]⟩

theorem step_rq_direct {p : HipParams} {s s' : Hip} {e : HipEv} (h : step p s e = some (.ok s')) (he : ∀ u, e ≠ .rq u) : acceptedOf s'.hist = acceptedOf s.hist := by
  cases e with
  | rq u => exact absurd rfl (he u)
  | rqWake =>
    simp only [step] at h
    split at h
    · have h := Option.some.inj h
      cases h
      rw [enqueue_hist]
    · cases h
  | npGet =>
    simp only [step] at h
    split at h
    · next t rest hn hq =>
      have h := Option.some.inj h
      exact npTry_acc (s := { s with npq := rest, rq := unblock s.rq }) h
    · cases h
  | npWake =>
    simp only [step] at h
    split at h
    · exact npTry_acc (Option.some.inj h)
    · cases h
  | cpl c =>
    simp only [step] at h
    split at h
    · have h := Option.some.inj h
      unfold cplRecv at h
      split at h
      · split at h
        · cases h
        · next req hr =>
          simp only at h
          generalize judge req { UsTlp.ofTlp c with errorCode := if c.ep then 1 else 0 } = j at h
          cases h
          unfold account buffer
          simp only
          split
          · simp [acceptedOf]
          · simp [acceptedOf]
      · cases h; rfl
    · cases h
  | rcGet =>
    simp only [step] at h
    split at h
    · have h := Option.some.inj h
      cases h; rfl
    · cases h
  | rcDone =>
    simp only [step] at h
    split at h
    · have h := Option.some.inj h
      cases h; simp [acceptedOf]
    · cases h
  | cfg ext b f =>
    have h := Option.some.inj h
    cases h; rfl
where
  npTry_acc {p : HipParams} {s s' : Hip} {t : Tlp} (h : npTry p s t = .ok s') : acceptedOf s'.hist = acceptedOf s.hist := by
    unfold npTry at h
    split at h
    · cases h; rfl
    split at h
    · cases h; rfl
    simp only at h
    split at h
    · cases h
    · cases h; simp [acceptedOf]
    · obtain ⟨k, a1, _⟩ := issue_adds h
      rw [a1]; simp [acceptedOf]

theorem run_fifo {p : HipParams} : ∀ (es : List HipEv) {s s' : Hip}, Inv p s →
    (∀ k u r, es[k]? = some (.rq u) → run p s (es.take k) = some (.ok r) → r.np = .idle) → run p s es = some (.ok s') →
    ∃ d, s'.hist = s.hist ++ d ∧ (waiting s).map untagged ++ nonpostedMade d = nonpostedDone d ++ (waiting s').map untagged
  | [], s, s', _, _, h => by cases h; exact ⟨[], by simp, by simp [nonpostedMade, nonpostedDone, acceptedOf]⟩
  | e :: es, s, s', hi, hn, h => by
    rw [run] at h
    split at h
    · cases h
    · cases h
    · next s1 h1 =>
      obtain ⟨d, d1, d2, d3⟩ := step_adds hi h1
      obtain ⟨d', d4, d5⟩ := run_fifo es (step_inv hi h1) (fun k u r hk hr => hn (k + 1) u r hk (by
        rw [List.take_succ_cons, run, h1]; exact hr)) h
      refine ⟨d ++ d', by rw [d4, d1, List.append_assoc], ?_⟩
      have h3 := adds_nonposted d2 (fun t o hd ht => by
        by_cases hu : ∃ u, e = .rq u
        · obtain ⟨u, rfl⟩ := hu
          exact hn 0 u s rfl rfl
        · have := step_rq_direct h1 (fun u hc => hu ⟨u, hc⟩)
          rw [d1, hd] at this
          simp [acceptedOf] at this)
      rw [nonpostedDone_append, nonpostedMade_append, ← List.append_assoc, h3, List.append_assoc, d5, List.append_assoc]

/-- A non-posted request is sent after all the posted requests that were made before. -/
def Behind (h : List HipObs) : Prop := ∀ pre n post, h = pre ++ .sent n :: post → n.isNonposted = true → postedDone pre = postedMade pre

theorem adds_behind {s s' : Hip} {d : List HipObs} (h : Adds s s' d) : Behind d := by
  intro pre n post he hn
  cases h with
  | posted t o h1 h2 _ =>
    exfalso
    have hm : HipObs.sent n ∈ [.accepted t, o] := by rw [he]; simp
    simp only [List.mem_cons, List.not_mem_nil, or_false] at hm
    rcases hm with hm | hm
    · cases hm
    · rcases h2 with rfl | rfl
      · cases hm; rw [copy_isNonposted, h1] at hn; cases hn
      · cases hm
  | direct t x o h1 h2 h3 h4 =>
    rcases pre with _ | ⟨a, _ | ⟨b, pre⟩⟩
    · cases he
    · simp only [List.cons_append, List.nil_append, List.cons.injEq] at he
      rw [← he.1]
      simp [postedDone, postedMade, acceptedOf, h1]
    · have := congrArg List.length he
      simp at this
  | queue t h1 h2 =>
    exfalso
    have hm : HipObs.sent n ∈ [.accepted t] := by rw [he]; simp
    simp at hm
  | leave t x o h1 h2 h3 h4 =>
    rcases pre with _ | ⟨a, pre⟩
    · rfl
    · have := congrArg List.length he
      simp at this
  | other _ h1 =>
    exfalso
    exact (h1 (.sent n) (by rw [he]; simp)).2.1 n rfl

theorem behind_append {h d : List HipObs} (h0 : postedDone h = postedMade h) (h1 : Behind h) (h2 : Behind d) : Behind (h ++ d) := by
  intro pre n post he hn
  rcases List.append_eq_append_iff.mp he with ⟨a, rfl, ha⟩ | ⟨a, rfl, ha⟩
  · rw [postedDone_append, postedMade_append, h0, h2 a n post ha hn]
  · rcases a with _ | ⟨x, a⟩
    · simpa using h0
    · simp only [List.cons_append, List.cons.injEq] at ha
      obtain ⟨rfl, rfl⟩ := ha
      exact h1 pre n a rfl hn

theorem run_behind {p : HipParams} : ∀ (es : List HipEv) {s s' : Hip}, Inv p s → postedDone s.hist = postedMade s.hist → Behind s.hist → run p s es = some (.ok s') →
    Behind s'.hist
  | [], s, s', _, _, hb, h => by cases h; exact hb
  | e :: es, s, s', hi, h0, hb, h => by
    rw [run] at h
    split at h
    · cases h
    · cases h
    · next s1 h1 =>
      obtain ⟨d, d1, d2, d3⟩ := step_adds hi h1
      refine run_behind es (step_inv hi h1) ?_ ?_ h
      · rw [d1, postedDone_append, postedMade_append, h0, adds_posted d2]
      · rw [d1]; exact behind_append h0 hb (adds_behind d2)

end Hip
end Pcie
