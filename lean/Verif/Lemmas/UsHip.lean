import Verif.Spec.UsHip
import Verif.Lemmas.UsTlp
import Mathlib.Data.List.Perm.Basic
namespace Pcie
open Spec
namespace Hip

/-! ### Observations -/

theorem outstanding_snoc (h : List HipObs) (o : HipObs) : outstanding (h ++ [o]) = track (outstanding h) o := by
  rw [outstanding, List.foldl_append]; rfl

theorem copy_isNonposted (t : Tlp) : t.copy.isNonposted = t.isNonposted := rfl

theorem setTag_isNonposted (t : Tlp) (k : Nat) : ({ t with tag := k } : Tlp).isNonposted = t.isNonposted := rfl

theorem untagged_setTag (t : Tlp) (k : Nat) : untagged ({ t with tag := k } : Tlp).copy = untagged t := rfl

theorem untagged_copy (t : Tlp) : untagged t.copy = untagged t := rfl

/-- The part of the state that the invariant is about. -/
structure HInv (p : HipParams) (a : List (Option Tlp)) (w : List Tlp) (h : List HipObs) (b : List UsTlp) (n m : Nat) : Prop where
  len : a.length = 256
  act : ∀ k, (a[k]?.join).map Tlp.copy = outstanding h k
  fresh : ∀ pre t post, h = pre ++ HipObs.sent t :: post → t.isNonposted = true →
    outstanding pre t.tag = none ∧ t.tag < 256 ∧ (p.client = false → t.tag < p.tagCount)
  perm : ((acceptedOf h).map untagged).Perm ((sentOf h ++ refusedOf h ++ w).map untagged)
  cplh : n = b.length
  cpld : m = cplSpace b
  kept : List.Forall₂ sameCpl (deliveredOf h ++ b) (keptCpls h)
  fits : n ≤ p.cplhLimit ∧ m ≤ p.cpldLimit

theorem fresh_snoc {P : List HipObs → Tlp → Prop} {h : List HipObs} {o : HipObs} (hf : ∀ pre t post, h = pre ++ HipObs.sent t :: post → P pre t)
    (ho : ∀ t, o = .sent t → P h t) (pre : List HipObs) (t : Tlp) (post : List HipObs) (he : h ++ [o] = pre ++ HipObs.sent t :: post) : P pre t := by
  rcases List.eq_nil_or_concat post with rfl | ⟨post', x, rfl⟩
  · obtain ⟨h1, h2⟩ := List.append_inj' he rfl
    subst h1
    exact ho t (List.cons.inj h2).1
  · rw [show pre ++ HipObs.sent t :: post'.concat x = (pre ++ HipObs.sent t :: post') ++ [x] from by simp] at he
    exact hf pre t post' (List.append_inj' he rfl).1

theorem HInv.reperm {p : HipParams} {a : List (Option Tlp)} {w w' : List Tlp} {h : List HipObs} {b : List UsTlp} {n m : Nat} (hi : HInv p a w h b n m) (hw : w.Perm w') :
    HInv p a w' h b n m :=
  { hi with perm := hi.perm.trans (((hw.append_left _)).map _) }

/-- An observation that says nothing about requests sent or completions. -/
theorem HInv.accept {p : HipParams} {a : List (Option Tlp)} {w : List Tlp} {h : List HipObs} {b : List UsTlp} {n m : Nat} (hi : HInv p a w h b n m) (t : Tlp) :
    HInv p a (w ++ [t]) (h ++ [.accepted t]) b n m where
  len := hi.len
  act k := by rw [outstanding_snoc]; exact hi.act k
  fresh pre t' post he := fresh_snoc hi.fresh (fun t hh => by cases hh) pre t' post he
  perm := by
    have := hi.perm.append_right [untagged t]
    simpa [acceptedOf, sentOf, refusedOf] using this
  cplh := hi.cplh
  cpld := hi.cpld
  kept := by simpa [deliveredOf, keptCpls] using hi.kept
  fits := hi.fits

theorem HInv.refuse {p : HipParams} {a : List (Option Tlp)} {w : List Tlp} {h : List HipObs} {b : List UsTlp} {n m : Nat} {t : Tlp} (hi : HInv p a (t :: w) h b n m) :
    HInv p a w (h ++ [.refused t]) b n m where
  len := hi.len
  act k := by rw [outstanding_snoc]; exact hi.act k
  fresh pre t' post he := fresh_snoc hi.fresh (fun t hh => by cases hh) pre t' post he
  perm := by
    have := hi.perm
    simpa [acceptedOf, sentOf, refusedOf] using this
  cplh := hi.cplh
  cpld := hi.cpld
  kept := by simpa [deliveredOf, keptCpls] using hi.kept
  fits := hi.fits

theorem HInv.posted {p : HipParams} {a : List (Option Tlp)} {w : List Tlp} {h : List HipObs} {b : List UsTlp} {n m : Nat} {t : Tlp} (hi : HInv p a (t :: w) h b n m)
    (ht : t.isNonposted = false) : HInv p a w (h ++ [.sent t.copy]) b n m where
  len := hi.len
  act k := by
    rw [outstanding_snoc]
    simp only [track, copy_isNonposted, ht]
    exact hi.act k
  fresh pre t' post he := fresh_snoc hi.fresh (fun t' hh h2 => by cases hh; rw [copy_isNonposted, ht] at h2; cases h2) pre t' post he
  perm := by
    have := hi.perm
    have h2 : (((sentOf h ++ refusedOf h ++ t :: w).map untagged)).Perm ((sentOf h ++ [t.copy] ++ refusedOf h ++ w).map untagged) := by
      simp only [List.map_append, List.map_cons, List.map_nil, untagged_copy, List.append_assoc]
      exact List.perm_middle.append_left _
    simpa [acceptedOf, sentOf, refusedOf] using this.trans h2
  cplh := hi.cplh
  cpld := hi.cpld
  kept := by simpa [deliveredOf, keptCpls] using hi.kept
  fits := hi.fits

theorem join_set (a : List (Option Tlp)) (tag k : Nat) (x : Option Tlp) (h : tag < a.length) :
    ((a.set tag x)[k]?).join = if k = tag then x else a[k]?.join := by
  rw [List.getElem?_set]
  by_cases hk : tag = k
  · subst hk; simp [h]
  · rw [if_neg hk, if_neg (Ne.symm hk)]

theorem HInv.issue {p : HipParams} {a : List (Option Tlp)} {w : List Tlp} {h : List HipObs} {b : List UsTlp} {n m : Nat} {t : Tlp} (hi : HInv p a (t :: w) h b n m)
    (ht : t.isNonposted = true) {tag : Nat} (ha : a[tag]? = some none) (hc : p.client = false → tag < p.tagCount) :
    HInv p (a.set tag (some { t with tag := tag })) w (h ++ [.sent ({ t with tag := tag } : Tlp).copy]) b n m where
  len := by rw [List.length_set]; exact hi.len
  act k := by
    have hl : tag < a.length := (List.getElem?_eq_some_iff.mp ha).1
    rw [outstanding_snoc, join_set _ _ _ _ hl]
    simp only [track, copy_isNonposted, setTag_isNonposted, ht]
    by_cases hk : k = tag
    · subst hk; simp [Tlp.copy]
    · rw [if_neg hk, hi.act k]
      have : ¬ k = ({ t with tag := tag } : Tlp).copy.tag := hk
      simp [this]
  fresh pre t' post he := fresh_snoc hi.fresh (fun t' hh _ => by
    cases hh
    have hl : tag < a.length := (List.getElem?_eq_some_iff.mp ha).1
    refine ⟨?_, by rw [← hi.len]; exact hl, hc⟩
    rw [show ({ t with tag := tag } : Tlp).copy.tag = tag from rfl, ← hi.act tag, ha]; rfl) pre t' post he
  perm := by
    have := hi.perm
    have h2 : (((sentOf h ++ refusedOf h ++ t :: w).map untagged)).Perm ((sentOf h ++ [({ t with tag := tag } : Tlp).copy] ++ refusedOf h ++ w).map untagged) := by
      simp only [List.map_append, List.map_cons, List.map_nil, untagged_setTag, List.append_assoc]
      exact List.perm_middle.append_left _
    simpa [acceptedOf, sentOf, refusedOf] using this.trans h2
  cplh := hi.cplh
  cpld := hi.cpld
  kept := by simpa [deliveredOf, keptCpls] using hi.kept
  fits := hi.fits

/-! ### Completions -/

theorem judge_same (req : Option Tlp) (u : UsTlp) :
    (judge req u).1.tlp = { u.tlp with lower_address := (judge req u).1.tlp.lower_address } := by
  unfold judge
  cases req with
  | none => rfl
  | some r =>
    simp only
    repeat' split
    all_goals rfl

theorem low_and3 (x : Int) (c : Nat) (h : (c : Int) = x % 128) : (x % 4096).toNat % 4 = c % 4 := by omega

/-- The tag is freed exactly by a completion that ends the request. -/
theorem judge_fin (r : Tlp) (u : UsTlp) : (judge (some r) u).2 = endsRequest r.copy u.tlp := by
  unfold judge endsRequest
  simp only
  rw [show r.copy.fmtType = r.fmtType from rfl, show r.copy.requester_id = r.requester_id from rfl, show r.copy.attr = r.attr from rfl, show r.copy.tc = r.tc from rfl]
  by_cases h1 : u.tlp.requester_id = r.requester_id <;> by_cases h2 : u.tlp.attr = r.attr <;> by_cases h3 : u.tlp.tc = r.tc
  all_goals first | (rw [if_pos (by simp [h1, h2, h3])]; simp [h1, h2, h3]; done) | skip
  rw [if_neg (by simp [h1, h2, h3])]
  by_cases h4 : u.tlp.status = CplStatus.SC
  · rw [if_neg (by simp [h4])]
    by_cases h5 : r.fmtType = some .MEM_READ ∨ r.fmtType = some .MEM_READ_64
    · rw [if_pos h5]
      by_cases h6 : u.tlp.fmtType = some .CPL ∨ u.tlp.fmtType = some .CPL_LOCKED
      · rw [if_pos h6]; simp [h1, h2, h3]
        rcases h6 with h6 | h6 <;> simp [h6]
      · rw [if_neg h6]
        simp only [not_or] at h6
        simp only [h1, h2, h3, h4, h5, h6, not_true, ne_eq, false_or, or_false, true_and]
        split
        · simp only [and_m2]
        · next hl =>
          simp only [and_m2]
          rw [low_and3 _ _ (not_not.mp hl)]
    · rw [if_neg h5]; simp [h1, h2, h3]; exact .inr (.inl (by simpa using h5))
  · rw [if_pos h4]; simp [h1, h2, h3, h4]

theorem sameCpl_judge (req : Option Tlp) (c : Tlp) (u : UsTlp) (hu : u.tlp = c.copy) : sameCpl (judge req u).1 c := by
  unfold sameCpl
  rw [judge_same, hu]

theorem cplSpace_append (a b : List UsTlp) : cplSpace (a ++ b) = cplSpace a + cplSpace b := by simp [cplSpace]

/-- The effect of a completion on the table of active requests. -/
theorem act_cpl {a : List (Option Tlp)} {h : List HipObs} (hl : a.length = 256) (ha : ∀ k, (a[k]?.join).map Tlp.copy = outstanding h k) {c : Tlp} {req : Option Tlp}
    (hr : a[c.tag]? = some req) (u : UsTlp) (hu : u.tlp = c.copy) (k : Nat) :
    (((if (judge req u).2 then a.set c.tag none else a)[k]?).join).map Tlp.copy = outstanding (h ++ [.cpl c]) k := by
  rw [outstanding_snoc]
  have hlt : c.tag < a.length := (List.getElem?_eq_some_iff.mp hr).1
  simp only [track]
  have hk := ha c.tag
  rw [hr, Option.join_some] at hk
  cases req with
  | none =>
    rw [show (judge none u).2 = false from rfl]
    simp only [Bool.false_eq_true, if_false]
    rw [if_neg, ha k]
    rintro ⟨rfl, r, h1, h2⟩
    rw [← hk] at h1; cases h1
  | some r =>
    rw [judge_fin, hu]
    have he : endsRequest r.copy c.copy = endsRequest r.copy c := rfl
    rw [he]
    cases hf : endsRequest r.copy c with
    | true =>
      rw [if_pos rfl, join_set _ _ _ _ hlt]
      by_cases hkk : k = c.tag
      · rw [if_pos hkk, if_pos ⟨hkk, r.copy, by rw [hkk, ← hk]; rfl, hf⟩]; rfl
      · rw [if_neg hkk, if_neg (fun hh => hkk hh.1), ha k]
    | false =>
      simp only [Bool.false_eq_true, if_false]
      rw [if_neg, ha k]
      rintro ⟨rfl, r', h1, h2⟩
      rw [← hk] at h1
      cases h1
      rw [hf] at h2; cases h2

/-- A completion, kept. -/
theorem HInv.keep {p : HipParams} {a a' : List (Option Tlp)} {w : List Tlp} {h : List HipObs} {b : List UsTlp} {n m : Nat} (hi : HInv p a w h b n m) {c : Tlp} {u : UsTlp}
    (hl : a'.length = 256) (ha : ∀ k, (a'[k]?.join).map Tlp.copy = outstanding (h ++ [.cpl c]) k) (hu : sameCpl u c)
    (h1 : n + 1 ≤ p.cplhLimit) (h2 : m + u.tlp.dataCredits + 1 ≤ p.cpldLimit) :
    HInv p a' w (h ++ [.cpl c]) (b ++ [u]) (n + 1) (m + (u.tlp.dataCredits + 1)) where
  len := hl
  act := ha
  fresh pre t' post he := fresh_snoc hi.fresh (fun t hh => by cases hh) pre t' post he
  perm := by simpa [acceptedOf, sentOf, refusedOf] using hi.perm
  cplh := by rw [List.length_append, hi.cplh]; rfl
  cpld := by rw [cplSpace_append, hi.cpld]; simp [cplSpace]
  kept := by
    have := List.rel_append hi.kept (List.Forall₂.cons hu .nil)
    simpa [deliveredOf, keptCpls] using this
  fits := ⟨h1, by omega⟩

/-- A completion, dropped. -/
theorem HInv.lose {p : HipParams} {a a' : List (Option Tlp)} {w : List Tlp} {h : List HipObs} {b : List UsTlp} {n m : Nat} (hi : HInv p a w h b n m) {c : Tlp} {u : UsTlp}
    (hl : a'.length = 256) (ha : ∀ k, (a'[k]?.join).map Tlp.copy = outstanding (h ++ [.cpl c]) k) :
    HInv p a' w (h ++ [.cpl c] ++ [.lost u]) b n m where
  len := hl
  act k := by rw [outstanding_snoc]; exact ha k
  fresh pre t' post he := fresh_snoc (fresh_snoc hi.fresh (fun t hh => by cases hh)) (fun t hh => by cases hh) pre t' post he
  perm := by simpa [acceptedOf, sentOf, refusedOf] using hi.perm
  cplh := hi.cplh
  cpld := hi.cpld
  kept := by simpa [deliveredOf, keptCpls] using hi.kept
  fits := hi.fits

/-- A completion, delivered. -/
theorem HInv.deliver {p : HipParams} {a : List (Option Tlp)} {w : List Tlp} {h : List HipObs} {b : List UsTlp} {n m : Nat} {u : UsTlp} (hi : HInv p a w h (u :: b) n m) :
    HInv p a w (h ++ [.delivered u]) b (n - 1) (m - (u.tlp.dataCredits + 1)) where
  len := hi.len
  act k := by rw [outstanding_snoc]; exact hi.act k
  fresh pre t' post he := fresh_snoc hi.fresh (fun t hh => by cases hh) pre t' post he
  perm := by simpa [acceptedOf, sentOf, refusedOf] using hi.perm
  cplh := by rw [hi.cplh]; rfl
  cpld := by rw [hi.cpld]; simp [cplSpace]
  kept := by
    have := hi.kept
    simpa [deliveredOf, keptCpls] using this
  fits := ⟨by have := hi.fits.1; omega, by have := hi.fits.2; omega⟩

/-! ### Steps -/

theorem scan_some {a : List (Option Tlp)} {count k : Nat} : ∀ {tag x : Nat}, scan a count k tag = some x → a[x]? = some none ∧ (0 < count → x < count) := by
  induction k with
  | zero => intro tag x h; cases h
  | succ k ih =>
    intro tag x h
    unfold scan at h
    simp only at h
    split at h
    · next h1 => cases h; exact ⟨h1, fun hc => Nat.mod_lt _ hc⟩
    · exact ih h

theorem scan_zero {a : List (Option Tlp)} {tag : Nat} : scan a 0 0 tag = none := rfl

theorem freeTag_some {p : HipParams} {s : Hip} {tag : Nat} (h : freeTag p s = some tag) : s.active[tag]? = some none ∧ tag < tagLimit p s.ext := by
  unfold freeTag at h
  obtain ⟨h1, h2⟩ := scan_some h
  refine ⟨h1, h2 ?_⟩
  rcases Nat.eq_zero_or_pos (tagLimit p s.ext) with h0 | h0
  · rw [h0] at h; cases h
  · exact h0

/-- The invariant of the state. -/
structure Inv (p : HipParams) (s : Hip) : Prop where
  core : HInv p s.active (waiting s) s.hist (buffered s) s.cplh s.cpld
  np : ∀ t ∈ waiting s, t.isNonposted = true

theorem issue_inv {p : HipParams} {s s' : Hip} {t : Tlp} {w : List Tlp} {b : List UsTlp} {n m : Nat} (hi : HInv p s.active (t :: w) s.hist b n m) (ht : t.isNonposted = true)
    (h : issue p s t = .ok s') :
    ∃ tag active, HInv p s'.active w s'.hist b n m ∧ s.active[tag]? = some none ∧ (p.client = true → tag = t.tag) ∧ (p.client = false → tag < tagLimit p s.ext) ∧
      active = s.active.set tag (some { t with tag := tag }) ∧
      s' = { s with current := if p.client then s.current else tag, rqTag := if p.client then s.rqTag else s.rqTag ++ [tag], active := active,
                    avail := availCount s.ext active, credit := s.credit + t.dataCredits, hist := s.hist ++ [.sent ({ t with tag := tag } : Tlp).copy] } := by
  unfold issue at h
  split at h
  · cases h
  · next tag hx =>
    split at h
    · cases h
    · cases h
    · next ha =>
      cases h
      have hc : p.client = false → tag < tagLimit p s.ext := by
        intro hc
        rw [hc] at hx
        exact (freeTag_some hx).2
      refine ⟨tag, _, hi.issue ht ha (fun h => Nat.lt_of_lt_of_le (hc h) (Nat.min_le_right _ _)), ha, fun hc => ?_, hc, rfl, rfl⟩
      rw [hc] at hx
      exact (Option.some.inj hx).symm

theorem waiting_eq (s : Hip) : waiting s =
    (match s.np with | .idle => [] | .waitCredit t | .ready t | .waitTag t => [t]) ++ s.npq ++ (match s.rq with | .idle => [] | .blocked t | .ready t => [t]) := rfl

theorem enqueue_inv {p : HipParams} {s : Hip} {t : Tlp} {w0 : List Tlp} (hw : w0 = (match s.np with | .idle => [] | .waitCredit t | .ready t | .waitTag t => [t]) ++ s.npq)
    (hi : HInv p s.active (w0 ++ [t]) s.hist (buffered s) s.cplh s.cpld) (hn : ∀ x ∈ w0 ++ [t], x.isNonposted = true) : Inv p (enqueue p s t) := by
  subst hw
  unfold enqueue
  split
  · exact ⟨hi, hn⟩
  · have he : waiting { s with rq := .idle, npq := s.npq ++ [t] } =
        (match s.np with | .idle => [] | .waitCredit t | .ready t | .waitTag t => [t]) ++ s.npq ++ [t] := by
      rw [waiting_eq]; simp
    exact ⟨by rw [he]; exact hi, by rw [he]; exact hn⟩

theorem rqRecv_inv {p : HipParams} {s s' : Hip} {u : UsTlp} (hi : Inv p s) (hr : s.rq = .idle) (h : rqRecv p s u = .ok s') : Inv p s' := by
  unfold rqRecv at h
  split at h
  · cases h; exact hi
  · simp only at h
    generalize s.requester u = t at h
    have hw : waiting s = (match s.np with | .idle => [] | .waitCredit t | .ready t | .waitTag t => [t]) ++ s.npq := by rw [waiting_eq, hr]; simp
    have h1 := hi.core.accept t
    have h2 := h1.reperm (show (waiting s ++ [t]).Perm (t :: waiting s) from by simpa using List.perm_append_comm)
    split at h
    · cases h
    · next hf =>
      have ht : t.isNonposted = true := by simp [Tlp.isNonposted, hf]
      unfold rqNonposted at h
      simp only at h
      split at h
      · split at h
        · cases h
        · cases h
          exact ⟨h2.refuse, hi.np⟩
        · by_cases hb : t.tag < (if s.ext then p.tagMax else 32)
          · rw [if_pos hb] at h
            obtain ⟨tag, ac, a1, a2, a3, a4, a5, a6⟩ := issue_inv (s := { s with hist := s.hist ++ [.accepted t] }) h2 ht h
            subst a6
            exact ⟨a1, hi.np⟩
          · rw [if_neg hb] at h; cases h
      · cases h
        refine enqueue_inv (s := { s with hist := s.hist ++ [.accepted t] }) hw h1 ?_
        intro x hx
        rcases List.mem_append.mp hx with hx | hx
        · exact hi.np x hx
        · rw [List.mem_singleton.mp hx]; exact ht
    · next fc hne hf =>
      have ht : t.isNonposted = false := by
        unfold Tlp.isNonposted
        rw [hf]
        cases fc with
        | NP => exact absurd rfl hne
        | _ => rfl
      unfold rqPosted at h
      split at h
      · cases h
      · cases h; exact ⟨h2.refuse, hi.np⟩
      · cases h; exact ⟨h2.posted ht, hi.np⟩

theorem npTry_inv {p : HipParams} {s s' : Hip} {t : Tlp} {w0 : List Tlp} (hw : w0 = s.npq ++ (match s.rq with | .idle => [] | .blocked t | .ready t => [t]))
    (hi : HInv p s.active (t :: w0) s.hist (buffered s) s.cplh s.cpld) (hn : ∀ x ∈ t :: w0, x.isNonposted = true) (h : npTry p s t = .ok s') : Inv p s' := by
  subst hw
  unfold npTry at h
  split at h
  · cases h; exact ⟨hi, hn⟩
  · split at h
    · cases h; exact ⟨hi, hn⟩
    · simp only at h
      split at h
      · cases h
      · cases h
        exact ⟨hi.refuse, fun x hx => hn x (List.mem_cons_of_mem _ hx)⟩
      · obtain ⟨tag, ac, a1, a2, a3, a4, a5, a6⟩ := issue_inv (s := { s with np := .idle }) hi (hn t List.mem_cons_self) h
        subst a6
        exact ⟨a1, fun x hx => hn x (List.mem_cons_of_mem _ hx)⟩

theorem waiting_congr {s s' : Hip} (h1 : s.np = s'.np) (h2 : s.npq = s'.npq) (h3 : s.rq = s'.rq) : waiting s = waiting s' := by
  rw [waiting_eq, waiting_eq, h1, h2, h3]

theorem cplRecv_inv {p : HipParams} {s s' : Hip} {c : Tlp} (hi : Inv p s) (h : cplRecv p s c = .ok s') : Inv p s' := by
  unfold cplRecv at h
  split at h
  · split at h
    · cases h
    · next req hr =>
      simp only at h
      have hs := sameCpl_judge req c { UsTlp.ofTlp c with errorCode := if c.ep then 1 else 0 } rfl
      have ha := fun k => act_cpl hi.core.len hi.core.act hr { UsTlp.ofTlp c with errorCode := if c.ep then 1 else 0 } rfl k
      generalize judge req { UsTlp.ofTlp c with errorCode := if c.ep then 1 else 0 } = j at h hs ha
      generalize hac : (if j.2 = true then s.active.set c.tag none else s.active) = ac at h ha
      have hl : ac.length = 256 := by
        rw [← hac]; split
        · rw [List.length_set]; exact hi.core.len
        · exact hi.core.len
      cases h
      unfold account
      simp only
      have hw : ∀ (r : Hip), r.np = release s.np → r.npq = s.npq → r.rq = s.rq → waiting r = waiting s := by
        intro r h1 h2 h3
        rw [waiting_eq, waiting_eq, h1, h2, h3]
        cases s.np <;> rfl
      have mk : ∀ (r : Hip), r.np = release s.np → r.npq = s.npq → r.rq = s.rq → HInv p r.active (waiting s) r.hist (buffered r) r.cplh r.cpld → Inv p r := by
        intro r h1 h2 h3 h4
        exact ⟨by rw [hw r h1 h2 h3]; exact h4, by rw [hw r h1 h2 h3]; exact hi.np⟩
      unfold buffer
      simp only
      split
      · next hf =>
        have hk := hi.core.keep hl ha hs hf.1 hf.2
        have hb : buffered { s with rcq := s.rcq ++ [j.1] } = buffered s ++ [j.1] := by simp [buffered]
        rw [← hb] at hk
        exact mk _ rfl rfl rfl hk
      · exact mk _ rfl rfl rfl (hi.core.lose hl ha)
  · cases h; exact hi

theorem step_inv {p : HipParams} {s s' : Hip} {e : HipEv} (hi : Inv p s) (h : step p s e = some (.ok s')) : Inv p s' := by
  cases e with
  | rq u =>
    simp only [step] at h
    split at h
    · next hr => exact rqRecv_inv hi hr (Option.some.inj h)
    · cases h
  | rqWake =>
    simp only [step] at h
    split at h
    · next t hr =>
      have h := Option.some.inj h
      cases h
      have hw : waiting s = (match s.np with | .idle => [] | .waitCredit t | .ready t | .waitTag t => [t]) ++ s.npq ++ [t] := by rw [waiting_eq, hr]
      exact enqueue_inv rfl (by rw [← hw]; exact hi.core) (by rw [← hw]; exact hi.np)
    · cases h
  | npGet =>
    simp only [step] at h
    split at h
    · next t rest hn hq =>
      have hw : waiting s = t :: (rest ++ (match unblock s.rq with | .idle => [] | .blocked t | .ready t => [t])) := by
        rw [waiting_eq, hn, hq]
        cases s.rq <;> rfl
      exact npTry_inv (s := { s with npq := rest, rq := unblock s.rq }) rfl (by rw [← hw]; exact hi.core) (by rw [← hw]; exact hi.np)
        (Option.some.inj h)
    · cases h
  | npWake =>
    simp only [step] at h
    split at h
    · next t hn =>
      have hw : waiting s = t :: (s.npq ++ (match s.rq with | .idle => [] | .blocked t | .ready t => [t])) := by rw [waiting_eq, hn]; simp
      exact npTry_inv rfl (by rw [← hw]; exact hi.core) (by rw [← hw]; exact hi.np) (Option.some.inj h)
    · cases h
  | cpl c =>
    simp only [step] at h
    split at h
    · exact cplRecv_inv hi (Option.some.inj h)
    · cases h
  | rcGet =>
    simp only [step] at h
    split at h
    · next u rest hn hq =>
      have h := Option.some.inj h
      cases h
      have hb : buffered s = buffered { s with rcSend := some u, rcq := rest } := by simp [buffered, hn, hq]
      exact ⟨by rw [← hb]; exact hi.core, hi.np⟩
    · cases h
  | rcDone =>
    simp only [step] at h
    split at h
    · next u hn =>
      have h := Option.some.inj h
      cases h
      have hb : buffered s = u :: buffered { s with rcSend := none } := by simp [buffered, hn]
      have hc := hi.core
      rw [hb] at hc
      exact ⟨hc.deliver, hi.np⟩
    · cases h
  | cfg ext b f =>
    have h := Option.some.inj h
    cases h
    exact ⟨hi.core, hi.np⟩

theorem inv_init (p : HipParams) (s : Hip) (hs : s = { ext := s.ext, busNum := s.busNum, funcs := s.funcs }) : Inv p s := by
  rw [hs]
  refine ⟨⟨List.length_replicate, ?_, ?_, by simp [acceptedOf, sentOf, refusedOf, waiting], by simp [buffered], by simp [buffered, cplSpace], by simp [deliveredOf, keptCpls, buffered], ⟨Nat.zero_le _, Nat.zero_le _⟩⟩,
    by simp [waiting]⟩
  · intro k
    rw [List.getElem?_replicate]
    split <;> rfl
  · intro pre t post h
    simp at h

theorem run_inv {p : HipParams} {s s' : Hip} (hi : Inv p s) : ∀ (es : List HipEv), run p s es = some (.ok s') → Inv p s' := by
  intro es
  induction es generalizing s with
  | nil => intro h; cases h; exact hi
  | cons e es ih =>
    intro h
    unfold run at h
    split at h
    · cases h
    · cases h
    · next s1 h1 => exact ih (step_inv hi h1) h

end Hip
end Pcie
