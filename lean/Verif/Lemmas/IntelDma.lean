import Verif.Spec.IntelDma
import Verif.Props.IntelDev
import Verif.Lemmas.IntelHost
import Verif.Lemmas.UsDma
/-
Lemmas for C74.
-/
namespace Pcie
open Spec IntelHost
variable {F : Type}

theorem cpl_bytes {m : Mem} {rcb mps addr n : Nat} {cs : List Tlp} (h : LegalCpls m rcb mps addr n cs) : Holds m addr n (cs.flatMap cplBytes) := by
  induction h with
  | last addr n c h0 hs hf hl hb hlen hm hd =>
    have := Dma.holds_drop_take (o := c.lower_address % 4) (k := c.byte_count) hd
    rw [List.flatMap_cons, List.flatMap_nil, List.append_nil]
    unfold cplBytes
    have e1 : addr / 4 * 4 + c.lower_address % 4 = addr := by rw [hl]; omega
    have e2 : min c.byte_count (4 * c.length - c.lower_address % 4) = n := by rw [hl, hb, hlen]; omega
    rwa [e1, e2] at this
  | more addr n c rest hs hf hl hb h0 hlt hm hr hd hrest ih =>
    have := Dma.holds_drop_take (o := c.lower_address % 4) (k := c.byte_count) hd
    rw [List.flatMap_cons]
    have e1 : addr / 4 * 4 + c.lower_address % 4 = addr := by rw [hl]; omega
    have e2 : min c.byte_count (4 * c.length - c.lower_address % 4) = 4 * c.length - addr % 4 := by rw [hl, hb]; omega
    rw [e1, e2] at this
    have e3 : addr / 4 * 4 + 4 * c.length = addr + (4 * c.length - addr % 4) := by omega
    rw [e3] at ih
    have := Dma.holds_append this ih
    rwa [show 4 * c.length - addr % 4 + (addr % 4 + n - 4 * c.length) = n from by omega] at this

namespace IntelDma
variable {carries : F → Tlp → Nat → Nat → Prop} {enc : Tlp → Py F} {mk : Tlp → Nat → Nat → Py F} {conv : F → Py Tlp} {p : RxLimits} {ids : List PcieId}

theorem asRead_spec (t : Tlp) : ∃ n, asRead t = { t with byte_count := n } := by
  unfold asRead
  split
  · exact ⟨_, rfl⟩
  · exact ⟨t.byte_count, rfl⟩

theorem asRead_fields (t : Tlp) : (asRead t).isCompletion = t.isCompletion ∧ (asRead t).requester_id = t.requester_id ∧ (asRead t).tag = t.tag ∧ (asRead t).fmtType = t.fmtType ∧
    (asRead t).data = t.data := by
  obtain ⟨n, h⟩ := asRead_spec t
  rw [h]
  exact ⟨rfl, rfl, rfl, rfl, rfl⟩

theorem asRead_req {t : Tlp} (h : t.isCompletion = false) : asRead t = t := by
  unfold asRead
  rw [if_neg (by rw [h]; simp)]

theorem asRead_pos {t : Tlp} (h : 1 ≤ t.byte_count) : asRead t = t := by
  unfold asRead
  rw [if_neg (by omega)]

theorem asRead_header (t : Tlp) : (asRead t).packHeader = t.packHeader := by
  unfold asRead
  split
  · next h =>
    have e : ({ t with byte_count := 4096 } : Tlp).byte_count &&& 0xfff = t.byte_count &&& 0xfff := by rw [h.2]; show 4096 &&& 0xfff = 0 &&& 0xfff; decide
    unfold Tlp.packHeader
    rw [e]
    rfl
  · rfl

theorem s10_asRead (t : Tlp) (bar fn : Nat) : S10Frame.ofRx (asRead t) bar fn = S10Frame.ofRx t bar fn := by
  unfold S10Frame.ofRx S10Frame.fromTlp
  rw [asRead_header, (asRead_fields t).2.2.2.2]

theorem ptile_asRead (t : Tlp) (bar fn : Nat) : PTileFrame.ofRx (asRead t) bar fn = PTileFrame.ofRx t bar fn := by
  unfold PTileFrame.ofRx PTileFrame.fromTlp
  rw [asRead_header, (asRead_fields t).2.2.2.2]

/-- What holds at any time; `ts` are the TLPs of the frames for the user. -/
structure Inv (conv : F → Py Tlp) (p : RxLimits) (ids : List PcieId) (s : IntelDma F) (ts : List Tlp) : Prop where
  np : s.reqs.map (·.req) = s.sent.filter (·.isNonposted)
  le : ∀ q ∈ s.reqs, q.done ≤ q.ans.length
  req : ∀ q ∈ s.reqs, q.req.requester_id ∈ ids ∧ Answers q.req q.ans ∧ ∀ c ∈ q.ans, OnWire c
  ord : s.reqs.Pairwise fun a b => SameTag a.req b.req → a.done = a.ans.length
  frames : (forUser s).map conv = ts.map .ok
  user : ∀ r, ts.filter (fun c => c.isCompletion = true ∧ SameTag r c) = (s.reqs.filter fun q => SameTag r q.req).flatMap fun q => (q.ans.take q.done).map asRead
  cplh : s.dev.cplh ≤ (waitingCpls s).length
  cpld : s.dev.cpld ≤ ((waitingCpls s).map Tlp.dataCredits).sum
  room : FitIn p (waitingCpls s ++ toCome s)

theorem answers_own {r : Tlp} {ans : List Tlp} (h : Answers r ans) : ∀ c ∈ ans, Own r c := by
  cases h with
  | single c ho _ => intro x hx; rw [List.mem_singleton.1 hx]; exact ho
  | read m rcb mps first n ans _ _ ho => exact fun c hc => (ho c hc).1

theorem onWire_conv (hc : Codec carries enc mk conv) (hcv : ∀ f t bar fn, carries f t bar fn → conv f = .ok t) (hra : ∀ t bar fn, mk (asRead t) bar fn = mk t bar fn) {t : Tlp} (ht : OnWire t) {bar fn : Nat} {f : F} (hf : mk t bar fn = .ok f) :
    conv f = .ok (asRead t) := by
  obtain ⟨ty, h1, h2⟩ := ht
  obtain ⟨f', h3, h4⟩ := hc.rx ty (asRead t) h1 (by rw [(asRead_fields t).2.2.2.2]; exact h2) bar fn
  rw [← hra, h3] at hf
  cases hf
  exact hcv _ _ _ _ h4

theorem fitIn_perm {a b : List Tlp} (h : a.Perm b) (hf : FitIn p a) : FitIn p b :=
  ⟨h.length_eq ▸ hf.1, by rw [← (h.map Tlp.dataCredits).sum_nat]; exact hf.2⟩

theorem toCome_set {l : List DmaReq} {i : Nat} {q : DmaReq} {c : Tlp} (hq : l[i]? = some q) (hc : q.ans[q.done]? = some c) :
    (l.flatMap fun q => q.ans.drop q.done).Perm (c :: ((l.set i { q with done := q.done + 1 }).flatMap fun q => q.ans.drop q.done)) := by
  induction l generalizing i with
  | nil => simp at hq
  | cons a l ih =>
    cases i with
    | zero =>
      simp only [List.getElem?_cons_zero, Option.some.injEq] at hq
      subst hq
      obtain ⟨hlt, rfl⟩ := List.getElem?_eq_some_iff.1 hc
      simp only [List.set_cons_zero, List.flatMap_cons]
      rw [List.drop_eq_getElem_cons hlt]
      exact .refl _
    | succ i =>
      simp only [List.getElem?_cons_succ] at hq
      simp only [List.set_cons_succ, List.flatMap_cons]
      exact ((ih hq).append_left _).trans List.perm_middle

theorem user_set {l : List DmaReq} {i : Nat} {q : DmaReq} {c : Tlp} (hq : l[i]? = some q) (hc : q.ans[q.done]? = some c)
    (ho : l.Pairwise fun a b => SameTag a.req b.req → a.done = a.ans.length) (r : Tlp) :
    ((l.set i { q with done := q.done + 1 }).filter fun q => SameTag r q.req).flatMap (fun q => (q.ans.take q.done).map asRead) =
      ((l.filter fun q => SameTag r q.req).flatMap fun q => (q.ans.take q.done).map asRead) ++ if SameTag r q.req then [asRead c] else [] := by
  induction l generalizing i with
  | nil => simp at hq
  | cons a l ih =>
    obtain ⟨h1, h2⟩ := List.pairwise_cons.1 ho
    cases i with
    | zero =>
      simp only [List.getElem?_cons_zero, Option.some.injEq] at hq
      subst hq
      obtain ⟨hlt, rfl⟩ := List.getElem?_eq_some_iff.1 hc
      simp only [List.set_cons_zero]
      by_cases hs : SameTag r a.req
      · have hl : (l.filter fun q => SameTag r q.req) = [] := by
          rw [List.filter_eq_nil_iff]
          intro b hb hd
          have hd : SameTag r b.req := of_decide_eq_true hd
          have := h1 b hb ⟨hd.1.trans hs.1.symm, hd.2.trans hs.2.symm⟩
          omega
        rw [List.filter_cons_of_pos (by simpa using hs), List.filter_cons_of_pos (by simpa using hs), hl, if_pos hs]
        simp only [List.flatMap_cons, List.flatMap_nil, List.append_nil]
        rw [List.take_add_one, List.getElem?_eq_getElem hlt, List.map_append]
        rfl
      · rw [List.filter_cons_of_neg (by simpa using hs), List.filter_cons_of_neg (by simpa using hs), if_neg hs, List.append_nil]
    | succ i =>
      simp only [List.getElem?_cons_succ] at hq
      simp only [List.set_cons_succ]
      by_cases hs : SameTag r a.req
      · rw [List.filter_cons_of_pos (by simpa using hs), List.filter_cons_of_pos (by simpa using hs), List.flatMap_cons, List.flatMap_cons, ih hq h2, List.append_assoc]
      · rw [List.filter_cons_of_neg (by simpa using hs), List.filter_cons_of_neg (by simpa using hs), ih hq h2]

theorem ord_set {l : List DmaReq} {i : Nat} {q : DmaReq} {c : Tlp} (hq : l[i]? = some q) (hc : q.ans[q.done]? = some c)
    (ho : l.Pairwise fun a b => SameTag a.req b.req → a.done = a.ans.length) :
    (l.set i { q with done := q.done + 1 }).Pairwise fun a b => SameTag a.req b.req → a.done = a.ans.length := by
  induction l generalizing i with
  | nil => simp at hq
  | cons a l ih =>
    obtain ⟨h1, h2⟩ := List.pairwise_cons.1 ho
    cases i with
    | zero =>
      simp only [List.getElem?_cons_zero, Option.some.injEq] at hq
      subst hq
      obtain ⟨hlt, rfl⟩ := List.getElem?_eq_some_iff.1 hc
      refine List.pairwise_cons.2 ⟨fun b hb hs => ?_, h2⟩
      have := h1 b hb hs
      omega
    | succ i =>
      simp only [List.getElem?_cons_succ] at hq
      refine List.pairwise_cons.2 ⟨fun b hb hs => ?_, ih hq h2⟩
      rcases List.mem_or_eq_of_mem_set hb with hb | rfl
      · exact h1 b hb hs
      · exact h1 q (List.mem_of_getElem? hq) hs

/-- A completion that is still to come is taken. -/
theorem recv_cpl (hc : Codec carries enc mk conv) (hra : ∀ t bar fn, mk (asRead t) bar fn = mk t bar fn) {s : IntelDma F} {ts : List Tlp} (hI : Inv conv p ids s ts) (hids : s.dev.dev.fns.map (·.id) = ids)
    {i : Nat} {q : DmaReq} {c : Tlp} (hq : s.reqs[i]? = some q) (ha : q.ans[q.done]? = some c) :
    ∃ f, mk c 0 c.requester_id.function = .ok f ∧ carries f (asRead c) 0 c.requester_id.function ∧
      s.dev.recv mk p c = .ok ({ s.dev with cplh := s.dev.cplh + 1, cpld := s.dev.cpld + c.dataCredits, queue := s.dev.queue ++ [(c, f)] }, [.user f, .release]) := by
  have hqm := List.mem_of_getElem? hq
  have hcm := List.mem_of_getElem? ha
  obtain ⟨h1, h2, h3⟩ := hI.req q hqm
  have hown := answers_own h2 c hcm
  obtain ⟨ty, hw1, hw2⟩ := h3 c hcm
  obtain ⟨f, hf1, hf2⟩ := hc.rx ty (asRead c) hw1 (by rw [(asRead_fields c).2.2.2.2]; exact hw2) 0 c.requester_id.function
  rw [hra] at hf1
  have hty := enc_fmtType hw1
  rw [(asRead_fields c).2.2.2.1] at hty
  have hcpl : Completion ty = true := by
    have := hown.1
    simp only [Tlp.isCompletion, Tlp.fcType, hty] at this
    cases ty <;> first | rfl | simp [TlpType.fcType] at this
  rw [← hown.2.1, ← hids] at h1
  obtain ⟨g, hg, hid⟩ := List.mem_map.1 h1
  refine ⟨f, hf1, hf2, ?_⟩
  rw [intel_completion mk p s.dev c ty hty hcpl g hg hid f hf1, if_pos]
  have hp : (waitingCpls s ++ toCome s).Perm (waitingCpls s ++ c :: _) := (toCome_set hq ha).append_left _
  obtain ⟨r1, r2⟩ := fitIn_perm hp hI.room
  have k1 := hI.cplh
  have k2 := hI.cpld
  rw [List.length_append, List.length_cons] at r1
  rw [List.map_append, List.sum_append, List.map_cons, List.sum_cons] at r2
  omega

theorem devStep_spec {s s' : IntelDma F} {e : IntelEv} (h : s.devStep mk p e = some (.ok s')) :
    ∃ d o, s.dev.step mk p e = some (.ok (d, o)) ∧ s' = { s with dev := d, hist := s.hist ++ o } := by
  unfold devStep at h
  split at h
  · cases h
  · cases h
  · next d o hd => cases h; exact ⟨d, o, hd, rfl⟩

theorem step_inv (hc : Codec carries enc mk conv) (hcv : ∀ f t bar fn, carries f t bar fn → conv f = .ok t) (hra : ∀ t bar fn, mk (asRead t) bar fn = mk t bar fn) {s s' : IntelDma F} {ts : List Tlp} {e : IntelDmaEv F}
    (hI : Inv conv p ids s ts) (hids : s.dev.dev.fns.map (·.id) = ids) (ho : InOrder conv p ids s e) (h : s.step mk conv p e = some (.ok s')) : ∃ ts', Inv conv p ids s' ts' := by
  cases e with
  | tx f ans =>
    simp only [step, Option.some.injEq] at h
    unfold tx at h
    split at h
    · cases h
    · next t ht =>
      split at h
      · cases h
      · cases h
        by_cases hn : t.isNonposted = true
        · have hm := ho t ht hn
          refine ⟨ts, ?_, ?_, ?_, ?_, hI.frames, ?_, hI.cplh, hI.cpld, ?_⟩
          · simp [hI.np, hn, List.filter_append]
          · intro q hq
            simp only [hn, if_true, List.mem_append, List.mem_singleton] at hq
            rcases hq with hq | rfl
            · exact hI.le q hq
            · exact Nat.zero_le _
          · intro q hq
            simp only [hn, if_true, List.mem_append, List.mem_singleton] at hq
            rcases hq with hq | rfl
            · exact hI.req q hq
            · exact ⟨hm.id, hm.answer, hm.wire⟩
          · simp only [hn, if_true]
            rw [List.pairwise_append]
            refine ⟨hI.ord, List.pairwise_singleton _ _, ?_⟩
            intro a ha b hb hs
            rw [List.mem_singleton.1 hb] at hs
            exact hm.tag a ha hs
          · intro r
            rw [hI.user r]
            by_cases hs : SameTag r t
            · simp [hn, hs, List.filter_append]
            · simp [hn, hs, List.filter_append]
          · have : (waitingCpls s ++ toCome s ++ ans) = waitingCpls s ++ (toCome s ++ ans) := List.append_assoc ..
            have hr := hm.room
            rw [this] at hr
            simpa [waitingCpls, toCome, hn] using hr
        · refine ⟨ts, ?_, ?_, ?_, ?_, hI.frames, ?_, hI.cplh, hI.cpld, ?_⟩
          · simp [hI.np, hn, List.filter_append]
          · simpa [hn] using hI.le
          · simpa [hn] using hI.req
          · simpa [hn] using hI.ord
          · simpa [hn] using hI.user
          · simpa [hn, waitingCpls, toCome] using hI.room
  | cpl i =>
    simp only [step] at h
    split at h
    · cases h
    · next q hq =>
      split at h
      · cases h
      · next c ha =>
        obtain ⟨d, o, hd, rfl⟩ := devStep_spec h
        obtain ⟨f, hf1, hf2, hr⟩ := recv_cpl hc hra hI hids hq ha
        simp only [IntelDev.step, hr] at hd
        cases hd
        have hqm := List.mem_of_getElem? hq
        have hcm := List.mem_of_getElem? ha
        have hown := answers_own (hI.req q hqm).2.1 c hcm
        obtain ⟨hlt, hcq⟩ := List.getElem?_eq_some_iff.1 ha
        have hmem : ∀ x ∈ s.reqs.set i { q with done := q.done + 1 }, x ∈ s.reqs ∨ x = { q with done := q.done + 1 } := fun x hx => List.mem_or_eq_of_mem_set hx
        have hwait : waitingCpls { s with reqs := s.reqs.set i { q with done := q.done + 1 }, dev := { s.dev with cplh := s.dev.cplh + 1, cpld := s.dev.cpld + c.dataCredits, queue := s.dev.queue ++ [(c, f)] }, hist := s.hist ++ [IntelObs.arrived c [.user f, .release]] } = waitingCpls s ++ [c] := by
          simp [waitingCpls, List.filter_append, hown.1]
        refine ⟨ts ++ [asRead c], ?_, ?_, ?_, ord_set hq ha hI.ord, ?_, ?_, ?_, ?_, ?_⟩
        · show (s.reqs.set i { q with done := q.done + 1 }).map (·.req) = _
          rw [List.map_set, ← hI.np]
          obtain ⟨hi, rfl⟩ := List.getElem?_eq_some_iff.1 hq
          have hi' : i < (s.reqs.map (·.req)).length := by simpa using hi
          have := List.set_getElem_self (as := s.reqs.map (·.req)) hi'
          rwa [List.getElem_map] at this
        · intro x hx
          rcases hmem x hx with hx | rfl
          · exact hI.le x hx
          · exact hlt
        · intro x hx
          rcases hmem x hx with hx | rfl
          · exact hI.req x hx
          · exact hI.req q hqm
        · have := hI.frames
          simp only [forUser, IntelDev.rxSent_append] at this ⊢
          have e0 : rxSent [IntelObs.arrived c [RxEff.user f, RxEff.release]] = [] := rfl
          rw [e0, List.append_nil, ← List.append_assoc s.dev.sending.toList, List.map_append (l₁ := s.dev.sending.toList ++ s.dev.queue), ← List.append_assoc, List.map_append, this]
          simp [hcv _ _ _ _ hf2]
        · intro r
          rw [List.filter_append, hI.user r]
          show _ = ((s.reqs.set i { q with done := q.done + 1 }).filter fun q => SameTag r q.req).flatMap (fun q => (q.ans.take q.done).map asRead)
          rw [user_set hq ha hI.ord r]
          congr 1
          have : SameTag r (asRead c) ↔ SameTag r q.req := by
            unfold SameTag
            rw [(asRead_fields c).2.1, (asRead_fields c).2.2.1, hown.2.1, hown.2.2.1]
          have hic := (asRead_fields c).1.trans hown.1
          by_cases hs : SameTag r q.req
          · simp [hs, this.2 hs, hic]
          · simp [hs, this]
        · rw [hwait]
          simpa using hI.cplh
        · rw [hwait]
          have := hI.cpld
          simp only [List.map_append, List.sum_append, List.map_cons, List.map_nil, List.sum_cons, List.sum_nil]
          omega
        · rw [hwait]
          refine fitIn_perm ?_ hI.room
          rw [List.append_assoc]
          exact (toCome_set hq ha).append_left _
  | dev e =>
    obtain ⟨d, o, hd, rfl⟩ := devStep_spec h
    cases e with
    | recv t =>
      obtain ⟨hw, hcpl⟩ := ho
      simp only [IntelDev.step, Option.some.injEq] at hd
      cases hr : s.dev.recv mk p t with
      | error e => rw [hr] at hd; cases hd
      | ok x =>
        obtain ⟨d1, es⟩ := x
        rw [hr] at hd
        cases hd
        rcases IntelDev.recv_cases hr with ⟨⟨dd, rfl⟩, -, -⟩ | ⟨f, bar, hf, rfl, ⟨hx, -⟩ | ⟨-, rfl⟩⟩
        · refine ⟨ts, hI.np, hI.le, hI.req, hI.ord, ?_, hI.user, hI.cplh, hI.cpld, hI.room⟩
          have := hI.frames
          simpa [forUser, rxSent] using this
        · rw [hcpl] at hx; cases hx
        · have hwait : waitingCpls { s with dev := { s.dev with queue := s.dev.queue ++ [(t, f)] }, hist := s.hist ++ [IntelObs.arrived t [.user f, .release]] } = waitingCpls s := by
            simp [waitingCpls, List.filter_append, hcpl]
          refine ⟨ts ++ [t], hI.np, hI.le, hI.req, hI.ord, ?_, ?_, by rw [hwait]; exact hI.cplh, by rw [hwait]; exact hI.cpld, by rw [hwait]; exact hI.room⟩
          · have := hI.frames
            simp only [forUser, IntelDev.rxSent_append] at this ⊢
            have e0 : rxSent [IntelObs.arrived t [RxEff.user f, RxEff.release]] = [] := rfl
            rw [e0, List.append_nil, ← List.append_assoc s.dev.sending.toList, List.map_append (l₁ := s.dev.sending.toList ++ s.dev.queue), ← List.append_assoc, List.map_append, this]
            simp [onWire_conv hc hcv hra hw hf, asRead_req hcpl]
          · intro r
            rw [List.filter_append, hI.user r]
            simp [hcpl]
    | get =>
      simp only [IntelDev.step] at hd
      split at hd
      · next x rest h1 h2 =>
        cases hd
        have hwait : waitingCpls { s with dev := { s.dev with sending := some x, queue := rest }, hist := s.hist ++ [] } = waitingCpls s := by simp [waitingCpls, h1, h2]
        refine ⟨ts, hI.np, hI.le, hI.req, hI.ord, ?_, hI.user, by rw [hwait]; exact hI.cplh, by rw [hwait]; exact hI.cpld, by rw [hwait]; exact hI.room⟩
        have := hI.frames
        simpa [forUser, h1, h2] using this
      · cases hd
    | done =>
      simp only [IntelDev.step] at hd
      split at hd
      · next t f h1 =>
        cases hd
        have hw0 : waitingCpls s = (if t.isCompletion then [t] else []) ++ waitingCpls { s with dev := { s.dev with sending := none, cplh := s.dev.cplh - 1, cpld := s.dev.cpld - t.dataCredits }, hist := s.hist ++ [.sent f] } := by
          cases ht : t.isCompletion <;> simp [waitingCpls, h1, ht]
        have k1 := hI.cplh
        have k2 := hI.cpld
        have k3 := hI.room
        rw [hw0] at k1 k2 k3
        refine ⟨ts, hI.np, hI.le, hI.req, hI.ord, ?_, hI.user, ?_, ?_, ?_⟩
        · have := hI.frames
          simp only [forUser, IntelDev.rxSent_append, h1] at this ⊢
          rw [← this]
          simp [rxSent]
        · show s.dev.cplh - 1 ≤ _
          cases ht : t.isCompletion
          · simp only [ht, Bool.false_eq_true, if_false, List.nil_append] at k1; omega
          · simp only [ht, if_true, List.length_append, List.length_singleton] at k1; omega
        · show s.dev.cpld - t.dataCredits ≤ _
          cases ht : t.isCompletion
          · simp only [ht, Bool.false_eq_true, if_false, List.nil_append] at k2; omega
          · simp only [ht, if_true, List.map_append, List.sum_append, List.map_cons, List.map_nil, List.sum_cons, List.sum_nil] at k2; omega
        · cases ht : t.isCompletion
          · simp only [ht, Bool.false_eq_true, if_false, List.nil_append] at k3
            exact k3
          · simp only [ht, if_true, FitIn, List.length_append, List.length_singleton, List.map_append, List.sum_append, List.map_cons, List.map_nil, List.sum_cons, List.sum_nil] at k3 ⊢
            have e : toCome { s with dev := { s.dev with sending := none, cplh := s.dev.cplh - 1, cpld := s.dev.cpld - t.dataCredits }, hist := s.hist ++ [.sent f] } = toCome s := rfl
            rw [e]
            omega
      · cases hd
    | cfg d' =>
      cases hd
      refine ⟨ts, hI.np, hI.le, hI.req, hI.ord, ?_, hI.user, hI.cplh, hI.cpld, hI.room⟩
      have := hI.frames
      simpa [forUser] using this

theorem run_inv (hc : Codec carries enc mk conv) (hcv : ∀ f t bar fn, carries f t bar fn → conv f = .ok t) (hra : ∀ t bar fn, mk (asRead t) bar fn = mk t bar fn) : ∀ (es : List (IntelDmaEv F)) (s s' : IntelDma F) (ts : List Tlp),
    Inv conv p ids s ts → CarefulRun mk conv p ids s es → s.run mk conv p es = some (.ok s') → (∃ ts', Inv conv p ids s' ts') ∧ s'.dev.dev.fns.map (·.id) = ids
  | [], s, s', ts, hI, ho, h => by cases h; exact ⟨⟨ts, hI⟩, ho⟩
  | e :: es, s, s', ts, hI, ho, h => by
    obtain ⟨h1, h2, h3⟩ := ho
    unfold run at h
    split at h
    · cases h
    · cases h
    · next s1 hs =>
      obtain ⟨ts', hI'⟩ := step_inv hc hcv hra hI h1 h2 hs
      exact run_inv hc hcv hra es s1 s' ts' hI' (h3 s1 hs) h

theorem init_inv (d : Dev) : Inv (F := F) conv p ids { dev := { dev := d } } [] :=
  ⟨rfl, by simp, by simp, .nil, rfl, by simp, Nat.le_refl _, Nat.le_refl _, ⟨Nat.zero_le _, Nat.zero_le _⟩⟩

end IntelDma
end Pcie
