import Verif.Spec.IntelDev
import Verif.Lemmas.UsCq
import Verif.Props.FrameTlp
import Verif.Props.IntelRx
/-
Lemmas for C64.
-/
namespace Pcie
open Spec
variable {F : Type}

theorem S10Frame.ofRx_spec {ty : TlpType} {t : Tlp} (h : Encodable ty t) (hd : t.data.length % 4 = 0) (bar fn : Nat) :
    ∃ f, S10Frame.ofRx t bar fn = .ok f ∧ S10Carries f t bar fn := by
  obtain ⟨f, h1, h2, h3, _⟩ := C42_s10_tlp ty t h hd
  refine ⟨{ f with barRange := bar, funcNum := fn }, ?_, ⟨h2, rfl, rfl, h3⟩⟩
  unfold S10Frame.ofRx
  rw [h1]
  rfl

theorem PTileFrame.ofRx_spec {ty : TlpType} {t : Tlp} (h : Encodable ty t) (hd : t.data.length % 4 = 0) (bar fn : Nat) :
    ∃ f, PTileFrame.ofRx t bar fn = .ok f ∧ PTileCarries f t bar fn := by
  obtain ⟨f, h1, h2, h3, _⟩ := C42_ptile_tlp ty t h hd
  refine ⟨{ f with barRange := bar, funcNum := fn }, ?_, ⟨h2, rfl, rfl, h3⟩⟩
  unfold PTileFrame.ofRx
  rw [h1]
  rfl

namespace IntelDev
variable {mk : Tlp → Nat → Nat → Py F} {p : RxLimits}

theorem answerUr_eq (s : IntelDev F) (t : Tlp) : s.answerUr t = .ok (s, [.release, .up (t.createUr ⟨s.dev.bus, 0, 0⟩)]) := by
  unfold answerUr
  rw [assertCheck_ok (createUr_check _ _)]

theorem handleTlp_release {hs : List TlpType} {t : Tlp} {ty : TlpType} {es : List Eff} (ht : t.fmtType = some ty) (hc : ty.isCpl = false) (h : handleTlp hs t = .ok es) :
    es.count Eff.release = 1 := by
  unfold handleTlp at h
  rw [ht] at h
  simp only [hc, Bool.false_eq_true, if_false] at h
  by_cases hm : ty ∈ hs
  · rw [if_pos hm] at h; cases h; rfl
  · rw [if_neg hm] at h; cases h

/-- The three kinds of results of `recv`. -/
theorem recv_cases {s s' : IntelDev F} {t : Tlp} {es : List (RxEff F)} (h : s.recv mk p t = .ok (s', es)) :
    ((∃ d, s' = { s with dev := d }) ∧ toUser es = [] ∧ releases es = 1) ∨
    (∃ f bar, mk t bar t.requester_id.function = .ok f ∧ es = [.user f, .release] ∧
      ((t.isCompletion = true ∧ s.cplh + 1 ≤ p.cplh ∧ s.cpld + t.dataCredits ≤ p.cpld ∧
          s' = { s with cplh := s.cplh + 1, cpld := s.cpld + t.dataCredits, queue := s.queue ++ [(t, f)] }) ∨
        (t.isCompletion = false ∧ s' = { s with queue := s.queue ++ [(t, f)] }))) := by
  unfold recv at h
  cases hty : t.fmtType with
  | none => rw [hty] at h; cases h
  | some ty =>
    rw [hty] at h
    simp only at h
    have hur : ∀ s0 : IntelDev F, (∃ d, s0 = { s with dev := d }) → s0.answerUr t = .ok (s', es) →
        (∃ d, s' = { s with dev := d }) ∧ toUser es = [] ∧ releases es = 1 := by
      intro s0 hs0 h
      rw [answerUr_eq] at h
      cases h
      exact ⟨hs0, rfl, rfl⟩
    split at h
    · next hc0 =>
      left
      unfold recvCfg at h
      simp only at h
      split at h
      · exact hur _ ⟨_, rfl⟩ h
      · split at h
        · cases h
        · split at h
          · cases h
          · next f' es' hu =>
            cases h
            refine ⟨⟨_, rfl⟩, rfl, ?_⟩
            have : es'.count Eff.release = 1 := by
              unfold RFn.upstreamRecv at hu
              split at hu
              · cases hu
              · simp only at hu
                split at hu
                · cases hu
                · next hh =>
                  cases hu
                  exact handleTlp_release hty (by cases ty <;> first | rfl | cases hc0) hh
            simp [releases, this]
    · split at h
      · left; exact hur s ⟨_, rfl⟩ h
      · split at h
        · next hc =>
          have hcpl : t.isCompletion = true := by
            simp only [Tlp.isCompletion, Tlp.fcType, hty]
            cases ty <;> first | rfl | cases hc
          unfold recvCpl at h
          split at h
          · cases h; exact .inl ⟨⟨_, rfl⟩, rfl, rfl⟩
          · split at h
            · cases h
            · next f hf =>
              split at h
              · next hr =>
                cases h
                exact .inr ⟨f, _, hf, rfl, .inl ⟨hcpl, hr.1, hr.2, rfl⟩⟩
              · cases h; exact .inl ⟨⟨_, rfl⟩, rfl, rfl⟩
        · next hc =>
          have hcpl : t.isCompletion = false := by
            simp only [Tlp.isCompletion, Tlp.fcType, hty]
            cases ty <;> first | rfl | exact absurd rfl hc
          split at h
          · unfold recvIo at h
            split at h
            · cases h
            · left; exact hur s ⟨_, rfl⟩ h
            · split at h
              · cases h
              · next f hf => cases h; exact .inr ⟨f, _, hf, rfl, .inr ⟨hcpl, rfl⟩⟩
          · split at h
            · unfold recvMem at h
              split at h
              · cases h
              · split at h
                · cases h; exact .inl ⟨⟨_, rfl⟩, rfl, rfl⟩
                · left; exact hur s ⟨_, rfl⟩ h
              · split at h
                · cases h
                · next f hf => cases h; exact .inr ⟨f, _, hf, rfl, .inr ⟨hcpl, rfl⟩⟩
            · cases h

/-- Everything for the user that is still waiting. -/
def pending (s : IntelDev F) : List (Tlp × F) := s.sending.toList ++ s.queue

theorem step_order {s s' : IntelDev F} {e : IntelEv} {o : List (IntelObs F)} (h : s.step mk p e = some (.ok (s', o))) :
    rxSent o ++ s'.pending.map Prod.snd = s.pending.map Prod.snd ++ rxOffered o := by
  cases e with
  | recv t =>
    simp only [step, Option.some.injEq] at h
    cases hr : s.recv mk p t with
    | error e => rw [hr] at h; cases h
    | ok x =>
      obtain ⟨s1, es⟩ := x
      rw [hr] at h
      cases h
      rcases recv_cases hr with ⟨⟨d, rfl⟩, hu, _⟩ | ⟨f, bar, _, rfl, ⟨_, _, _, rfl⟩ | ⟨_, rfl⟩⟩
      · simp [rxSent, rxOffered, hu, pending]
      · simp [rxSent, rxOffered, toUser, pending]
      · simp [rxSent, rxOffered, toUser, pending]
  | get =>
    simp only [step] at h
    split at h
    · next x rest h1 h2 => cases h; simp [rxSent, rxOffered, pending, h1, h2]
    · cases h
  | done =>
    simp only [step] at h
    split at h
    · next t f h1 => cases h; simp [rxSent, rxOffered, pending, h1]
    · cases h
  | cfg d => cases h; simp [rxSent, rxOffered, pending]

theorem rxSent_append (a b : List (IntelObs F)) : rxSent (a ++ b) = rxSent a ++ rxSent b := List.filterMap_append ..
theorem rxOffered_append (a b : List (IntelObs F)) : rxOffered (a ++ b) = rxOffered a ++ rxOffered b := List.flatMap_append
theorem rxArrived_append (a b : List (IntelObs F)) : rxArrived (a ++ b) = rxArrived a ++ rxArrived b := List.filterMap_append ..

theorem run_cons {s s' : IntelDev F} {e : IntelEv} {es : List IntelEv} {o : List (IntelObs F)} (h : s.run mk p (e :: es) = some (.ok (s', o))) :
    ∃ s1 o1 o2, s.step mk p e = some (.ok (s1, o1)) ∧ s1.run mk p es = some (.ok (s', o2)) ∧ o = o1 ++ o2 := by
  unfold run at h
  split at h
  · cases h
  · cases h
  · next s1 o1 h1 =>
    split at h
    · cases h
    · cases h
    · next s2 o2 h2 => cases h; exact ⟨s1, o1, o2, h1, h2, rfl⟩

theorem run_order : ∀ (es : List IntelEv) (s s' : IntelDev F) (o : List (IntelObs F)), s.run mk p es = some (.ok (s', o)) →
    rxSent o ++ s'.pending.map Prod.snd = s.pending.map Prod.snd ++ rxOffered o
  | [], s, s', o, h => by cases h; simp [rxSent, rxOffered]
  | e :: es, s, s', o, h => by
    obtain ⟨s1, o1, o2, h1, h2, rfl⟩ := run_cons h
    have a := step_order h1
    have b := run_order es s1 s' o2 h2
    rw [rxSent_append, rxOffered_append, List.append_assoc, b, ← List.append_assoc, a, List.append_assoc]

/-- The queue as in the model of C44. -/
structure Proj (s : IntelDev F) (r : IntelRx) : Prop where
  queue : r.queue = s.queue.map Prod.fst
  sending : r.sending = s.sending.map Prod.fst
  cplh : r.cplh = s.cplh
  cpld : r.cpld = s.cpld

theorem step_proj {s s' : IntelDev F} {e : IntelEv} {o : List (IntelObs F)} {r : IntelRx} (hr : Proj s r) (h : s.step mk p e = some (.ok (s', o))) :
    ∃ as r', IntelRx.run p r as = some r' ∧ Proj s' r' := by
  cases e with
  | recv t =>
    simp only [step, Option.some.injEq] at h
    cases hx : s.recv mk p t with
    | error e => rw [hx] at h; cases h
    | ok x =>
      obtain ⟨s1, es⟩ := x
      rw [hx] at h
      cases h
      rcases recv_cases hx with ⟨⟨d, rfl⟩, _, _⟩ | ⟨f, bar, _, _, ⟨hc, h1, h2, rfl⟩ | ⟨hc, rfl⟩⟩
      · exact ⟨[], r, rfl, ⟨hr.queue, hr.sending, hr.cplh, hr.cpld⟩⟩
      · refine ⟨[.recv t], { r with cplh := r.cplh + 1, cpld := r.cpld + t.dataCredits, queue := r.queue ++ [t] }, ?_,
          ⟨by simp [hr.queue], hr.sending, by simp [hr.cplh], by simp [hr.cpld]⟩⟩
        simp only [IntelRx.run, IntelRx.step, hc, if_true]
        rw [if_pos ⟨by rw [hr.cplh]; exact h1, by rw [hr.cpld]; exact h2⟩]
        rfl
      · refine ⟨[.recv t], { r with queue := r.queue ++ [t] }, ?_, ⟨by simp [hr.queue], hr.sending, hr.cplh, hr.cpld⟩⟩
        simp [IntelRx.run, IntelRx.step, hc]
  | get =>
    simp only [step] at h
    split at h
    · next x rest h1 h2 =>
      cases h
      have e1 := hr.sending
      have e2 := hr.queue
      rw [h1] at e1
      rw [h2] at e2
      refine ⟨[.get], { r with sending := some x.1, queue := rest.map Prod.fst }, ?_, ⟨rfl, rfl, hr.cplh, hr.cpld⟩⟩
      simp only [List.map_cons, Option.map_none] at e1 e2
      simp [IntelRx.run, IntelRx.step, e1, e2]
    · cases h
  | done =>
    simp only [step] at h
    split at h
    · next t f h1 =>
      cases h
      have e1 := hr.sending
      rw [h1] at e1
      simp only [Option.map_some] at e1
      exact ⟨[.done], { r with sending := none, cplh := r.cplh - 1, cpld := r.cpld - t.dataCredits, got := r.got ++ [t] }, by simp [IntelRx.run, IntelRx.step, e1],
        ⟨hr.queue, rfl, by simp [hr.cplh], by simp [hr.cpld]⟩⟩
    · cases h
  | cfg d => cases h; exact ⟨[], r, rfl, ⟨hr.queue, hr.sending, hr.cplh, hr.cpld⟩⟩

theorem run_proj : ∀ (es : List IntelEv) (s s' : IntelDev F) (o : List (IntelObs F)) (r : IntelRx), Proj s r → s.run mk p es = some (.ok (s', o)) →
    ∃ as r', IntelRx.run p r as = some r' ∧ Proj s' r'
  | [], s, s', o, r, hr, h => by cases h; exact ⟨[], r, rfl, hr⟩
  | e :: es, s, s', o, r, hr, h => by
    obtain ⟨s1, o1, o2, h1, h2, rfl⟩ := run_cons h
    obtain ⟨as, r1, e1, p1⟩ := step_proj hr h1
    obtain ⟨bs, r2, e2, p2⟩ := run_proj es s1 s' o2 r1 p1 h2
    exact ⟨as ++ bs, r2, by rw [IntelRx.run_append e1]; exact e2, p2⟩

/-- Two histories, one after the other. -/
theorem run_append {es es' : List IntelEv} {s s1 s2 : IntelDev F} {o o' : List (IntelObs F)} (h : s.run mk p es = some (.ok (s1, o))) (h' : s1.run mk p es' = some (.ok (s2, o'))) :
    s.run mk p (es ++ es') = some (.ok (s2, o ++ o')) := by
  induction es generalizing s o with
  | nil => cases h; exact h'
  | cons e es ih =>
    obtain ⟨s3, o1, o2, h1, h2, rfl⟩ := run_cons h
    show run mk p s (e :: (es ++ es')) = _
    unfold run
    rw [h1]
    simp only
    rw [ih h2]
    simp

/-- The queue can always be emptied. -/
theorem flush : ∀ (n : Nat) (s : IntelDev F), s.pending.length = n → ∃ es s' o, (∀ e ∈ es, e = .get ∨ e = .done) ∧ s.run mk p es = some (.ok (s', o)) ∧ s'.pending = [] ∧ rxArrived o = []
  | 0, s, h => ⟨[], s, [], by simp, rfl, List.length_eq_zero_iff.1 h, rfl⟩
  | n + 1, s, h => by
    cases hs : s.sending with
    | some x =>
      obtain ⟨t, f⟩ := x
      have hp : ({ s with sending := none, cplh := s.cplh - 1, cpld := s.cpld - t.dataCredits } : IntelDev F).pending.length = n := by
        simp only [pending, hs, Option.toList_some, List.length_append, List.length_singleton] at h
        simp only [pending, Option.toList_none, List.nil_append]
        omega
      obtain ⟨es, s', o, h1, h2, h3, h4⟩ := flush n _ hp
      refine ⟨.done :: es, s', .sent f :: o, ?_, ?_, h3, by simpa [rxArrived] using h4⟩
      · intro e he
        rcases List.mem_cons.1 he with rfl | he
        · exact .inr rfl
        · exact h1 e he
      · unfold run
        simp only [step, hs]
        rw [h2]
        rfl
    | none =>
      cases hq : s.queue with
      | nil => simp [pending, hs, hq] at h
      | cons x rest =>
        obtain ⟨t, f⟩ := x
        have hp : ({ s with sending := none, queue := rest, cplh := s.cplh - 1, cpld := s.cpld - t.dataCredits } : IntelDev F).pending.length = n := by
          simp only [pending, hs, hq, Option.toList_none, List.nil_append, List.length_cons] at h
          simp only [pending, Option.toList_none, List.nil_append]
          omega
        obtain ⟨es, s', o, h1, h2, h3, h4⟩ := flush n _ hp
        refine ⟨.get :: .done :: es, s', .sent f :: o, ?_, ?_, h3, by simpa [rxArrived] using h4⟩
        · intro e he
          rcases List.mem_cons.1 he with rfl | he
          · exact .inl rfl
          rcases List.mem_cons.1 he with rfl | he
          · exact .inr rfl
          · exact h1 e he
        · unfold run
          simp only [step, hs, hq]
          unfold run
          simp only [step]
          rw [h2]
          rfl

end IntelDev
end Pcie
