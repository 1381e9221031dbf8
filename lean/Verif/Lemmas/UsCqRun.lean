import Verif.Lemmas.UsCq
import Verif.Lemmas.UsTlp
namespace Pcie
open Spec
namespace Cq

/-- The model's partition of the requests. -/
def npOf (l : List UsTlp) : List UsTlp := l.filter isNp
@[inherit_doc npOf] def poOf (l : List UsTlp) : List UsTlp := l.filter fun u => !isNp u

@[simp] theorem npOf_append (a b : List UsTlp) : npOf (a ++ b) = npOf a ++ npOf b := List.filter_append ..
@[simp] theorem poOf_append (a b : List UsTlp) : poOf (a ++ b) = poOf a ++ poOf b := List.filter_append ..
@[simp] theorem npOf_nil : npOf [] = [] := rfl
@[simp] theorem poOf_nil : poOf [] = [] := rfl
theorem npOf_cons_np {u : UsTlp} (h : isNp u = true) (l : List UsTlp) : npOf (u :: l) = u :: npOf l := List.filter_cons_of_pos h
theorem npOf_cons_po {u : UsTlp} (h : isNp u = false) (l : List UsTlp) : npOf (u :: l) = npOf l := List.filter_cons_of_neg (by simp [h])
theorem poOf_cons_np {u : UsTlp} (h : isNp u = true) (l : List UsTlp) : poOf (u :: l) = poOf l := List.filter_cons_of_neg (by simp [h])
theorem poOf_cons_po {u : UsTlp} (h : isNp u = false) (l : List UsTlp) : poOf (u :: l) = u :: poOf l := List.filter_cons_of_pos (by simp [h])

@[simp] theorem arrived_append (a b : List CqObs) : cqArrived (a ++ b) = cqArrived a ++ cqArrived b := List.filterMap_append ..
@[simp] theorem sent_append (a b : List CqObs) : cqSent (a ++ b) = cqSent a ++ cqSent b := List.filterMap_append ..
@[simp] theorem grants_append (a b : List CqObs) : cqGrants (a ++ b) = cqGrants a + cqGrants b := List.count_append ..

/-- The request that the streaming interface is about to take. -/
def flight (s : Cq) : List UsTlp :=
  match s.st with
  | .idle => []
  | .draining u _ => [u]
  | .serving u _ => [u]

/-- The `j`-th non-posted request of `S` comes after as many posted ones as in `A`. -/
def NoPass (A S : List UsTlp) : Prop :=
  ∀ S1 b S2, S = S1 ++ b :: S2 → isNp b = true → ∀ A1 a A2, A = A1 ++ a :: A2 → isNp a = true → (npOf A1).length = (npOf S1).length →
    (poOf A1).length ≤ (poOf S1).length

theorem split_snoc {α : Type} {l l1 l2 : List α} {x b : α} (h : l ++ [x] = l1 ++ b :: l2) :
    (l1 = l ∧ b = x ∧ l2 = []) ∨ ∃ l3, l2 = l3 ++ [x] ∧ l = l1 ++ b :: l3 := by
  rcases List.eq_nil_or_concat l2 with rfl | ⟨l3, y, rfl⟩
  · have h' : l ++ [x] = l1 ++ [b] := h
    obtain ⟨h1, h2⟩ := List.append_inj' h' rfl
    cases h2
    exact .inl ⟨h1.symm, rfl, rfl⟩
  · right
    have h' : l ++ [x] = (l1 ++ b :: l3) ++ [y] := by rw [h]; simp
    obtain ⟨h1, h2⟩ := List.append_inj' h' rfl
    cases h2
    exact ⟨l3, by simp, h1⟩

/-- More arrivals. -/
theorem NoPass.more {A S : List UsTlp} (h : NoPass A S) (hl : (npOf S).length ≤ (npOf A).length) (x : UsTlp) : NoPass (A ++ [x]) S := by
  intro S1 b S2 hS hb A1 a A2 hA ha he
  rcases split_snoc hA with ⟨rfl, rfl, rfl⟩ | ⟨l3, rfl, hl3⟩
  · exfalso
    rw [hS, npOf_append, npOf_cons_np hb] at hl
    simp only [List.length_append, List.length_cons] at hl
    omega
  · exact h S1 b S2 hS hb A1 a l3 hl3 ha he

/-- One more is sent: a posted one. -/
theorem NoPass.sendPo {A S : List UsTlp} (h : NoPass A S) {u : UsTlp} (hu : isNp u = false) : NoPass A (S ++ [u]) := by
  intro S1 b S2 hS hb A1 a A2 hA ha he
  rcases split_snoc hS with ⟨rfl, rfl, rfl⟩ | ⟨l3, rfl, hl3⟩
  · rw [hu] at hb; cases hb
  · exact h S1 b l3 hl3 hb A1 a A2 hA ha he

/-- One more is sent: a non-posted one, such that the posted ones in front of it have been sent. -/
theorem NoPass.sendNp {P R S : List UsTlp} (h : NoPass (P ++ R) S) {u : UsTlp} (hu : isNp u = true) (hp : (poOf P).length = (poOf S).length)
    (hn : (npOf S).length < (npOf P).length) : NoPass (P ++ R) (S ++ [u]) := by
  intro S1 b S2 hS hb A1 a A2 hA ha he
  rcases split_snoc hS with ⟨rfl, rfl, rfl⟩ | ⟨l3, rfl, hl3⟩
  · rcases List.append_eq_append_iff.1 hA with ⟨c, h1, h2⟩ | ⟨c, h1, h2⟩
    · exfalso
      rw [h1, npOf_append, List.length_append] at he
      omega
    · rw [← hp, h1, poOf_append, List.length_append]
      exact Nat.le_add_right _ _
  · exact h S1 b l3 hl3 hb A1 a A2 hA ha he

/-- A request with an address. -/
def Addressed (u : UsTlp) : Prop := ∃ ty, u.tlp.fmtType = some ty ∧ (ty.isIo = true ∨ ty.isMem = true)

theorem Addressed.np {u : UsTlp} (h : Addressed u) : isNp u = u.tlp.isNonposted := by
  obtain ⟨ty, hf, h⟩ := h
  unfold isNp Tlp.isNonposted Tlp.fcType
  rw [hf]
  rcases h with h | h <;> cases ty <;> first | (cases h; done) | decide

theorem Addressed.pack {u : UsTlp} (h : Addressed u) (hd : u.tlp.data.length % 4 = 0) : ∃ f, u.packCq = .ok f := by
  obtain ⟨ty, hf, h⟩ := h
  unfold UsTlp.packCq
  rw [hf, leDwords_eq _ hd]
  rcases h with h | h <;> cases ty <;> first | (cases h; done) | exact ⟨_, rfl⟩

/-- The invariant, except for what depends on where the task is. `S` is what has been sent or is being sent, `P` what has been taken from `cq_queue`. -/
structure Core (s : Cq) (P S : List UsTlp) (q : List UsTlp) : Prop where
  arrived : cqArrived s.hist = P ++ q
  np : npOf P = npOf S ++ s.npq
  po : poOf P = poOf S
  npq : ∀ u ∈ s.npq, isNp u = true
  count : s.count ≤ 32
  credit : (npOf S).length + s.count ≤ cqGrants s.hist
  pass : NoPass (cqArrived s.hist) S
  type : ∀ u ∈ cqArrived s.hist, Addressed u
  frames : ∀ u f, CqObs.sent u f ∈ s.hist → u.packCq = .ok f

/-- The invariant. -/
structure Inv (s : Cq) : Prop where
  core : ∃ P, Core s P (cqSent s.hist ++ s.flight) s.queue
  rest : (∀ u f, s.st ≠ .draining u f) → 0 < s.count → s.npq = []
  pack : ∀ u f, s.st = .draining u f ∨ s.st = .serving u f → u.packCq = .ok f
  out : s.st = .idle → s.out = s.count

theorem Core.sendNp {s s' : Cq} {P S : List UsTlp} {u : UsTlp} {rest : List UsTlp} {q : List UsTlp} (h : Core s P S q) (hq : s.npq = u :: rest)
    (hc : 0 < s.count) (h1 : s'.npq = rest) (h2 : s'.count = s.count - 1) (h3 : s'.hist = s.hist) : Core s' P (S ++ [u]) q := by
  obtain ⟨a1, a2, a3, a4, a5, a6, a7, a8, a9⟩ := h
  have hu : isNp u = true := a4 u (by rw [hq]; exact List.mem_cons_self)
  refine ⟨by rw [h3]; exact a1, ?_, ?_, ?_, by omega, ?_, ?_, by rw [h3]; exact a8, by rw [h3]; exact a9⟩
  · rw [a2, hq, h1, npOf_append, npOf_cons_np hu]; simp
  · rw [a3, poOf_append, poOf_cons_np hu]; simp
  · intro v hv; rw [h1] at hv; exact a4 v (by rw [hq]; exact List.mem_cons_of_mem _ hv)
  · rw [h3, h2, npOf_append, npOf_cons_np hu]
    simp only [npOf_nil, List.length_append, List.length_cons, List.length_nil]
    omega
  · rw [h3]
    rw [a1] at a7 ⊢
    refine NoPass.sendNp a7 hu (by rw [a3]) ?_
    rw [a2, hq]; simp

theorem Core.serveNp {s s' : Cq} {P S : List UsTlp} {u : UsTlp} {rest : List UsTlp} (h : Core s P S (u :: rest)) (hu : isNp u = true) (hq : s.npq = [])
    (hc : 0 < s.count) (h1 : s'.npq = []) (h2 : s'.count = s.count - 1) (h3 : s'.hist = s.hist) : Core s' (P ++ [u]) (S ++ [u]) rest := by
  obtain ⟨a1, a2, a3, a4, a5, a6, a7, a8, a9⟩ := h
  have a1' : cqArrived s.hist = (P ++ [u]) ++ rest := by rw [a1]; simp
  refine ⟨by rw [h3]; exact a1', ?_, ?_, by rw [h1]; nofun, by omega, ?_, ?_, by rw [h3]; exact a8, by rw [h3]; exact a9⟩
  · rw [npOf_append, a2, hq, h1, npOf_append]; simp
  · rw [poOf_append, a3, poOf_append]
  · rw [h3, h2, npOf_append, npOf_cons_np hu]
    simp only [npOf_nil, List.length_append, List.length_cons, List.length_nil]
    omega
  · rw [h3]
    rw [a1'] at a7 ⊢
    refine NoPass.sendNp a7 hu ?_ ?_
    · rw [poOf_append, poOf_cons_np hu, a3]; simp
    · rw [npOf_append, a2, npOf_cons_np hu, hq]; simp

theorem Core.servePo {s s' : Cq} {P S : List UsTlp} {u : UsTlp} {rest : List UsTlp} (h : Core s P S (u :: rest)) (hu : isNp u = false)
    (h1 : s'.npq = s.npq) (h2 : s'.count = s.count) (h3 : s'.hist = s.hist) : Core s' (P ++ [u]) (S ++ [u]) rest := by
  obtain ⟨a1, a2, a3, a4, a5, a6, a7, a8, a9⟩ := h
  have a1' : cqArrived s.hist = (P ++ [u]) ++ rest := by rw [a1]; simp
  refine ⟨by rw [h3]; exact a1', ?_, ?_, by rw [h1]; exact a4, by omega, ?_, ?_, by rw [h3]; exact a8, by rw [h3]; exact a9⟩
  · rw [npOf_append, a2, h1, npOf_append, npOf_cons_po hu]; simp
  · rw [poOf_append, a3, poOf_append]
  · rw [h3, h2, npOf_append, npOf_cons_po hu]
    simp only [npOf_nil, List.append_nil]
    omega
  · rw [h3]; exact a7.sendPo hu

theorem Core.keepNp {s s' : Cq} {P S : List UsTlp} {u : UsTlp} {rest : List UsTlp} (h : Core s P S (u :: rest)) (hu : isNp u = true)
    (h1 : s'.npq = s.npq ++ [u]) (h2 : s'.count = s.count) (h3 : s'.hist = s.hist) : Core s' (P ++ [u]) S rest := by
  obtain ⟨a1, a2, a3, a4, a5, a6, a7, a8, a9⟩ := h
  refine ⟨by rw [h3, a1]; simp, ?_, ?_, ?_, by omega, by rw [h3, h2]; exact a6, by rw [h3]; exact a7, by rw [h3]; exact a8, by rw [h3]; exact a9⟩
  · rw [npOf_append, a2, h1, npOf_cons_np hu]; simp
  · rw [poOf_append, a3, poOf_cons_np hu]; simp
  · intro v hv
    rw [h1] at hv
    rcases List.mem_append.1 hv with hv | hv
    · exact a4 v hv
    · rw [List.mem_singleton.1 hv]; exact hu

theorem Core.same {s s' : Cq} {P S q : List UsTlp} (h : Core s P S q) (h1 : s'.npq = s.npq) (h2 : s'.count = s.count) (h3 : s'.hist = s.hist) : Core s' P S q := by
  obtain ⟨a1, a2, a3, a4, a5, a6, a7, a8, a9⟩ := h
  exact ⟨by rw [h3]; exact a1, by rw [h1]; exact a2, a3, by rw [h1]; exact a4, by rw [h2]; exact a5, by rw [h2, h3]; exact a6, by rw [h3]; exact a7,
    by rw [h3]; exact a8, by rw [h3]; exact a9⟩

/-- The second loop. -/
theorem serve_inv : ∀ (q : List UsTlp) (s s' : Cq) (P : List UsTlp), Core s P (cqSent s.hist) q → (0 < s.count → s.npq = []) → s.serve q = .ok s' → Inv s'
  | [], s, s', P, h, hr, e => by
    cases e
    refine ⟨⟨P, ?_⟩, fun _ => hr, fun u f hh => (by rcases hh with h | h <;> cases h), fun _ => rfl⟩
    simp only [flight, List.append_nil]
    exact h.same rfl rfl rfl
  | u :: rest, s, s', P, h, hr, e => by
    unfold serve at e
    cases hu : isNp u with
    | true =>
      rw [hu] at e
      simp only [if_true] at e
      by_cases hc : 0 < s.count
      · rw [if_pos hc] at e
        cases hp : u.packCq with
        | error x => rw [hp] at e; cases e
        | ok f =>
          rw [hp] at e
          cases e
          refine ⟨⟨P ++ [u], ?_⟩, fun _ _ => hr hc, fun v g hh => ?_, nofun⟩
          · simp only [flight]
            exact h.serveNp hu (hr hc) hc (hr hc) rfl rfl
          · rcases hh with h | h <;> cases h; exact hp
      · rw [if_neg hc] at e
        exact serve_inv rest { s with npq := s.npq ++ [u] } s' (P ++ [u]) (h.keepNp hu rfl rfl rfl) (fun h0 => absurd h0 hc) e
    | false =>
      rw [hu] at e
      simp only [Bool.false_eq_true, if_false] at e
      cases hp : u.packCq with
      | error x => rw [hp] at e; cases e
      | ok f =>
        rw [hp] at e
        cases e
        refine ⟨⟨P ++ [u], ?_⟩, fun _ => hr, fun v g hh => ?_, nofun⟩
        · simp only [flight]
          exact h.servePo hu rfl rfl rfl
        · rcases hh with h | h <;> cases h; exact hp

/-- The first loop. -/
theorem drain_inv (s s' : Cq) (P : List UsTlp) (h : Core s P (cqSent s.hist) s.queue) (e : s.drain = .ok s') : Inv s' := by
  unfold drain at e
  cases hq : s.npq with
  | nil =>
    rw [hq] at e
    exact serve_inv s.queue s s' P h (fun _ => hq) e
  | cons u rest =>
    rw [hq] at e
    simp only at e
    by_cases hc : 0 < s.count
    · rw [if_pos hc] at e
      cases hp : u.packCq with
      | error x => rw [hp] at e; cases e
      | ok f =>
        rw [hp] at e
        cases e
        refine ⟨⟨P, ?_⟩, fun hh => absurd rfl (hh u f), fun v g hh => ?_, nofun⟩
        · simp only [flight]
          exact h.sendNp hq hc rfl rfl rfl
        · rcases hh with h | h <;> cases h; exact hp
    · rw [if_neg hc] at e
      exact serve_inv s.queue s s' P h (fun h0 => absurd h0 hc) e

theorem recv_user {d d' : UsDev} {t : Tlp} {u : UsTlp} (h : d.recv t = some (.ok (d', .user u))) :
    Addressed u := by
  unfold UsDev.recv at h
  cases ht : t.fmtType with
  | none => rw [ht] at h; simp at h
  | some ty =>
    rw [ht] at h
    simp only at h
    have key : u.tlp.fmt = t.fmt ∧ u.tlp.type = t.type ∧ (ty.isIo = true ∨ ty.isMem = true) := by
      split at h
      · exfalso
        simp only [Option.some.injEq] at h
        unfold UsDev.recvCfg UsDev.answered at h
        simp only at h
        repeat' (split at h)
        all_goals (cases h)
      · split at h
        · exfalso
          simp only [Option.some.injEq] at h
          unfold UsDev.answered at h
          split at h <;> cases h
        · split at h
          · cases h
          · split at h
            · rename_i hio
              simp only [Option.some.injEq] at h
              unfold UsDev.recvIo UsDev.answered at h
              repeat' (split at h)
              all_goals (try cases h)
              exact ⟨rfl, rfl, .inl hio⟩
            · split at h
              · rename_i hm
                simp only [Option.some.injEq] at h
                unfold UsDev.recvMem UsDev.answered at h
                repeat' (split at h)
                all_goals (try cases h)
                exact ⟨rfl, rfl, .inr hm⟩
              · cases h
    have hf : u.tlp.fmtType = some ty := by
      unfold Tlp.fmtType at ht ⊢
      rw [key.1, key.2.1]; exact ht
    exact ⟨ty, hf, key.2.2⟩

/-- Every step keeps the invariant. -/
theorem step_inv {s s' : Cq} {e : CqEv} (h : Inv s) (he : s.step e = some (.ok s')) : Inv s' := by
  obtain ⟨⟨P, hc⟩, hr, hp, ho⟩ := h
  cases e with
  | recv t =>
    simp only [step] at he
    cases hd : s.dev.recv t with
    | none => rw [hd] at he; cases he
    | some r =>
      rw [hd] at he
      match r, hd, he with
      | .error x, hd, he => cases he
      | .ok (d, .user u), hd, he =>
        cases he
        obtain ⟨a1, a2, a3, a4, a5, a6, a7, a8, a9⟩ := hc
        refine ⟨⟨P, ?_⟩, hr, hp, ho⟩
        have e1 : cqArrived [CqObs.arrived u] = [u] := rfl
        have e2 : cqSent [CqObs.arrived u] = [] := rfl
        have e3 : cqGrants [CqObs.arrived u] = 0 := rfl
        refine ⟨?_, ?_, ?_, a4, a5, ?_, ?_, ?_, ?_⟩ <;> simp only [arrived_append, sent_append, grants_append, e1, e2, e3, List.append_nil, Nat.add_zero, flight]
        · rw [a1]; simp
        · exact a2
        · exact a3
        · exact a6
        · refine a7.more (show (npOf (cqSent s.hist ++ s.flight)).length ≤ _ from ?_) u
          rw [a1, npOf_append P, a2]
          simp only [List.length_append]
          omega
        · intro v hv
          rcases List.mem_append.1 hv with hv | hv
          · exact a8 v hv
          · rw [List.mem_singleton.1 hv]; exact recv_user hd
        · intro v f hv
          rcases List.mem_append.1 hv with hv | hv
          · exact a9 v f hv
          · cases List.mem_singleton.1 hv
      | .ok (d, .function k es), hd, he => cases he; exact ⟨⟨P, hc.same rfl rfl rfl⟩, hr, hp, ho⟩
      | .ok (d, .answer c), hd, he => cases he; exact ⟨⟨P, hc.same rfl rfl rfl⟩, hr, hp, ho⟩
      | .ok (d, .drop), hd, he => cases he; exact ⟨⟨P, hc.same rfl rfl rfl⟩, hr, hp, ho⟩
  | cfg d =>
    cases he
    exact ⟨⟨P, hc.same rfl rfl rfl⟩, hr, hp, ho⟩
  | taken =>
    simp only [step] at he
    have e1 : ∀ u f, cqSent [CqObs.sent u f] = [u] := fun _ _ => rfl
    have e2 : ∀ u f, cqArrived [CqObs.sent u f] = [] := fun _ _ => rfl
    have e3 : ∀ u f, cqGrants [CqObs.sent u f] = 0 := fun _ _ => by simp [cqGrants]
    have mk : ∀ u f, s.flight = [u] → u.packCq = .ok f →
        Core { s with st := .idle, hist := s.hist ++ [.sent u f] } P (cqSent (s.hist ++ [.sent u f])) s.queue := by
      intro u f hfl hpk
      obtain ⟨a1, a2, a3, a4, a5, a6, a7, a8, a9⟩ := hc
      rw [hfl] at a2 a3 a6 a7
      refine ⟨?_, ?_, ?_, a4, a5, ?_, ?_, ?_, ?_⟩ <;> simp only [arrived_append, sent_append, grants_append, e1, e2, e3, List.append_nil, Nat.add_zero]
      · exact a1
      · exact a2
      · exact a3
      · exact a6
      · exact a7
      · exact a8
      · intro v g hv
        rcases List.mem_append.1 hv with hv | hv
        · exact a9 v g hv
        · cases List.mem_singleton.1 hv; exact hpk
    cases hst : s.st with
    | idle => rw [hst] at he; cases he
    | draining u f =>
      rw [hst] at he
      simp only [Option.some.injEq] at he
      exact drain_inv _ s' P (mk u f (by simp only [flight, hst]) (hp u f (.inl hst))) he
    | serving u f =>
      rw [hst] at he
      simp only [Option.some.injEq] at he
      exact serve_inv _ _ s' P (mk u f (by simp only [flight, hst]) (hp u f (.inr hst)))
        (fun h0 => hr (by intro v g; rw [hst]; nofun) h0) he
  | clock b =>
    simp only [step] at he
    have e1 : cqSent [CqObs.granted] = [] := rfl
    have e2 : cqArrived [CqObs.granted] = [] := rfl
    have e3 : cqGrants [CqObs.granted] = 1 := rfl
    obtain ⟨a1, a2, a3, a4, a5, a6, a7, a8, a9⟩ := hc
    have hmem : ∀ v g, CqObs.sent v g ∈ s.hist ++ [CqObs.granted] → v.packCq = .ok g := by
      intro v g hv
      rcases List.mem_append.1 hv with hv | hv
      · exact a9 v g hv
      · cases List.mem_singleton.1 hv
    have ign : ∀ s', s' = { s with hist := if b then s.hist ++ [.granted] else s.hist } → Inv s' := by
      intro s' hs'
      subst hs'
      cases b with
      | false => exact ⟨⟨P, a1, a2, a3, a4, a5, a6, a7, a8, a9⟩, hr, hp, ho⟩
      | true =>
        refine ⟨⟨P, ?_⟩, hr, hp, ho⟩
        have hfl' : flight { s with hist := s.hist ++ [.granted] } = s.flight := rfl
        refine ⟨?_, ?_, ?_, a4, a5, ?_, ?_, ?_, ?_⟩ <;>
          simp only [if_true, arrived_append, sent_append, grants_append, e1, e2, e3, List.append_nil, hfl']
        · exact a1
        · exact a2
        · exact a3
        · omega
        · exact a7
        · exact a8
        · exact hmem
    cases hst : s.st with
    | idle =>
      have hfl : s.flight = [] := by simp only [flight, hst]
      rw [hfl, List.append_nil] at a2 a3 a6 a7
      cases b with
      | false =>
        simp only [Bool.false_eq_true, if_false, hst, Option.some.injEq] at he
        exact drain_inv { s with st := .idle } s' P ⟨a1, a2, a3, a4, a5, a6, a7, a8, a9⟩ he
      | true =>
        simp only [if_true, hst, Option.some.injEq] at he
        refine drain_inv _ s' P ?_ he
        refine ⟨?_, ?_, ?_, a4, Nat.min_le_right .., ?_, ?_, ?_, ?_⟩ <;> simp only [arrived_append, sent_append, grants_append, e1, e2, e3, List.append_nil]
        · exact a1
        · exact a2
        · exact a3
        · have := Nat.min_le_left (s.count + 1) 32
          omega
        · exact a7
        · exact a8
        · exact hmem
    | draining u f =>
      have he' : s' = { s with hist := if b then s.hist ++ [.granted] else s.hist } := by
        cases b <;> simp only [hst, Bool.false_eq_true, if_false, if_true, Option.some.injEq, Except.ok.injEq] at he <;> rw [← he] <;> first | rfl | simp [hst]
      exact ign s' he'
    | serving u f =>
      have he' : s' = { s with hist := if b then s.hist ++ [.granted] else s.hist } := by
        cases b <;> simp only [hst, Bool.false_eq_true, if_false, if_true, Option.some.injEq, Except.ok.injEq] at he <;> rw [← he] <;> first | rfl | simp [hst]
      exact ign s' he'

/-- Every history keeps the invariant. -/
theorem run_inv : ∀ (es : List CqEv) (s s' : Cq), Inv s → s.run es = some (.ok s') → Inv s'
  | [], s, s', h, e => by cases e; exact h
  | x :: es, s, s', h, e => by
    unfold run at e
    cases hx : s.step x with
    | none => rw [hx] at e; cases e
    | some r =>
      rw [hx] at e
      cases r with
      | error y => cases e
      | ok s1 => exact run_inv es s1 s' (step_inv h hx) e

theorem init_inv (d : UsDev) : Inv { dev := d } :=
  ⟨⟨[], rfl, rfl, rfl, nofun, Nat.zero_le _, Nat.zero_le _, (by intro S1 b S2 h; simp [cqSent, flight] at h), nofun, nofun⟩, fun _ _ => rfl,
    fun _ _ h => (by rcases h with h | h <;> cases h), fun _ => rfl⟩

/-! ### Progress -/

/-- The non-posted requests sent or being sent, and the credits left. -/
def total (s : Cq) : Nat := (npOf (cqSent s.hist ++ s.flight)).length + s.count

/-- What one stretch of the task does: `taken` are the steps that are still to come at most. -/
structure Stretch (s s' : Cq) : Prop where
  hist : s'.hist = s.hist
  dev : s'.dev = s.dev
  total : total s' = (npOf (cqSent s.hist)).length + s.count

theorem serve_ok : ∀ (q : List UsTlp) (s : Cq), (∀ u ∈ q, ∃ f, u.packCq = .ok f) →
    ∃ s', s.serve q = .ok s' ∧ Stretch s s' ∧ (s'.st = .idle ∧ s'.queue = [] ∨ (∃ u f, s'.st = .serving u f) ∧ s'.queue.length < q.length)
  | [], s, _ => ⟨_, rfl, ⟨rfl, rfl, by simp [total, flight]⟩, .inl ⟨rfl, rfl⟩⟩
  | u :: rest, s, h => by
    obtain ⟨f, hf⟩ := h u List.mem_cons_self
    unfold serve
    cases hu : isNp u with
    | true =>
      simp only [if_true]
      by_cases hc : 0 < s.count
      · rw [if_pos hc, hf]
        refine ⟨_, rfl, ⟨rfl, rfl, ?_⟩, .inr ⟨⟨u, f, rfl⟩, Nat.lt_succ_self _⟩⟩
        simp only [total, flight, npOf_append, npOf_cons_np hu, npOf_nil, List.length_append, List.length_cons, List.length_nil]
        omega
      · rw [if_neg hc]
        obtain ⟨s', e, ⟨h1, h2, h3⟩, h4⟩ := serve_ok rest { s with npq := s.npq ++ [u] } fun v hv => h v (List.mem_cons_of_mem _ hv)
        refine ⟨s', e, ⟨h1, h2, h3⟩, h4.imp id fun x => ⟨x.1, Nat.lt_succ_of_lt x.2⟩⟩
    | false =>
      simp only [Bool.false_eq_true, if_false]
      rw [hf]
      refine ⟨_, rfl, ⟨rfl, rfl, ?_⟩, .inr ⟨⟨u, f, rfl⟩, Nat.lt_succ_self _⟩⟩
      simp [total, flight, npOf_cons_po hu]

theorem drain_ok (s : Cq) (h : ∀ u ∈ s.queue, ∃ f, u.packCq = .ok f) (h' : ∀ u ∈ s.npq, ∃ f, u.packCq = .ok f) (hn : ∀ u ∈ s.npq, isNp u = true) :
    ∃ s', s.drain = .ok s' ∧ Stretch s s' ∧ (s'.st = .idle ∧ s'.queue = [] ∨ (∃ u f, s'.st = .serving u f) ∨
      (∃ u f, s'.st = .draining u f) ∧ s'.npq.length < s.npq.length) := by
  unfold drain
  cases hq : s.npq with
  | nil =>
    obtain ⟨s', e, h1, h2⟩ := serve_ok s.queue s h
    exact ⟨s', e, h1, h2.imp id fun x => .inl x.1⟩
  | cons u rest =>
    simp only
    by_cases hc : 0 < s.count
    · obtain ⟨f, hf⟩ := h' u (by rw [hq]; exact List.mem_cons_self)
      have hu := hn u (by rw [hq]; exact List.mem_cons_self)
      rw [if_pos hc, hf]
      refine ⟨_, rfl, ⟨rfl, rfl, ?_⟩, .inr (.inr ⟨⟨u, f, rfl⟩, Nat.lt_succ_self _⟩)⟩
      simp only [total, flight, npOf_append, npOf_cons_np hu, npOf_nil, List.length_append, List.length_cons, List.length_nil]
      omega
    · rw [if_neg hc]
      obtain ⟨s', e, h1, h2⟩ := serve_ok s.queue s h
      exact ⟨s', e, h1, h2.imp id fun x => .inl x.1⟩

/-- What `taken` steps do. -/
structure Flushed (s s' : Cq) : Prop where
  idle : s'.st = .idle
  queue : s'.queue = []
  arrived : cqArrived s'.hist = cqArrived s.hist
  grants : cqGrants s'.hist = cqGrants s.hist
  dev : s'.dev = s.dev
  total : total s' = total s

theorem Inv.packs {s : Cq} (h : Inv s) (hp : ∀ u ∈ cqArrived s.hist, u.tlp.data.length % 4 = 0) :
    (∀ u ∈ s.queue, ∃ f, u.packCq = .ok f) ∧ (∀ u ∈ s.npq, ∃ f, u.packCq = .ok f) ∧ ∀ u ∈ s.npq, isNp u = true := by
  obtain ⟨P, hc⟩ := h.core
  have hm : ∀ u, u ∈ P ++ s.queue → ∃ f, u.packCq = .ok f := fun u hu => by
    rw [← hc.arrived] at hu
    exact (hc.type u hu).pack (hp u hu)
  refine ⟨fun u hu => hm u (List.mem_append_right _ hu), fun u hu => hm u (List.mem_append_left _ ?_), hc.npq⟩
  have : u ∈ npOf P := by rw [hc.np]; exact List.mem_append_right _ hu
  exact (List.mem_filter.1 this).1

theorem flush_serving : ∀ (n : Nat) (s : Cq), s.queue.length ≤ n → Inv s → (∀ u ∈ cqArrived s.hist, u.tlp.data.length % 4 = 0) →
    (∃ u f, s.st = .serving u f) → ∃ k s', s.run (List.replicate k .taken) = some (.ok s') ∧ Flushed s s' := by
  intro n
  induction n with
  | zero =>
    intro s hl hi hp ⟨u, f, hst⟩
    have hq : s.queue = [] := List.eq_nil_of_length_eq_zero (by omega)
    obtain ⟨s', e, ⟨h1, h2, h3⟩, h4⟩ := serve_ok s.queue { s with st := .idle, hist := s.hist ++ [.sent u f] } (hi.packs hp).1
    have he : s.step .taken = some (.ok s') := by simp only [step, hst, e]
    refine ⟨1, s', ?_, ?_⟩
    · show Cq.run s [.taken] = _
      unfold run; rw [he]; rfl
    · rcases h4 with h4 | h4
      · refine ⟨h4.1, h4.2, ?_, ?_, h2, ?_⟩
        · rw [h1]; simp [cqArrived]
        · rw [h1]; simp [cqGrants]
        · rw [h3]; simp [total, flight, hst, cqSent]
      · rw [hq] at h4; exact absurd h4.2 (Nat.not_lt_zero _)
  | succ n ih =>
    intro s hl hi hp ⟨u, f, hst⟩
    obtain ⟨s', e, ⟨h1, h2, h3⟩, h4⟩ := serve_ok s.queue { s with st := .idle, hist := s.hist ++ [.sent u f] } (hi.packs hp).1
    have he : s.step .taken = some (.ok s') := by simp only [step, hst, e]
    have f1 : cqArrived s'.hist = cqArrived s.hist := by rw [h1]; simp [cqArrived]
    have f2 : cqGrants s'.hist = cqGrants s.hist := by rw [h1]; simp [cqGrants]
    have f3 : total s' = total s := by rw [h3]; simp [total, flight, hst, cqSent]
    rcases h4 with h4 | h4
    · refine ⟨1, s', ?_, h4.1, h4.2, f1, f2, h2, f3⟩
      show Cq.run s [.taken] = _
      unfold run; rw [he]; rfl
    · obtain ⟨k, s2, e2, g⟩ := ih s' (by omega) (step_inv hi he) (by rw [f1]; exact hp) h4.1
      refine ⟨k + 1, s2, ?_, g.idle, g.queue, g.arrived.trans f1, g.grants.trans f2, g.dev.trans h2, g.total.trans f3⟩
      show Cq.run s (.taken :: List.replicate k .taken) = _
      unfold run; rw [he]; exact e2

theorem flush_draining : ∀ (n : Nat) (s : Cq), s.npq.length ≤ n → Inv s → (∀ u ∈ cqArrived s.hist, u.tlp.data.length % 4 = 0) →
    (∃ u f, s.st = .draining u f) → ∃ k s', s.run (List.replicate k .taken) = some (.ok s') ∧ Flushed s s' := by
  intro n
  induction n with
  | zero =>
    intro s hl hi hp ⟨u, f, hst⟩
    have hq : s.npq = [] := List.eq_nil_of_length_eq_zero (by omega)
    obtain ⟨p1, p2, p3⟩ := hi.packs hp
    obtain ⟨s', e, ⟨h1, h2, h3⟩, h4⟩ := drain_ok { s with st := .idle, hist := s.hist ++ [.sent u f] } p1 p2 p3
    have he : s.step .taken = some (.ok s') := by simp only [step, hst, e]
    have f1 : cqArrived s'.hist = cqArrived s.hist := by rw [h1]; simp [cqArrived]
    have f2 : cqGrants s'.hist = cqGrants s.hist := by rw [h1]; simp [cqGrants]
    have f3 : total s' = total s := by rw [h3]; simp [total, flight, hst, cqSent]
    rcases h4 with h4 | h4 | h4
    · refine ⟨1, s', ?_, h4.1, h4.2, f1, f2, h2, f3⟩
      show Cq.run s [.taken] = _
      unfold run; rw [he]; rfl
    · obtain ⟨k, s2, e2, g⟩ := flush_serving _ s' (Nat.le_refl _) (step_inv hi he) (by rw [f1]; exact hp) h4
      refine ⟨k + 1, s2, ?_, g.idle, g.queue, g.arrived.trans f1, g.grants.trans f2, g.dev.trans h2, g.total.trans f3⟩
      show Cq.run s (.taken :: List.replicate k .taken) = _
      unfold run; rw [he]; exact e2
    · have : s'.npq.length < s.npq.length := h4.2
      omega
  | succ n ih =>
    intro s hl hi hp ⟨u, f, hst⟩
    obtain ⟨p1, p2, p3⟩ := hi.packs hp
    obtain ⟨s', e, ⟨h1, h2, h3⟩, h4⟩ := drain_ok { s with st := .idle, hist := s.hist ++ [.sent u f] } p1 p2 p3
    have he : s.step .taken = some (.ok s') := by simp only [step, hst, e]
    have f1 : cqArrived s'.hist = cqArrived s.hist := by rw [h1]; simp [cqArrived]
    have f2 : cqGrants s'.hist = cqGrants s.hist := by rw [h1]; simp [cqGrants]
    have f3 : total s' = total s := by rw [h3]; simp [total, flight, hst, cqSent]
    rcases h4 with h4 | h4 | h4
    · refine ⟨1, s', ?_, h4.1, h4.2, f1, f2, h2, f3⟩
      show Cq.run s [.taken] = _
      unfold run; rw [he]; rfl
    · obtain ⟨k, s2, e2, g⟩ := flush_serving _ s' (Nat.le_refl _) (step_inv hi he) (by rw [f1]; exact hp) h4
      refine ⟨k + 1, s2, ?_, g.idle, g.queue, g.arrived.trans f1, g.grants.trans f2, g.dev.trans h2, g.total.trans f3⟩
      show Cq.run s (.taken :: List.replicate k .taken) = _
      unfold run; rw [he]; exact e2
    · have : s'.npq.length < s.npq.length := h4.2
      obtain ⟨k, s2, e2, g⟩ := ih s' (by omega) (step_inv hi he) (by rw [f1]; exact hp) h4.1
      refine ⟨k + 1, s2, ?_, g.idle, g.queue, g.arrived.trans f1, g.grants.trans f2, g.dev.trans h2, g.total.trans f3⟩
      show Cq.run s (.taken :: List.replicate k .taken) = _
      unfold run; rw [he]; exact e2

/-- From every state: if the interface keeps taking frames, the task gets to its next clock edge, with nothing left in `cq_queue` unless it was there already. -/
theorem flush_any (s : Cq) (hi : Inv s) (hp : ∀ u ∈ cqArrived s.hist, u.tlp.data.length % 4 = 0) (hst : s.st ≠ .idle) :
    ∃ k s', s.run (List.replicate k .taken) = some (.ok s') ∧ Flushed s s' := by
  cases h : s.st with
  | idle => exact absurd h hst
  | draining u f => exact flush_draining _ s (Nat.le_refl _) hi hp ⟨u, f, h⟩
  | serving u f => exact flush_serving _ s (Nat.le_refl _) hi hp ⟨u, f, h⟩

/-- A clock edge, and then the interface takes all that is sent. -/
theorem flush_clock (s : Cq) (b : Bool) (hi : Inv s) (hp : ∀ u ∈ cqArrived s.hist, u.tlp.data.length % 4 = 0) (hst : s.st = .idle) :
    ∃ k s', s.run (.clock b :: List.replicate k .taken) = some (.ok s') ∧ s'.st = .idle ∧ s'.queue = [] ∧ s'.dev = s.dev ∧
      cqArrived s'.hist = cqArrived s.hist ∧ (npOf (cqSent s'.hist)).length + s'.count =
        (npOf (cqSent s.hist)).length + (if b then min (s.count + 1) 32 else s.count) := by
  obtain ⟨p1, p2, p3⟩ := hi.packs hp
  obtain ⟨s1, e, ⟨h1, h2, h3⟩, h4⟩ := drain_ok { s with
      hist := if b then s.hist ++ [.granted] else s.hist
      count := if b then min (s.count + 1) 32 else s.count } p1 p2 p3
  have he : s.step (.clock b) = some (.ok s1) := by
    cases b <;> simp only [step, hst, Bool.false_eq_true, if_false, if_true] at e ⊢ <;> rw [← e]
  have f1 : cqArrived s1.hist = cqArrived s.hist := by rw [h1]; cases b <;> simp [cqArrived]
  have f3 : total s1 = (npOf (cqSent s.hist)).length + (if b then min (s.count + 1) 32 else s.count) := by
    rw [h3]; cases b <;> simp [cqSent]
  by_cases hid : s1.st = .idle
  · refine ⟨0, s1, ?_, hid, ?_, h2, f1, ?_⟩
    · show Cq.run s [.clock b] = _
      unfold run; rw [he]; rfl
    · rcases h4 with h4 | ⟨u, f, h4⟩ | ⟨⟨u, f, h4⟩, _⟩
      · exact h4.2
      · rw [h4] at hid; cases hid
      · rw [h4] at hid; cases hid
    · rw [← f3]; simp [total, flight, hid]
  · obtain ⟨k, s2, e2, g⟩ := flush_any s1 (step_inv hi he) (by rw [f1]; exact hp) hid
    refine ⟨k, s2, ?_, g.idle, g.queue, g.dev.trans h2, g.arrived.trans f1, ?_⟩
    · unfold run; rw [he]; exact e2
    · rw [← f3, ← g.total]; simp [total, flight, g.idle]

end Cq
end Pcie
