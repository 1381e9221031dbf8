import Verif.Spec.TrafficOrder
import Verif.Lemmas.Traffic
/-
TLPs with the same route stay in order: seen from the destination, the places of the route hold them one after the other.
-/
namespace Pcie
open Pcie.Spec

/-- The TLPs of kind `I` in a list. -/
def kind (I : Nat → Bool) (l : List TPkt) : List Nat := (l.map (·.id)).filter I

theorem kind_append (I : Nat → Bool) (a b : List TPkt) : kind I (a ++ b) = kind I a ++ kind I b := by simp [kind]
theorem kind_nil (I : Nat → Bool) : kind I [] = [] := rfl
theorem kind_cons_pos {I : Nat → Bool} {p : TPkt} (h : I p.id = true) (l : List TPkt) : kind I (p :: l) = p.id :: kind I l := by simp [kind, h]
theorem kind_cons_neg {I : Nat → Bool} {p : TPkt} (h : I p.id = false) (l : List TPkt) : kind I (p :: l) = kind I l := by simp [kind, h]
theorem kind_eq_nil {I : Nat → Bool} {l : List TPkt} (h : ∀ p ∈ l, I p.id = false) : kind I l = [] := by
  simp only [kind, List.filter_eq_nil_iff, List.mem_map, forall_exists_index, and_imp, forall_apply_eq_imp_iff₂]
  intro p hp
  simp [h p hp]

theorem kind_eraseIdx_neg {I : Nat → Bool} : ∀ (l : List TPkt) (i : Nat) (p : TPkt), l[i]? = some p → I p.id = false → kind I (l.eraseIdx i) = kind I l
  | [], _, _, h, _ => by simp at h
  | a :: l, 0, p, h, hp => by
    simp only [List.getElem?_cons_zero, Option.some.injEq] at h
    subst h
    rw [List.eraseIdx_cons_zero, kind_cons_neg hp]
  | a :: l, i + 1, p, h, hp => by
    rw [List.getElem?_cons_succ] at h
    have ih := kind_eraseIdx_neg l i p h hp
    rw [List.eraseIdx_cons_succ]
    cases ha : I a.id with
    | true => rw [kind_cons_pos ha, kind_cons_pos ha, ih]
    | false => rw [kind_cons_neg ha, kind_cons_neg ha, ih]

/-- The first one of its kind. -/
theorem kind_eraseIdx_first {I : Nat → Bool} : ∀ (l : List TPkt) (i : Nat) (p : TPkt), l[i]? = some p → I p.id = true → (∀ x ∈ l.take i, I x.id = false) → kind I l = p.id :: kind I (l.eraseIdx i)
  | [], _, _, h, _, _ => by simp at h
  | a :: l, 0, p, h, hp, _ => by
    simp only [List.getElem?_cons_zero, Option.some.injEq] at h
    subst h
    rw [List.eraseIdx_cons_zero, kind_cons_pos hp]
  | a :: l, i + 1, p, h, hp, hf => by
    rw [List.getElem?_cons_succ] at h
    have ha : I a.id = false := hf a (by simp)
    rw [List.eraseIdx_cons_succ, kind_cons_neg ha, kind_cons_neg ha]
    exact kind_eraseIdx_first l i p h hp fun x hx => hf x (by simp [hx])

/-- What an arbitration task of the next link holds. -/
def headOf (A : Nat → List Nat) : List Nat → List Nat
  | [] => []
  | l :: _ => A l

/-- The places of a route, seen from the destination. -/
def pipe (X Q A : Nat → List Nat) : List Nat → List Nat
  | [] => []
  | l :: r => pipe X Q A r ++ headOf A r ++ Q l ++ X l

theorem pipe_cons (X Q A : Nat → List Nat) (l : Nat) (r : List Nat) : pipe X Q A (l :: r) = pipe X Q A r ++ headOf A r ++ Q l ++ X l := rfl
theorem headOf_cons (A : Nat → List Nat) (l : Nat) (r : List Nat) : headOf A (l :: r) = A l := rfl

theorem pipe_congr {X Q A X' Q' A' : Nat → List Nat} : ∀ {R : List Nat}, (∀ l ∈ R, X' l = X l ∧ Q' l = Q l ∧ A' l = A l) → pipe X' Q' A' R = pipe X Q A R
  | [], _ => rfl
  | [l], h => by simp [pipe, headOf, (h l (by simp)).1, (h l (by simp)).2.1]
  | l :: k :: r, h => by
    rw [pipe_cons X' Q' A', pipe_cons X Q A, pipe_congr fun x hx => h x (List.mem_cons_of_mem _ hx)]
    simp only [headOf_cons, (h l (by simp)).1, (h l (by simp)).2.1, (h k (by simp)).2.2]

/-- A switch takes a TLP from the link to a queue. -/
theorem pipe_shift {X Q A X' Q' A' : Nat → List Nat} (h : ∀ l, Q' l ++ X' l = Q l ++ X l ∧ A' l = A l) : ∀ {R : List Nat}, pipe X' Q' A' R = pipe X Q A R
  | [] => rfl
  | l :: r => by
    have hh : headOf A' r = headOf A r := by
      cases r with
      | nil => rfl
      | cons k r => exact (h k).2
    rw [pipe_cons X' Q' A', pipe_cons X Q A, pipe_shift h, hh, List.append_assoc, (h l).1, ← List.append_assoc]

/-- A TLP goes on the first link. -/
theorem pipe_enter {X Q A X' : Nat → List Nat} {l x : Nat} {r : List Nat} (hn : (l :: r).Nodup) (h : X' l = X l ++ [x]) (ho : ∀ k, k ≠ l → X' k = X k) :
    pipe X' Q A (l :: r) = pipe X Q A (l :: r) ++ [x] := by
  have hl := (List.nodup_cons.1 hn).1
  rw [pipe_cons X', pipe_cons X, pipe_congr (X' := X') (X := X) fun k hk => ⟨ho k fun e => hl (e ▸ hk), rfl, rfl⟩, h]
  simp

/-- An arbitration task sends its TLP. -/
theorem pipe_pass {X Q A X' A' : Nat → List Nat} {n x : Nat} {r : List Nat} (hX : X' n = X n ++ [x]) (hA : A n = [x]) (hA' : A' n = []) (hXo : ∀ k, k ≠ n → X' k = X k) (hAo : ∀ k, k ≠ n → A' k = A k) :
    ∀ (pre : List Nat), pre ≠ [] → (pre ++ n :: r).Nodup → pipe X' Q A' (pre ++ n :: r) = pipe X Q A (pre ++ n :: r)
  | [], h, _ => absurd rfl h
  | [a], _, hn => by
    rw [List.singleton_append] at hn ⊢
    obtain ⟨ha, hn'⟩ := List.nodup_cons.1 hn
    have hnr := (List.nodup_cons.1 hn').1
    have han : a ≠ n := fun e => ha (by simp [e])
    have hr : pipe X' Q A' r = pipe X Q A r := pipe_congr fun k hk => ⟨hXo k fun e => hnr (e ▸ hk), rfl, hAo k fun e => hnr (e ▸ hk)⟩
    have hh : headOf A' r = headOf A r := by
      cases r with
      | nil => rfl
      | cons k r => exact hAo k fun e => hnr (by simp [e])
    simp only [pipe_cons, hr, hh, headOf_cons, hX, hA, hA', hXo a han]
    simp
  | a :: b :: pre, _, hn => by
    rw [List.cons_append] at hn ⊢
    obtain ⟨ha, hn'⟩ := List.nodup_cons.1 hn
    have han : a ≠ n := fun e => ha (by simp [e])
    have hbn : b ≠ n := fun e => (List.nodup_cons.1 hn').1 (by simp [e])
    have ih := pipe_pass (r := r) (Q := Q) hX hA hA' hXo hAo (b :: pre) (by simp) hn'
    rw [pipe_cons X', pipe_cons X, ih, hXo a han]
    simp only [List.cons_append, headOf_cons, hAo b hbn]

/-- An arbitration task takes a TLP from a queue. -/
theorem pipe_take {X Q A Q' A' : Nat → List Nat} {m n x : Nat} {r : List Nat} (hQ : Q m = x :: Q' m) (hA : A n = []) (hA' : A' n = [x]) (hQo : ∀ k, k ≠ m → Q' k = Q k) (hAo : ∀ k, k ≠ n → A' k = A k) :
    ∀ (pre : List Nat), (pre ++ m :: n :: r).Nodup → pipe X Q' A' (pre ++ m :: n :: r) = pipe X Q A (pre ++ m :: n :: r)
  | [], hn => by
    rw [List.nil_append] at hn ⊢
    obtain ⟨hm, hn'⟩ := List.nodup_cons.1 hn
    have hnr := (List.nodup_cons.1 hn').1
    have hr : pipe X Q' A' r = pipe X Q A r := pipe_congr fun k hk => ⟨rfl, hQo k fun e => hm (by simp [← e, hk]), hAo k fun e => hnr (e ▸ hk)⟩
    have hh : headOf A' r = headOf A r := by
      cases r with
      | nil => rfl
      | cons k r => exact hAo k fun e => hnr (by simp [e])
    have hnm : n ≠ m := fun e => hm (by simp [e])
    simp only [pipe_cons, hr, hh, headOf_cons, hQ, hA, hA', hQo n hnm]
    simp
  | a :: pre, hn => by
    rw [List.cons_append] at hn ⊢
    obtain ⟨ha, hn'⟩ := List.nodup_cons.1 hn
    have ham : a ≠ m := fun e => ha (by simp [e])
    have ih := pipe_take (r := r) (X := X) hQ hA hA' hQo hAo pre hn'
    have hh : headOf A' (pre ++ m :: n :: r) = headOf A (pre ++ m :: n :: r) := by
      cases pre with
      | nil => exact hAo m fun e => (List.nodup_cons.1 hn').1 (by simp [e])
      | cons b pre => exact hAo b fun e => (List.nodup_cons.1 hn').1 (by simp [e])
    rw [pipe_cons X Q', pipe_cons X Q, ih, hh, hQo a ham]

/-- The receiver at the end takes a TLP. -/
theorem pipe_final {X Q A X' : Nat → List Nat} {m x : Nat} {D : List Nat} (hX : X m = x :: X' m) (hQ : Q m = []) (ho : ∀ k, k ≠ m → X' k = X k) :
    ∀ (pre : List Nat), (pre ++ [m]).Nodup → (D ++ [x]) ++ pipe X' Q A (pre ++ [m]) = D ++ pipe X Q A (pre ++ [m])
  | [], _ => by simp [pipe, headOf, hX, hQ]
  | a :: pre, hn => by
    rw [List.cons_append] at hn ⊢
    obtain ⟨ha, hn'⟩ := List.nodup_cons.1 hn
    have ham : a ≠ m := fun e => ha (by simp [e])
    have ih := pipe_final (A := A) (D := D) hX hQ ho pre hn'
    rw [pipe_cons X', pipe_cons X, ho a ham]
    simp only [← List.append_assoc] at ih ⊢
    rw [ih]

/-- The completions of a TLP on link `m` take the route `R`, if they are of kind `I`. -/
def SameAns (N : TNet) (I : Nat → Bool) (R : List Nat) (m : Nat) (p : TPkt) : Prop :=
  ∀ c ∈ N.answer p.id, N.answer c.id = [] ∧ (I c.id = true → N.back ((m :: p.route).getLast (by simp)) :: c.route = R)

/-- Where TLPs of kind `I` may be. -/
structure OrdInv (N : TNet) (I : Nat → Bool) (R : List Nat) (s : TState) : Prop where
  tasks : ∀ m, ∀ p ∈ s.tasks m, SameRoute N I R m p
  rx : ∀ m, ∀ p ∈ s.rx m, (I p.id = true → ∃ pre, R = pre ++ m :: p.route) ∧ SameAns N I R m p
  q : ∀ m, ∀ p ∈ s.q m, p.route ≠ [] ∧ (I p.id = true → ∃ pre, R = pre ++ m :: p.route) ∧ SameAns N I R m p
  arb : ∀ m p, s.arb m = some p → (I p.id = true → ∃ pre, pre ≠ [] ∧ R = pre ++ m :: p.route) ∧ SameAns N I R m p
  busy : ∀ m, ∀ c ∈ s.busy m, N.answer c.id = [] ∧ (I c.id = true → N.back m :: c.route = R)


theorem setAt_same {α : Type} (f : Nat → α) (m : Nat) (v : α) : setAt f m v m = v := by simp [setAt]
theorem setAt_other {α : Type} {f : Nat → α} {m k : Nat} {v : α} (h : k ≠ m) : setAt f m v k = f k := by simp [setAt, h]

/-- A link occurs only once in a route. -/
theorem route_rest {m : Nat} {a b : List Nat} : ∀ (pre pre' : List Nat), (pre ++ m :: a).Nodup → pre ++ m :: a = pre' ++ m :: b → a = b
  | [], [], _, h => by simpa using h
  | [], x :: pre', hn, h => by
    simp only [List.nil_append, List.cons_append, List.cons.injEq] at h hn
    exact absurd (by rw [h.2]; simp) (List.nodup_cons.1 hn).1
  | x :: pre, [], hn, h => by
    simp only [List.nil_append, List.cons_append, List.cons.injEq] at h hn
    exact absurd (by rw [h.1]; simp) (List.nodup_cons.1 hn).1
  | x :: pre, y :: pre', hn, h => by
    simp only [List.cons_append, List.cons.injEq] at h hn
    exact route_rest pre pre' (List.nodup_cons.1 hn).2 h.2

theorem SameAns.none {N : TNet} {I : Nat → Bool} {R : List Nat} {m : Nat} {p : TPkt} (h : N.answer p.id = []) : SameAns N I R m p := by
  intro c hc
  rw [h] at hc
  cases hc

/-- The TLPs of kind `I` that have been delivered and those that are on the route. -/
def orderView (I : Nat → Bool) (R : List Nat) (s : TState) : List Nat :=
  kind I s.done ++ pipe (fun l => kind I (s.rx l)) (fun l => kind I (s.q l)) (fun l => kind I (s.arb l).toList) R

theorem filter_single_neg {I : Nat → Bool} {x : Nat} (h : I x = false) : [x].filter I = [] := by simp [h]
theorem filter_single_pos {I : Nat → Bool} {x : Nat} (h : I x = true) : [x].filter I = [x] := by simp [h]

/-- A TLP goes on its first link. -/
theorem view_enter {I : Nat → Bool} {R : List Nat} {s s' : TState} {m : Nat} {p : TPkt} (hn : R.Nodup) (hd : s'.done = s.done) (hq : s'.q = s.q) (ha : s'.arb = s.arb)
    (hx : s'.rx = setAt s.rx m (s.rx m ++ [p])) (hp : I p.id = true → m :: p.route = R) : orderView I R s' = orderView I R s ++ [p.id].filter I := by
  unfold orderView
  rw [hd, hq, ha, hx, List.append_assoc]
  congr 1
  cases h : I p.id with
  | false =>
    rw [filter_single_neg h, List.append_nil]
    refine pipe_congr fun l _ => ⟨?_, rfl, rfl⟩
    by_cases e : l = m
    · subst e
      simp only [setAt_same, kind_append, kind_cons_neg h, kind_nil, List.append_nil]
    · simp only [setAt_other e]
  | true =>
    rw [filter_single_pos h]
    have hR := hp h
    subst hR
    refine pipe_enter hn ?_ fun k e => ?_
    · simp only [setAt_same, kind_append, kind_cons_pos h, kind_nil]
    · simp only [setAt_other e]

theorem OrdInv.step {N : TNet} {I : Nat → Bool} {R : List Nat} (hn : R.Nodup) {s s' : TState} {e : TEv} (h : OrdInv N I R s) (hs : s.step N e = some s')
    (hst : ∀ m p, e = .start m p → SameRoute N I R m p) : OrdInv N I R s' ∧ orderView I R s' = orderView I R s ++ (enters s e).filter I := by
  obtain ⟨ht, hx, hq, ha, hb⟩ := h
  cases e with
  | start m p =>
    simp only [TState.step, Option.some.injEq] at hs
    subst hs
    refine ⟨⟨setAt_forall (P := fun j l => ∀ p ∈ l, SameRoute N I R j p) ht ?_, hx, hq, ha, hb⟩, by simp [enters, orderView]⟩
    intro x hx'
    rcases List.mem_append.1 hx' with h | h
    · exact ht m x h
    · rw [List.mem_singleton.1 h]; exact hst m p rfl
  | send m i =>
    simp only [TState.step] at hs
    split at hs
    · cases hs
    · next p hp =>
      split at hs
      · cases hs
        have hpt := ht m p (List.mem_of_getElem? hp)
        refine ⟨⟨setAt_forall (P := fun j l => ∀ p ∈ l, SameRoute N I R j p) ht fun x hx' => ht m x (List.mem_of_mem_eraseIdx hx'),
          setAt_forall (P := fun j l => ∀ p ∈ l, (I p.id = true → ∃ pre, R = pre ++ j :: p.route) ∧ SameAns N I R j p) hx ?_, hq, ha, hb⟩, ?_⟩
        · intro x hx'
          rcases List.mem_append.1 hx' with h | h
          · exact hx m x h
          · rw [List.mem_singleton.1 h]
            exact ⟨fun hi => ⟨[], (hpt.1 hi).symm⟩, hpt.2⟩
        · have he : enters s (.send m i) = [p.id] := by simp [enters, hp]
          rw [he]
          exact view_enter hn rfl rfl rfl rfl hpt.1
      · cases hs
  | recv m =>
    simp only [TState.step] at hs
    have he : (enters s (.recv m)).filter I = [] := rfl
    rw [he, List.append_nil]
    split at hs
    · cases hs
    · split at hs
      · cases hs
      · next p r hr =>
        have hrx : ∀ j, ∀ x ∈ setAt s.rx m r j, (I x.id = true → ∃ pre, R = pre ++ j :: x.route) ∧ SameAns N I R j x :=
          setAt_forall (P := fun j l => ∀ p ∈ l, (I p.id = true → ∃ pre, R = pre ++ j :: p.route) ∧ SameAns N I R j p) hx fun x hx' => hx m x (by rw [hr]; exact List.mem_cons_of_mem _ hx')
        have hpo := hx m p (by rw [hr]; simp)
        split at hs
        · next hroute =>
          cases hs
          refine ⟨⟨ht, hrx, hq, ha, setAt_forall (P := fun j (l : List TPkt) => ∀ c ∈ l, N.answer c.id = [] ∧ (I c.id = true → N.back j :: c.route = R)) hb fun c hc => ?_⟩, ?_⟩
          · have := hpo.2 c hc
            simpa only [hroute, List.getLast_singleton] using this
          · unfold orderView
            rw [kind_append]
            cases h : I p.id with
            | false =>
              rw [kind_cons_neg h, kind_nil, List.append_nil]
              congr 1
              refine pipe_congr fun l _ => ⟨?_, rfl, rfl⟩
              by_cases e : l = m
              · subst e
                simp only [setAt_same, hr, kind_cons_neg h]
              · simp only [setAt_other e]
            | true =>
              rw [kind_cons_pos h, kind_nil]
              obtain ⟨pre, hR⟩ := hpo.1 h
              rw [hroute] at hR
              have hq0 : kind I (s.q m) = [] := by
                refine kind_eq_nil fun x hx' => ?_
                cases hi : I x.id with
                | false => rfl
                | true =>
                  obtain ⟨hne, hxr, _⟩ := hq m x hx'
                  obtain ⟨pre', hR'⟩ := hxr hi
                  exact absurd (route_rest pre pre' (hR ▸ hn) (hR ▸ hR')).symm hne
              subst hR
              refine pipe_final (by simp only [setAt_same, hr, kind_cons_pos h]) hq0 (fun k e => ?_) pre hn
              simp only [setAt_other e]
        · next k r' hroute =>
          cases hs
          refine ⟨⟨ht, hrx, setAt_forall (P := fun j l => ∀ p ∈ l, p.route ≠ [] ∧ (I p.id = true → ∃ pre, R = pre ++ j :: p.route) ∧ SameAns N I R j p) hq ?_, ha, hb⟩, ?_⟩
          · intro x hx'
            rcases List.mem_append.1 hx' with h | h
            · exact hq m x h
            · rw [List.mem_singleton.1 h]; exact ⟨by rw [hroute]; simp, hpo⟩
          · unfold orderView
            congr 1
            refine pipe_shift fun l => ⟨?_, rfl⟩
            by_cases e : l = m
            · subst e
              simp only [setAt_same, hr]
              rw [← kind_append, ← kind_append, List.append_assoc, List.singleton_append]
            · simp only [setAt_other e]
  | take m i =>
    simp only [TState.step] at hs
    have he : (enters s (.take m i)).filter I = [] := rfl
    rw [he, List.append_nil]
    split at hs
    · cases hs
    · next p hp =>
      split at hs
      · cases hs
      · next n r hroute =>
        split at hs
        · cases hs
        · next harb =>
          split at hs
          · next hfirst =>
            cases hs
            have hpm := List.mem_of_getElem? hp
            obtain ⟨_, hpr, hpa⟩ := hq m p hpm
            refine ⟨⟨ht, hx,
              setAt_forall (P := fun j l => ∀ p ∈ l, p.route ≠ [] ∧ (I p.id = true → ∃ pre, R = pre ++ j :: p.route) ∧ SameAns N I R j p) hq fun x hx' => hq m x (List.mem_of_mem_eraseIdx hx'),
              setAt_forall (P := fun j (o : Option TPkt) => ∀ p, o = some p → (I p.id = true → ∃ pre, pre ≠ [] ∧ R = pre ++ j :: p.route) ∧ SameAns N I R j p) ha ?_, hb⟩, ?_⟩
            · intro x hx'
              cases hx'
              refine ⟨fun hi => ?_, fun c hc => ?_⟩
              · obtain ⟨pre, hR⟩ := hpr hi
                exact ⟨pre ++ [m], by simp, by rw [hR, hroute]; simp⟩
              · have := hpa c hc
                simpa only [hroute, List.getLast_cons_cons] using this
            · unfold orderView
              congr 1
              cases h : I p.id with
              | false =>
                refine pipe_congr fun l _ => ⟨rfl, ?_, ?_⟩
                · by_cases e : l = m
                  · subst e
                    simp only [setAt_same, kind_eraseIdx_neg _ _ _ hp h]
                  · simp only [setAt_other e]
                · by_cases e : l = n
                  · subst e
                    simp only [setAt_same, harb, Option.toList_some, Option.toList_none]
                    exact kind_cons_neg (p := { p with route := r }) h []
                  · simp only [setAt_other e]
              | true =>
                obtain ⟨pre, hR⟩ := hpr h
                have hno : ∀ x ∈ (s.q m).take i, I x.id = false := by
                  intro x hx'
                  cases hi : I x.id with
                  | false => rfl
                  | true =>
                    obtain ⟨_, hxr, _⟩ := hq m x (List.mem_of_mem_take hx')
                    obtain ⟨pre', hR'⟩ := hxr hi
                    have hrt : p.route = x.route := route_rest pre pre' (hR ▸ hn) (hR ▸ hR')
                    have := List.all_eq_true.1 hfirst x hx'
                    rw [← hrt, hroute] at this
                    simp at this
                rw [hroute] at hR
                subst hR
                refine pipe_take (m := m) (n := n) (x := p.id) ?_ ?_ ?_ (fun k e => ?_) (fun k e => ?_) pre hn
                · simp only [setAt_same]
                  exact kind_eraseIdx_first _ _ _ hp h hno
                · simp only [harb, Option.toList_none, kind_nil]
                · simp only [setAt_same, Option.toList_some]
                  exact kind_cons_pos (p := { p with route := r }) h []
                · simp only [setAt_other e]
                · simp only [setAt_other e]
          · cases hs
  | pass m =>
    simp only [TState.step] at hs
    have he : (enters s (.pass m)).filter I = [] := rfl
    rw [he, List.append_nil]
    split at hs
    · cases hs
    · next p hp =>
      split at hs
      · cases hs
        obtain ⟨hpr, hpa⟩ := ha m p hp
        refine ⟨⟨ht, setAt_forall (P := fun j l => ∀ p ∈ l, (I p.id = true → ∃ pre, R = pre ++ j :: p.route) ∧ SameAns N I R j p) hx ?_, hq,
          setAt_forall (P := fun j (o : Option TPkt) => ∀ p, o = some p → (I p.id = true → ∃ pre, pre ≠ [] ∧ R = pre ++ j :: p.route) ∧ SameAns N I R j p) ha (by simp), hb⟩, ?_⟩
        · intro x hx'
          rcases List.mem_append.1 hx' with h | h
          · exact hx m x h
          · rw [List.mem_singleton.1 h]
            exact ⟨fun hi => (hpr hi).imp fun _ h => h.2, hpa⟩
        · unfold orderView
          congr 1
          cases h : I p.id with
          | false =>
            refine pipe_congr fun l _ => ⟨?_, rfl, ?_⟩
            · by_cases e : l = m
              · subst e
                simp only [setAt_same, kind_append, kind_cons_neg h, kind_nil, List.append_nil]
              · simp only [setAt_other e]
            · by_cases e : l = m
              · subst e
                simp only [setAt_same, hp, Option.toList_some, Option.toList_none, kind_cons_neg h]
              · simp only [setAt_other e]
          | true =>
            obtain ⟨pre, hne, hR⟩ := hpr h
            subst hR
            refine pipe_pass (n := m) (x := p.id) ?_ ?_ ?_ (fun k e => ?_) (fun k e => ?_) pre hne hn
            · simp only [setAt_same, kind_append, kind_cons_pos h, kind_nil]
            · simp only [hp, Option.toList_some, kind_cons_pos h, kind_nil]
            · simp only [setAt_same, Option.toList_none, kind_nil]
            · simp only [setAt_other e]
            · simp only [setAt_other e]
      · cases hs
  | reply m =>
    simp only [TState.step] at hs
    split at hs
    · cases hs
    · next c cs hc =>
      split at hs
      · cases hs
        have hco := hb m c (by rw [hc]; simp)
        refine ⟨⟨ht, setAt_forall (P := fun j l => ∀ p ∈ l, (I p.id = true → ∃ pre, R = pre ++ j :: p.route) ∧ SameAns N I R j p) hx ?_, hq, ha,
          setAt_forall (P := fun j (l : List TPkt) => ∀ c ∈ l, N.answer c.id = [] ∧ (I c.id = true → N.back j :: c.route = R)) hb fun x hx' => hb m x (by rw [hc]; exact List.mem_cons_of_mem _ hx')⟩, ?_⟩
        · intro x hx'
          rcases List.mem_append.1 hx' with h | h
          · exact hx _ x h
          · rw [List.mem_singleton.1 h]
            exact ⟨fun hi => ⟨[], (hco.2 hi).symm⟩, .none hco.1⟩
        · have he : enters s (.reply m) = [c.id] := by simp [enters, hc]
          rw [he]
          exact view_enter hn rfl rfl rfl rfl hco.2
      · cases hs

theorem OrdInv.init (N : TNet) (I : Nat → Bool) (R : List Nat) : OrdInv N I R TState.init :=
  ⟨fun _ _ h => (by cases h), fun _ _ h => (by cases h), fun _ _ h => (by cases h), fun _ _ h => (by cases h), fun _ _ h => (by cases h)⟩

theorem OrdInv.run {N : TNet} {I : Nat → Bool} {R : List Nat} (hn : R.Nodup) : ∀ (es : List TEv) (s s' : TState), OrdInv N I R s → s.run N es = some s' →
    (∀ x ∈ started es, SameRoute N I R x.1 x.2) → orderView I R s' = orderView I R s ++ (entered N s es).filter I
  | [], s, s', _, hr, _ => by
    simp only [TState.run, Option.some.injEq] at hr
    subst hr
    simp [entered]
  | e :: es, s, s', h, hr, hst => by
    rw [TState.run, Option.bind_eq_some_iff] at hr
    obtain ⟨t, ht, hr⟩ := hr
    have h1 := h.step hn ht fun m p he => hst (m, p) (by subst he; simp [started])
    have h2 := OrdInv.run hn es t s' h1.1 hr fun x hx => hst x (by cases e <;> simp [started, hx])
    rw [h2, h1.2, entered, ht, List.filter_append, List.append_assoc]

theorem orderView_init (I : Nat → Bool) : ∀ (R : List Nat), orderView I R TState.init = []
  | [] => rfl
  | l :: R => by
    have ih := orderView_init I R
    simp only [orderView, TState.init, kind_nil, List.nil_append, Option.toList_none] at ih ⊢
    rw [pipe_cons, ih]
    cases R <;> rfl

theorem orderView_clear {I : Nat → Bool} {s : TState} (h : ∀ m, TClear s m) : ∀ (R : List Nat), orderView I R s = kind I s.done
  | [] => by simp [orderView, pipe]
  | l :: R => by
    have ih := orderView_clear (I := I) h R
    simp only [orderView, (h _).rx, (h _).q, (h _).arb, kind_nil, Option.toList_none] at ih ⊢
    rw [pipe_cons, ← List.append_assoc, ← List.append_assoc, ← List.append_assoc, ih]
    cases R <;> simp [headOf]

/-! ### Routes of a hierarchy -/

theorem Spec.ToRoot.le {parent : Nat → Nat} (hp : ∀ i, i ≠ 0 → parent i < i) {i : Nat} {l : List Nat} (h : ToRoot parent i l) : ∀ x ∈ l, x ≤ i := by
  induction h with
  | root => simp
  | @step i l hi _ ih =>
    intro x hx
    have := hp i hi
    rcases List.mem_cons.1 hx with rfl | hx
    · exact Nat.le_refl _
    · have := ih x hx; omega

theorem Spec.ToRoot.nodup {parent : Nat → Nat} (hp : ∀ i, i ≠ 0 → parent i < i) {i : Nat} {l : List Nat} (h : ToRoot parent i l) : l.Nodup := by
  induction h with
  | root => simp
  | @step i l hi h ih =>
    refine List.nodup_cons.2 ⟨fun hm => ?_, ih⟩
    have := h.le hp i hm
    have := hp i hi
    omega

theorem Spec.UpRoute.nodup {parent : Nat → Nat} (hp : ∀ i, i ≠ 0 → parent i < i) {i : Nat} {l : List Nat} (h : UpRoute parent i l) : l.Nodup := by
  obtain ⟨p, hr, rfl⟩ := h
  refine List.Pairwise.map _ (fun a b hab h => hab ?_) (hr.nodup hp)
  simp only [upLink] at h
  omega

theorem Spec.DownRoute.nodup {parent : Nat → Nat} (hp : ∀ i, i ≠ 0 → parent i < i) {i : Nat} {l : List Nat} (h : DownRoute parent i l) : l.Nodup := by
  obtain ⟨p, hr, rfl⟩ := h
  refine List.Pairwise.map _ (fun a b hab h => hab ?_) (List.pairwise_reverse.2 ((hr.nodup hp).imp Ne.symm))
  simp only [downLink] at h
  omega

theorem Spec.Below.links {parent : Nat → Nat} (hp : ∀ i, i ≠ 0 → parent i < i) {n a : Nat} {l : List Nat} (h : Below parent n a l) : (∀ x ∈ l, ∃ b, a < b ∧ x = downLink b) ∧ l.Nodup := by
  induction h with
  | here => simp
  | @step a b l hb _ hpb _ ih =>
    have hab := hp b hb
    constructor
    · intro x hx
      rcases List.mem_cons.1 hx with rfl | hx
      · exact ⟨b, by omega, rfl⟩
      · obtain ⟨c, hc, rfl⟩ := ih.1 x hx
        exact ⟨c, by omega, rfl⟩
    · refine List.nodup_cons.2 ⟨fun hm => ?_, ih.2⟩
      obtain ⟨c, hc, he⟩ := ih.1 _ hm
      simp only [downLink] at he
      omega

theorem Spec.PeerRoute.links {parent : Nat → Nat} (hp : ∀ i, i ≠ 0 → parent i < i) {n i : Nat} {l : List Nat} (h : PeerRoute parent n i l) :
    (∀ x ∈ l, (∃ b, b ≤ i ∧ x = upLink b) ∨ ∃ b, x = downLink b) ∧ l.Nodup := by
  induction h with
  | @turn i l _ hb =>
    obtain ⟨h1, h2⟩ := hb.links hp
    constructor
    · intro x hx
      rcases List.mem_cons.1 hx with rfl | hx
      · exact .inl ⟨i, Nat.le_refl _, rfl⟩
      · obtain ⟨b, _, h⟩ := h1 x hx
        exact .inr ⟨b, h⟩
    · refine List.nodup_cons.2 ⟨fun hm => ?_, h2⟩
      obtain ⟨b, _, h⟩ := h1 _ hm
      simp only [upLink, downLink] at h
      omega
  | @up i l hi _ ih =>
    have hlt := hp i hi
    constructor
    · intro x hx
      rcases List.mem_cons.1 hx with rfl | hx
      · exact .inl ⟨i, Nat.le_refl _, rfl⟩
      · rcases ih.1 x hx with ⟨b, hb, h⟩ | h
        · exact .inl ⟨b, by omega, h⟩
        · exact .inr h
    · refine List.nodup_cons.2 ⟨fun hm => ?_, ih.2⟩
      rcases ih.1 _ hm with ⟨b, hb, h⟩ | ⟨b, h⟩
      · simp only [upLink] at h
        omega
      · simp only [upLink, downLink] at h
        omega

theorem Spec.TreeRoute.nodup {N : TNet} {parent : Nat → Nat} {n : Nat} (H : Hierarchy N parent n) {R : List Nat} (h : TreeRoute parent n R) : R.Nodup := by
  obtain ⟨i, h | h | h⟩ := h
  · exact h.nodup H.parent
  · exact h.nodup H.parent
  · exact (h.links H.parent).2

theorem TInv.run {N : TNet} {rank : Nat → Nat} {n : Nat} : ∀ (es : List TEv) (s s' : TState), TInv N rank n s → s.run N es = some s' → (∀ x ∈ started es, TOk N rank n x.1 x.2) → TInv N rank n s'
  | [], s, s', h, hr, _ => by
    simp only [TState.run, Option.some.injEq] at hr
    exact hr ▸ h
  | e :: es, s, s', h, hr, hst => by
    rw [TState.run, Option.bind_eq_some_iff] at hr
    obtain ⟨t, ht, hr⟩ := hr
    exact TInv.run es t s' (h.step ht fun m p he => hst (m, p) (by subst he; simp [started])) hr fun x hx => hst x (by cases e <;> simp [started, hx])

/-- When nothing can happen any more, everything has arrived in order. -/
theorem all_in_order {N : TNet} {rank : Nat → Nat} {n : Nat} {I : Nat → Bool} {R : List Nat} (hn : R.Nodup) {es : List TEv} {s : TState} (hr : TState.init.run N es = some s)
    (hok : ∀ x ∈ started es, TOk N rank n x.1 x.2) (hst : ∀ x ∈ started es, SameRoute N I R x.1 x.2) (hh : Halted N s) :
    (arrived s).filter I = (entered N TState.init es).filter I := by
  have h := OrdInv.run hn es _ _ (.init N I R) hr hst
  rw [orderView_init, List.nil_append, orderView_clear ((TInv.run es _ _ (TInv.init N rank n) hr hok).clear hh)] at h
  exact h

/-! ### What the TLPs write -/

theorem memAfter_cons (W : Nat → Nat → Option UInt8) (m : Nat → UInt8) (k : Nat) (l : List Nat) : memAfter W m (k :: l) = memAfter W (fun a => (W k a).getD (m a)) l := rfl

theorem memAfter_append (W : Nat → Nat → Option UInt8) (m : Nat → UInt8) (l r : List Nat) : memAfter W m (l ++ r) = memAfter W (memAfter W m l) r := by simp [memAfter, List.foldl_append]

theorem memAfter_congr {W : Nat → Nat → Option UInt8} {a : Nat} : ∀ (l : List Nat) {m m' : Nat → UInt8}, m a = m' a → memAfter W m l a = memAfter W m' l a
  | [], _, _, h => h
  | k :: l, m, m', h => by
    rw [memAfter_cons, memAfter_cons]
    exact memAfter_congr l (by rw [h])

theorem memAfter_filter {W : Nat → Nat → Option UInt8} {a : Nat} {I : Nat → Bool} : ∀ (l : List Nat) (m : Nat → UInt8), (∀ k ∈ l, I k = false → W k a = none) → memAfter W m l a = memAfter W m (l.filter I) a
  | [], _, _ => rfl
  | k :: l, m, h => by
    have ih := memAfter_filter (W := W) (a := a) (I := I) l
    cases hk : I k with
    | true =>
      rw [List.filter_cons_of_pos hk, memAfter_cons, memAfter_cons]
      exact ih _ fun x hx => h x (by simp [hx])
    | false =>
      rw [List.filter_cons_of_neg (by simp [hk]), memAfter_cons, ← ih m fun x hx => h x (by simp [hx])]
      exact memAfter_congr l (by simp [h k (by simp) hk])

theorem memAfter_none {W : Nat → Nat → Option UInt8} {a : Nat} (l : List Nat) (m : Nat → UInt8) (h : ∀ k ∈ l, W k a = none) : memAfter W m l a = m a := by
  rw [memAfter_filter (I := fun _ => false) l m fun k hk _ => h k hk, List.filter_eq_nil_iff.2 (by simp)]
  rfl

/-- A list that begins like another one and has a member that comes after the first part has all of the first part. -/
theorem prefix_reaches {x : Nat} {l before after : List Nat} (h : l <+: before ++ x :: after) (hx : x ∈ l) (hn : x ∉ before) : before ++ [x] <+: l := by
  have hp : before ++ [x] <+: before ++ x :: after := ⟨after, by simp⟩
  refine List.prefix_of_prefix_length_le hp h ?_
  rw [List.length_append, List.length_singleton]
  refine Nat.lt_of_not_le fun hle => hn ?_
  exact (List.prefix_of_prefix_length_le h (List.prefix_append before _) hle).mem hx

end Pcie
