import Verif.Spec.Traffic
/-
Traffic in a network whose links can be ranked such that nobody waits for a link of the same or a higher rank.
-/
namespace Pcie
open Pcie.Spec

/-- A link without flow control. -/
def TFree (N : TNet) (m : Nat) : Prop := ∀ c, N.hdr m c = 0 ∧ N.data m c = 0

/-- The ranks go down along a route. -/
def Desc (rank : Nat → Nat) : Nat → List Nat → Prop
  | _, [] => True
  | m, k :: r => rank k < rank m ∧ Desc rank k r

/-- A completion that the receiver at the end of link `l` may send. -/
structure BackOk (N : TNet) (rank : Nat → Nat) (n l : Nat) (c : TPkt) : Prop where
  here : l < n
  free : TFree N (N.back l) ∨ rank (N.back l) < rank l
  leaf : N.answer c.id = []
  fits : CreditFits N c
  desc : Desc rank (N.back l) c.route
  lt : ∀ x ∈ N.back l :: c.route, x < n

/-- A TLP that may be on link `m`. -/
structure TOk (N : TNet) (rank : Nat → Nat) (n m : Nat) (p : TPkt) : Prop where
  desc : Desc rank m p.route
  lt : ∀ x ∈ m :: p.route, x < n
  fits : CreditFits N p
  ans : ∀ c ∈ N.answer p.id, BackOk N rank n ((m :: p.route).getLast (by simp)) c

theorem BackOk.ok {N : TNet} {rank : Nat → Nat} {n l : Nat} {c : TPkt} (h : BackOk N rank n l c) : TOk N rank n (N.back l) c :=
  ⟨h.desc, h.lt, h.fits, by rw [h.leaf]; simp⟩

theorem TOk.next {N : TNet} {rank : Nat → Nat} {n m k : Nat} {p : TPkt} {r : List Nat} (h : TOk N rank n m p) (hr : p.route = k :: r) :
    rank k < rank m ∧ TOk N rank n k { p with route := r } := by
  obtain ⟨hd, hl, hf, ha⟩ := h
  simp only [hr] at hd hl ha
  refine ⟨hd.1, hd.2, fun x hx => hl x (List.mem_cons_of_mem _ hx), hf, fun c hc => ?_⟩
  have := ha c hc
  rwa [List.getLast_cons (by simp)] at this

/-- What holds of all TLPs on their way. -/
structure TInv (N : TNet) (rank : Nat → Nat) (n : Nat) (s : TState) : Prop where
  tasks : ∀ m, ∀ p ∈ s.tasks m, TOk N rank n m p
  rx : ∀ m, ∀ p ∈ s.rx m, TOk N rank n m p
  q : ∀ m, ∀ p ∈ s.q m, TOk N rank n m p ∧ p.route ≠ []
  arb : ∀ m p, s.arb m = some p → TOk N rank n m p
  busy : ∀ m, ∀ c ∈ s.busy m, BackOk N rank n m c

theorem TInv.init (N : TNet) (rank : Nat → Nat) (n : Nat) : TInv N rank n TState.init :=
  ⟨by simp [TState.init], by simp [TState.init], by simp [TState.init], by simp [TState.init], by simp [TState.init]⟩

theorem setAt_forall {α : Type} {P : Nat → α → Prop} {f : Nat → α} {m : Nat} {v : α} (hf : ∀ j, P j (f j)) (hv : P m v) : ∀ j, P j (setAt f m v j) := by
  intro j
  unfold setAt
  split
  · next h => subst h; exact hv
  · exact hf j

/-- The invariant holds in the next state if what is started is all right. -/
theorem TInv.step {N : TNet} {rank : Nat → Nat} {n : Nat} {s s' : TState} {e : TEv} (h : TInv N rank n s) (hs : s.step N e = some s')
    (hst : ∀ m p, e = .start m p → TOk N rank n m p) : TInv N rank n s' := by
  obtain ⟨ht, hx, hq, ha, hb⟩ := h
  cases e with
  | start m p =>
    simp only [TState.step, Option.some.injEq] at hs
    subst hs
    refine ⟨setAt_forall (P := fun j l => ∀ p ∈ l, TOk N rank n j p) ht ?_, hx, hq, ha, hb⟩
    intro x hx'
    rcases List.mem_append.1 hx' with h | h
    · exact ht m x h
    · rw [List.mem_singleton.1 h]; exact hst m p rfl
  | send m i =>
    simp only [TState.step] at hs
    split at hs
    · cases hs
    · next p hp =>
      split at hs
      · cases hs
        refine ⟨setAt_forall (P := fun j l => ∀ p ∈ l, TOk N rank n j p) ht fun x hx' => ht m x (List.mem_of_mem_eraseIdx hx'),
          setAt_forall (P := fun j l => ∀ p ∈ l, TOk N rank n j p) hx ?_, hq, ha, hb⟩
        intro x hx'
        rcases List.mem_append.1 hx' with h | h
        · exact hx m x h
        · rw [List.mem_singleton.1 h]; exact ht m p (List.mem_of_getElem? hp)
      · cases hs
  | recv m =>
    simp only [TState.step] at hs
    split at hs
    · cases hs
    · split at hs
      · cases hs
      · next p r hr =>
        have hrx : ∀ j, ∀ x ∈ setAt s.rx m r j, TOk N rank n j x :=
          setAt_forall (P := fun j l => ∀ p ∈ l, TOk N rank n j p) hx fun x hx' => hx m x (by rw [hr]; exact List.mem_cons_of_mem _ hx')
        have hpo : TOk N rank n m p := hx m p (by rw [hr]; simp)
        split at hs
        · next hroute =>
          cases hs
          refine ⟨ht, hrx, hq, ha, setAt_forall (P := fun j l => ∀ c ∈ l, BackOk N rank n j c) hb fun c hc => ?_⟩
          have := hpo.ans c hc
          simpa only [hroute, List.getLast_singleton] using this
        · next k r' hroute =>
          cases hs
          refine ⟨ht, hrx, setAt_forall (P := fun j l => ∀ p ∈ l, TOk N rank n j p ∧ p.route ≠ []) hq ?_, ha, hb⟩
          intro x hx'
          rcases List.mem_append.1 hx' with h | h
          · exact hq m x h
          · rw [List.mem_singleton.1 h]; exact ⟨hpo, by rw [hroute]; simp⟩
  | take m i =>
    simp only [TState.step] at hs
    split at hs
    · cases hs
    · next p hp =>
      split at hs
      · cases hs
      · next k r hroute =>
        split at hs
        · cases hs
        · split at hs
          · cases hs
            refine ⟨ht, hx, setAt_forall (P := fun j l => ∀ p ∈ l, TOk N rank n j p ∧ p.route ≠ []) hq fun x hx' => hq m x (List.mem_of_mem_eraseIdx hx'),
              setAt_forall (P := fun j (o : Option TPkt) => ∀ p, o = some p → TOk N rank n j p) ha ?_, hb⟩
            intro x hx'
            cases hx'
            exact ((hq m p (List.mem_of_getElem? hp)).1.next hroute).2
          · cases hs
  | pass m =>
    simp only [TState.step] at hs
    split at hs
    · cases hs
    · next p hp =>
      split at hs
      · cases hs
        refine ⟨ht, setAt_forall (P := fun j l => ∀ p ∈ l, TOk N rank n j p) hx ?_, hq,
          setAt_forall (P := fun j (o : Option TPkt) => ∀ p, o = some p → TOk N rank n j p) ha (by simp), hb⟩
        intro x hx'
        rcases List.mem_append.1 hx' with h | h
        · exact hx m x h
        · rw [List.mem_singleton.1 h]; exact ha m p hp
      · cases hs
  | reply m =>
    simp only [TState.step] at hs
    split at hs
    · cases hs
    · next c cs hc =>
      split at hs
      · cases hs
        refine ⟨ht, setAt_forall (P := fun j l => ∀ p ∈ l, TOk N rank n j p) hx ?_, hq, ha,
          setAt_forall (P := fun j l => ∀ c ∈ l, BackOk N rank n j c) hb fun x hx' => hb m x (by rw [hc]; exact List.mem_cons_of_mem _ hx')⟩
        intro x hx'
        rcases List.mem_append.1 hx' with h | h
        · exact hx _ x h
        · rw [List.mem_singleton.1 h]; exact (hb m c (by rw [hc]; simp)).ok
      · cases hs

/-- A TLP that fits passes the gate of a link whose credits are all there. -/
theorem hasCredit_empty {N : TNet} {s : TState} {m : Nat} {p : TPkt} (hx : s.rx m = []) (hq : s.q m = []) (hf : CreditFits N p) : s.hasCredit N m p = true := by
  have := hf m
  simp only [TState.hasCredit, hx, hq, hdrUse, dataUse, List.append_nil, List.filter_nil, List.length_nil, List.map_nil, List.sum_nil, Nat.zero_add, Bool.and_eq_true, Bool.or_eq_true, beq_iff_eq, decide_eq_true_eq]
  constructor
  · omega
  · exact this

theorem hasCredit_free {N : TNet} {s : TState} {m : Nat} {p : TPkt} (h : TFree N m) : s.hasCredit N m p = true := by
  simp [TState.hasCredit, (h p.cls).1, (h p.cls).2]

/-- No TLP is at link `m`. -/
structure TClear (s : TState) (m : Nat) : Prop where
  tasks : s.tasks m = []
  rx : s.rx m = []
  q : s.q m = []
  arb : s.arb m = none
  busy : s.busy m = []

/-- When nothing can happen, there is nothing on its way: by induction on the rank. -/
theorem TInv.clear {N : TNet} {rank : Nat → Nat} {n : Nat} {s : TState} (h : TInv N rank n s) (hh : Halted N s) : ∀ m, TClear s m := by
  have no : ∀ {e : TEv}, (∀ m p, e ≠ .start m p) → ∀ s', s.step N e ≠ some s' := by
    intro e he s' hs
    obtain ⟨m, p, hp⟩ := hh e s' hs
    exact he m p hp
  have key : ∀ k m, rank m = k → TClear s m := by
    intro k
    induction k using Nat.strongRecOn with
    | ind k ih =>
      intro m hm
      have low : ∀ j, rank j < rank m → TClear s j := fun j hj => ih (rank j) (by omega) j rfl
      have hbusy : s.busy m = [] := by
        cases hb : s.busy m with
        | nil => rfl
        | cons c cs =>
          exfalso
          have hc := h.busy m c (by rw [hb]; simp)
          have hcr : s.hasCredit N (N.back m) c = true := by
            rcases hc.free with hf | hr
            · exact hasCredit_free hf
            · exact hasCredit_empty (low _ hr).rx (low _ hr).q hc.fits
          refine no (e := .reply m) (by simp) { s with busy := setAt s.busy m cs, rx := setAt s.rx (N.back m) (s.rx (N.back m) ++ [c]) } ?_
          simp [TState.step, hb, hcr]
      have hrx : s.rx m = [] := by
        cases hr : s.rx m with
        | nil => rfl
        | cons p r =>
          exfalso
          cases hroute : p.route with
          | nil =>
            refine no (e := .recv m) (by simp) { s with rx := setAt s.rx m r, busy := setAt s.busy m (N.answer p.id), done := s.done ++ [p] } ?_
            simp [TState.step, hbusy, hr, hroute]
          | cons k' r' =>
            refine no (e := .recv m) (by simp) { s with rx := setAt s.rx m r, q := setAt s.q m (s.q m ++ [p]) } ?_
            simp [TState.step, hbusy, hr, hroute]
      have hq : s.q m = [] := by
        cases hq : s.q m with
        | nil => rfl
        | cons p r =>
          exfalso
          obtain ⟨hok, hne⟩ := h.q m p (by rw [hq]; simp)
          cases hroute : p.route with
          | nil => exact hne hroute
          | cons k' r' =>
            have harb := (low k' (hok.next hroute).1).arb
            refine no (e := .take m 0) (by simp) { s with q := setAt s.q m ((s.q m).eraseIdx 0), arb := setAt s.arb k' (some { p with route := r' }) } ?_
            simp [TState.step, hq, hroute, harb]
      have harb : s.arb m = none := by
        cases ha : s.arb m with
        | none => rfl
        | some p =>
          exfalso
          refine no (e := .pass m) (by simp) { s with arb := setAt s.arb m none, rx := setAt s.rx m (s.rx m ++ [p]) } ?_
          simp [TState.step, ha, hasCredit_empty hrx hq (h.arb m p ha).fits]
      have ht : s.tasks m = [] := by
        cases ht : s.tasks m with
        | nil => rfl
        | cons p r =>
          exfalso
          refine no (e := .send m 0) (by simp) { s with tasks := setAt s.tasks m ((s.tasks m).eraseIdx 0), rx := setAt s.rx m (s.rx m ++ [p]) } ?_
          simp [TState.step, ht, hasCredit_empty hrx hq (h.tasks m p (by rw [ht]; simp)).fits]
      exact ⟨ht, hrx, hq, harb, hbusy⟩
  exact fun m => key _ m rfl

/-! ### Sums over all TLPs on their way -/

/-- The sum of a weight over TLPs. -/
def wsum (w : TPkt → Nat) (l : List TPkt) : Nat := (l.map w).sum

theorem wsum_append (w : TPkt → Nat) (a b : List TPkt) : wsum w (a ++ b) = wsum w a + wsum w b := by simp [wsum]
theorem wsum_single (w : TPkt → Nat) (p : TPkt) : wsum w [p] = w p := by simp [wsum]
theorem wsum_cons (w : TPkt → Nat) (p : TPkt) (l : List TPkt) : wsum w (p :: l) = w p + wsum w l := by simp [wsum]

theorem wsum_eraseIdx (w : TPkt → Nat) : ∀ (l : List TPkt) (i : Nat) (p : TPkt), l[i]? = some p → wsum w l = w p + wsum w (l.eraseIdx i)
  | [], _, _, h => by simp at h
  | a :: l, 0, p, h => by simp only [List.getElem?_cons_zero, Option.some.injEq] at h; subst h; simp [wsum]
  | a :: l, i + 1, p, h => by
    rw [List.getElem?_cons_succ] at h
    have := wsum_eraseIdx w l i p h
    rw [List.eraseIdx_cons_succ, wsum_cons, wsum_cons, this]
    omega

/-- The sum over links below `n`. -/
def rsum (n : Nat) (f : Nat → Nat) : Nat := ((List.range n).map f).sum

theorem rsum_succ (n : Nat) (f : Nat → Nat) : rsum (n + 1) f = rsum n f + f n := by simp [rsum, List.range_succ]

theorem rsum_congr {n : Nat} {f g : Nat → Nat} (h : ∀ j < n, f j = g j) : rsum n f = rsum n g := by
  induction n with
  | zero => rfl
  | succ n ih => rw [rsum_succ, rsum_succ, ih fun j hj => h j (by omega), h n (by omega)]

theorem rsum_zero {n : Nat} {f : Nat → Nat} (h : ∀ j < n, f j = 0) : rsum n f = 0 := by
  induction n with
  | zero => rfl
  | succ n ih => rw [rsum_succ, ih fun j hj => h j (by omega), h n (by omega)]

theorem rsum_setAt {α : Type} (g : α → Nat) (f : Nat → α) (m : Nat) (v : α) : ∀ n, m < n →
    rsum n (fun j => g (setAt f m v j)) + g (f m) = rsum n (fun j => g (f j)) + g v
  | 0, h => absurd h (by omega)
  | n + 1, h => by
    rw [rsum_succ, rsum_succ]
    by_cases hm : m = n
    · subst hm
      have : rsum m (fun j => g (setAt f m v j)) = rsum m (fun j => g (f j)) := rsum_congr fun j hj => by simp only [setAt]; rw [if_neg (by omega)]
      rw [this]
      simp only [setAt, if_true]
      omega
    · have ih := rsum_setAt g f m v n (by omega)
      have : setAt f m v n = f n := by simp only [setAt]; rw [if_neg (by omega)]
      rw [this]
      omega

/-- Weights for the places of a TLP. -/
structure TWeight where
  t : TPkt → Nat
  r : TPkt → Nat
  q : TPkt → Nat
  a : TPkt → Nat
  b : TPkt → Nat
  d : TPkt → Nat

/-- The weight of all TLPs. -/
def TState.total (W : TWeight) (n : Nat) (s : TState) : Nat :=
  rsum n (fun j => wsum W.t (s.tasks j)) + rsum n (fun j => wsum W.r (s.rx j)) + rsum n (fun j => wsum W.q (s.q j)) + rsum n (fun j => wsum W.a (s.arb j).toList) +
    rsum n (fun j => wsum W.b (s.busy j)) + wsum W.d s.done

/-- Each thing that happens to a TLP takes `k` from its weight. -/
structure TWeight.Falls (N : TNet) (W : TWeight) (k : Nat) : Prop where
  t : ∀ p, W.t p = W.r p + k
  r : ∀ p, p.route ≠ [] → W.r p = W.q p + k
  q : ∀ p x r, p.route = x :: r → W.q p = W.a { p with route := r } + k
  a : ∀ p, W.a p = W.r p + k
  b : ∀ c, N.answer c.id = [] → W.b c = W.r c + k
  d : ∀ p, p.route = [] → W.r p = W.d p + wsum W.b (N.answer p.id) + k

theorem TOk.here {N : TNet} {rank : Nat → Nat} {n m : Nat} {p : TPkt} (h : TOk N rank n m p) : m < n := h.lt m (by simp)

/-- A step that starts nothing takes `k` from the total weight. -/
theorem TState.total_step {N : TNet} {rank : Nat → Nat} {n k : Nat} {s s' : TState} {e : TEv} {W : TWeight} (hW : W.Falls N k) (h : TInv N rank n s) (hs : s.step N e = some s')
    (hst : ∀ m p, e ≠ .start m p) : s.total W n = s'.total W n + k := by
  cases e with
  | start m p => exact absurd rfl (hst m p)
  | send m i =>
    simp only [TState.step] at hs
    split at hs
    · cases hs
    · next p hp =>
      split at hs
      · cases hs
        have hm := (h.tasks m p (List.mem_of_getElem? hp)).here
        have h1 := rsum_setAt (wsum W.t) s.tasks m ((s.tasks m).eraseIdx i) n hm
        have h2 := rsum_setAt (wsum W.r) s.rx m (s.rx m ++ [p]) n hm
        have h3 := wsum_eraseIdx W.t _ _ _ hp
        rw [wsum_append, wsum_single] at h2
        have := hW.t p
        simp only [TState.total]
        omega
      · cases hs
  | recv m =>
    simp only [TState.step] at hs
    split at hs
    · cases hs
    · next hb =>
      split at hs
      · cases hs
      · next p r hr =>
        have hm := (h.rx m p (by rw [hr]; simp)).here
        have h1 := rsum_setAt (wsum W.r) s.rx m r n hm
        rw [hr, wsum_cons] at h1
        split at hs
        · next hroute =>
          cases hs
          have h2 := rsum_setAt (wsum W.b) s.busy m (N.answer p.id) n hm
          rw [hb] at h2
          have h3 := hW.d p hroute
          have h4 : wsum W.b [] = 0 := rfl
          simp only [TState.total, wsum_append, wsum_single]
          omega
        · next k' r' hroute =>
          cases hs
          have h2 := rsum_setAt (wsum W.q) s.q m (s.q m ++ [p]) n hm
          rw [wsum_append, wsum_single] at h2
          have h3 := hW.r p (by rw [hroute]; simp)
          simp only [TState.total]
          omega
  | take m i =>
    simp only [TState.step] at hs
    split at hs
    · cases hs
    · next p hp =>
      split at hs
      · cases hs
      · next x r hroute =>
        split at hs
        · cases hs
        · next harb =>
          split at hs
          · cases hs
            have hok := (h.q m p (List.mem_of_getElem? hp)).1
            have h1 := rsum_setAt (wsum W.q) s.q m ((s.q m).eraseIdx i) n hok.here
            have h2 := rsum_setAt (fun o : Option TPkt => wsum W.a o.toList) s.arb x (some { p with route := r }) n (hok.next hroute).2.here
            have h3 := wsum_eraseIdx W.q _ _ _ hp
            have h4 := hW.q p x r hroute
            simp only [harb, Option.toList_none, Option.toList_some, wsum_single] at h2
            have h5 : wsum W.a [] = 0 := rfl
            simp only [TState.total]
            omega
          · cases hs
  | pass m =>
    simp only [TState.step] at hs
    split at hs
    · cases hs
    · next p hp =>
      split at hs
      · cases hs
        have hm := (h.arb m p hp).here
        have h1 := rsum_setAt (fun o : Option TPkt => wsum W.a o.toList) s.arb m none n hm
        have h2 := rsum_setAt (wsum W.r) s.rx m (s.rx m ++ [p]) n hm
        rw [wsum_append, wsum_single] at h2
        simp only [hp, Option.toList_none, Option.toList_some, wsum_single] at h1
        have h5 : wsum W.a [] = 0 := rfl
        have := hW.a p
        simp only [TState.total]
        omega
      · cases hs
  | reply m =>
    simp only [TState.step] at hs
    split at hs
    · cases hs
    · next c cs hc =>
      split at hs
      · cases hs
        have hb := h.busy m c (by rw [hc]; simp)
        have h1 := rsum_setAt (wsum W.b) s.busy m cs n hb.here
        have h2 := rsum_setAt (wsum W.r) s.rx (N.back m) (s.rx (N.back m) ++ [c]) n hb.ok.here
        rw [wsum_append, wsum_single] at h2
        rw [hc, wsum_cons] at h1
        have := hW.b c hb.leaf
        simp only [TState.total]
        omega
      · cases hs

theorem TState.total_start {N : TNet} {n m : Nat} {p : TPkt} {s s' : TState} (W : TWeight) (hs : s.step N (.start m p) = some s') (hm : m < n) :
    s'.total W n = s.total W n + W.t p := by
  simp only [TState.step, Option.some.injEq] at hs
  subst hs
  have h1 := rsum_setAt (wsum W.t) s.tasks m (s.tasks m ++ [p]) n hm
  rw [wsum_append, wsum_single] at h1
  simp only [TState.total]
  omega

/-- Over a history: what was there and what was started is what is there now, less `k` for each thing that happened. -/
theorem TState.total_run {N : TNet} {rank : Nat → Nat} {n k : Nat} {W : TWeight} (hW : W.Falls N k) : ∀ (es : List TEv) (s s' : TState), TInv N rank n s → s.run N es = some s' →
    (∀ x ∈ started es, TOk N rank n x.1 x.2) →
    TInv N rank n s' ∧ s.total W n + ((started es).map fun x => W.t x.2).sum = s'.total W n + k * (es.length - (started es).length) ∧ (started es).length ≤ es.length
  | [], s, s', h, hr, _ => by
    simp only [TState.run, Option.some.injEq] at hr
    subst hr
    simp [started, h]
  | e :: es, s, s', h, hr, hst => by
    simp only [TState.run, Option.bind_eq_some_iff] at hr
    obtain ⟨s1, h1, h2⟩ := hr
    by_cases he : ∃ m p, e = .start m p
    · obtain ⟨m, p, rfl⟩ := he
      have hp := hst (m, p) (by simp [started])
      have hi := h.step h1 (by rintro m' p' ⟨⟩; exact hp)
      obtain ⟨hi', hs', hl⟩ := TState.total_run hW es s1 s' hi h2 fun x hx => hst x (by simp [started, hx])
      have ht := TState.total_start W h1 hp.here
      refine ⟨hi', ?_, by simpa [started] using hl⟩
      simp only [started, List.map_cons, List.sum_cons, List.length_cons, Nat.add_sub_add_right]
      omega
    · have he' : ∀ m p, e ≠ .start m p := fun m p hp => he ⟨m, p, hp⟩
      have hst' : started (e :: es) = started es := by
        cases e with
        | start m p => exact absurd rfl (he' m p)
        | _ => rfl
      rw [hst'] at hst ⊢
      have hi := h.step h1 fun m p hp => absurd hp (he' m p)
      obtain ⟨hi', hs', hl⟩ := TState.total_run hW es s1 s' hi h2 hst
      have ht := TState.total_step hW h h1 he'
      refine ⟨hi', ?_, by rw [List.length_cons]; omega⟩
      have : (e :: es).length - (started es).length = (es.length - (started es).length) + 1 := by rw [List.length_cons]; omega
      rw [this, Nat.mul_add]
      omega

/-- The things that have to happen. -/
def effortW (N : TNet) : TWeight :=
  let A := fun p : TPkt => ((N.answer p.id).map fun c => 3 * c.route.length + 2).sum
  { t := fun p => 3 * p.route.length + 2 + A p, r := fun p => 3 * p.route.length + 1 + A p, q := fun p => 3 * p.route.length + A p,
    a := fun p => 3 * p.route.length + 2 + A p, b := fun c => 3 * c.route.length + 2, d := fun _ => 0 }

theorem effortW_falls (N : TNet) : (effortW N).Falls N 1 where
  t p := by simp only [effortW]; omega
  r p _ := by simp only [effortW]; omega
  q p x r h := by simp only [effortW, h, List.length_cons]; omega
  a p := by simp only [effortW]; omega
  b c h := by simp [effortW, h]
  d p h := by simp only [effortW, h, List.length_nil, wsum]; omega

/-- How often TLP `x` is to be delivered. -/
def countW (N : TNet) (x : Nat) : TWeight :=
  let one := fun p : TPkt => if p.id = x then 1 else 0
  let w := fun p : TPkt => one p + ((N.answer p.id).filter fun c => c.id = x).length
  ⟨w, w, w, w, one, one⟩

theorem wsum_one (x : Nat) : ∀ l : List TPkt, wsum (fun p => if p.id = x then 1 else 0) l = (l.filter fun p => p.id = x).length
  | [] => rfl
  | p :: l => by
    rw [wsum_cons, wsum_one x l, List.filter_cons]
    by_cases h : p.id = x
    · simp [h]; omega
    · simp [h]

theorem countW_falls (N : TNet) (x : Nat) : (countW N x).Falls N 0 where
  t p := rfl
  r p _ := rfl
  q p x r h := rfl
  a p := rfl
  b c h := by simp [countW, h]
  d p h := by simp only [countW, wsum_one]; omega

theorem owed_eq (N : TNet) (x : Nat) : ∀ l : List (Nat × TPkt), owed N x l = (l.map fun y => (countW N x).t y.2).sum
  | [] => rfl
  | (m, p) :: l => by simp only [owed, owed_eq N x l, List.map_cons, List.sum_cons, countW]

theorem effort_eq (N : TNet) : ∀ l : List (Nat × TPkt), effort N l = (l.map fun y => (effortW N).t y.2).sum
  | [] => rfl
  | (m, p) :: l => by simp only [effort, effort_eq N l, List.map_cons, List.sum_cons, effortW]

theorem wsum_const_zero : ∀ l : List TPkt, wsum (fun _ => 0) l = 0
  | [] => rfl
  | _ :: l => by rw [wsum_cons, wsum_const_zero l]

theorem total_init (W : TWeight) (n : Nat) : TState.init.total W n = 0 := by
  have h : ∀ w : TPkt → Nat, rsum n (fun _ => wsum w []) = 0 := fun w => rsum_zero fun _ _ => rfl
  simp only [TState.total, TState.init, Option.toList_none, h]
  rfl

theorem total_clear (W : TWeight) (n : Nat) {s : TState} (h : ∀ m, TClear s m) : s.total W n = wsum W.d s.done := by
  simp only [TState.total, (h _).tasks, (h _).rx, (h _).q, (h _).arb, (h _).busy, Option.toList_none]
  simp only [wsum, List.map_nil, List.sum_nil]
  rw [rsum_zero fun _ _ => rfl]
  omega

/-- Everything about a network with ranks. -/
theorem ranked_live {N : TNet} {rank : Nat → Nat} {n : Nat} {es : List TEv} {s : TState} (hr : TState.init.run N es = some s) (hst : ∀ x ∈ started es, TOk N rank n x.1 x.2) :
    es.length ≤ (started es).length + effort N (started es) ∧ (∀ x, delivered s x ≤ owed N x (started es)) ∧
      (Halted N s → (∀ x, delivered s x = owed N x (started es)) ∧ es.length = (started es).length + effort N (started es)) := by
  obtain ⟨hi, he, hl⟩ := TState.total_run (effortW_falls N) es _ s (TInv.init N rank n) hr hst
  rw [total_init, ← effort_eq] at he
  have hc : ∀ x, owed N x (started es) = s.total (countW N x) n := fun x => by
    obtain ⟨_, h2, _⟩ := TState.total_run (countW_falls N x) es _ s (TInv.init N rank n) hr hst
    rw [total_init, ← owed_eq] at h2
    omega
  have hd : ∀ x, wsum (countW N x).d s.done = delivered s x := fun x => wsum_one x s.done
  refine ⟨by omega, fun x => ?_, fun hh => ⟨fun x => ?_, ?_⟩⟩
  · rw [hc x, ← hd x]; simp only [TState.total]; omega
  · rw [hc x, total_clear _ _ (hi.clear hh), hd x]
  · rw [total_clear _ _ (hi.clear hh)] at he
    have : wsum (effortW N).d s.done = 0 := wsum_const_zero _
    omega

/-! ### Hierarchies -/

/-- The ranks of the links of a hierarchy: towards the root they go down to 0, away from the root they go down to `n`. -/
def treeRank (n m : Nat) : Nat := if m % 2 = 0 then m / 2 else 2 * n - m / 2

theorem treeRank_up (n i : Nat) : treeRank n (upLink i) = i := by
  unfold treeRank upLink
  rw [if_pos (by omega)]
  omega

theorem treeRank_down (n i : Nat) : treeRank n (downLink i) = 2 * n - i := by
  unfold treeRank downLink
  rw [if_neg (by omega)]
  congr 1
  omega

theorem Spec.ToRoot.up {parent : Nat → Nat} {n : Nat} (hp : ∀ i, i ≠ 0 → parent i < i) {i : Nat} {l : List Nat} (h : ToRoot parent i l) (hi : i < n) :
    ∃ t, l = i :: t ∧ Desc (treeRank n) (upLink i) (t.map upLink) ∧ (∀ x ∈ (l.map upLink), x < 2 * n) ∧ (upLink i :: t.map upLink).getLast (by simp) = upLink 0 := by
  induction h with
  | root => exact ⟨[], rfl, trivial, by simp [upLink]; omega, rfl⟩
  | @step i l h0 h ih =>
    have hlt := hp i h0
    obtain ⟨t, ht, hd, hl, hg⟩ := ih (by omega)
    refine ⟨l, rfl, ?_, ?_, ?_⟩
    · rw [ht, List.map_cons]
      refine ⟨?_, hd⟩
      rw [treeRank_up, treeRank_up]
      exact hlt
    · intro x hx
      rw [List.map_cons, List.mem_cons] at hx
      rcases hx with rfl | hx
      · unfold upLink; omega
      · exact hl x hx
    · subst ht
      rw [List.map_cons, List.getLast_cons (by simp)]
      exact hg

theorem Spec.ToRoot.down {parent : Nat → Nat} {n : Nat} (hp : ∀ i, i ≠ 0 → parent i < i) {i : Nat} {l : List Nat} (h : ToRoot parent i l) (hi : i < n) :
    (∀ x ∈ l, x < n) ∧ ∀ u, Desc (treeRank n) (downLink i) u →
      ∃ t, l.reverse.map downLink ++ u = downLink 0 :: t ∧ Desc (treeRank n) (downLink 0) t := by
  induction h with
  | root => exact ⟨by simp; omega, fun u hu => ⟨u, rfl, hu⟩⟩
  | @step i l h0 h ih =>
    have hlt := hp i h0
    obtain ⟨hl, ih⟩ := ih (by omega)
    refine ⟨?_, fun u hu => ?_⟩
    · intro x hx
      rcases List.mem_cons.1 hx with rfl | hx
      · exact hi
      · exact hl x hx
    · obtain ⟨t, ht, hd⟩ := ih (downLink i :: u) ⟨by rw [treeRank_down, treeRank_down]; omega, hu⟩
      exact ⟨t, by simpa using ht, hd⟩

/-- A route towards the root. -/
theorem Spec.UpRoute.ok {parent : Nat → Nat} {n : Nat} (hp : ∀ i, i ≠ 0 → parent i < i) {i m : Nat} {r : List Nat} (h : UpRoute parent i (m :: r)) (hi : i < n) :
    m = upLink i ∧ Desc (treeRank n) m r ∧ (∀ x ∈ m :: r, x < 2 * n) ∧ (m :: r).getLast (by simp) = upLink 0 := by
  obtain ⟨p, hr, hl⟩ := h
  obtain ⟨t, rfl, hd, hlt, hg⟩ := hr.up hp hi
  rw [List.map_cons] at hl hlt
  obtain ⟨rfl, rfl⟩ := List.cons.inj hl
  exact ⟨rfl, hd, hlt, hg⟩

/-- A route from the root. -/
theorem Spec.DownRoute.ok {parent : Nat → Nat} {n : Nat} (hp : ∀ i, i ≠ 0 → parent i < i) {i m : Nat} {r : List Nat} (h : DownRoute parent i (m :: r)) (hi : i < n) :
    m = downLink 0 ∧ Desc (treeRank n) m r ∧ (∀ x ∈ m :: r, x < 2 * n) ∧ (m :: r).getLast (by simp) = downLink i := by
  obtain ⟨p, hr, hl⟩ := h
  obtain ⟨hlt, hdn⟩ := hr.down hp hi
  obtain ⟨t, ht, hd⟩ := hdn [] trivial
  rw [List.append_nil, ← hl] at ht
  obtain ⟨rfl, rfl⟩ := List.cons.inj ht
  refine ⟨rfl, hd, ?_, ?_⟩
  · intro x hx
    rw [hl, List.mem_map] at hx
    obtain ⟨y, hy, rfl⟩ := hx
    have := hlt y (List.mem_reverse.1 hy)
    unfold downLink
    omega
  · obtain ⟨t', rfl, _⟩ := hr.up hp hi
    simp only [hl]
    simp

/-- The traffic between the root complex and the components of a hierarchy never waits in a circle. -/
theorem Spec.RootTraffic.ok {N : TNet} {parent : Nat → Nat} {n m : Nat} {p : TPkt} (H : Hierarchy N parent n) (h : RootTraffic N parent n m p) : TOk N (treeRank n) (2 * n) m p := by
  obtain ⟨hf, h⟩ := h
  rcases h with ⟨i, hi, rfl, hr, ha⟩ | ⟨i, hi, rfl, hr, ha⟩
  · obtain ⟨_, hd, hl, hg⟩ := hr.ok H.parent hi
    refine ⟨hd, hl, hf, fun c hc => ?_⟩
    rw [hg]
    obtain ⟨k, hk, hcf, hcr, hcl⟩ := ha c hc
    obtain ⟨_, hcd, hcl', _⟩ := hcr.ok H.parent hk
    have hb := (H.back 0).2
    exact ⟨by unfold upLink; have := H.some; omega, .inl (by rw [hb]; exact H.inner _ (by simp [downLink])), hcl, hcf, by rw [hb]; exact hcd, by rw [hb]; exact hcl'⟩
  · obtain ⟨_, hd, hl, hg⟩ := hr.ok H.parent hi
    refine ⟨hd, hl, hf, fun c hc => ?_⟩
    rw [hg]
    obtain ⟨hcf, hcr, hcl⟩ := ha c hc
    obtain ⟨_, hcd, hcl', _⟩ := hcr.ok H.parent hi
    have hb := (H.back i).1
    refine ⟨by unfold downLink; omega, .inr ?_, hcl, hcf, by rw [hb]; exact hcd, by rw [hb]; exact hcl'⟩
    rw [hb, treeRank_up, treeRank_down]
    omega

/-! ### Writes between components -/

/-- Ranks for traffic in which only the root complex answers: up first, then down. -/
def dmaRank (n m : Nat) : Nat := if m % 2 = 0 then n + m / 2 else n - m / 2

theorem dmaRank_up (n i : Nat) : dmaRank n (upLink i) = n + i := by
  unfold dmaRank upLink
  rw [if_pos (by omega)]
  omega

theorem dmaRank_down (n i : Nat) : dmaRank n (downLink i) = n - i := by
  unfold dmaRank downLink
  rw [if_neg (by omega)]
  congr 1
  omega

/-- A route in one direction that is all right with the ranks of a hierarchy is all right with these. -/
theorem desc_up {n : Nat} : ∀ (l : List Nat) (i : Nat), Desc (treeRank n) (upLink i) (l.map upLink) → Desc (dmaRank n) (upLink i) (l.map upLink)
  | [], _, _ => trivial
  | k :: l, i, h => by
    obtain ⟨h1, h2⟩ := h
    rw [treeRank_up, treeRank_up] at h1
    exact ⟨by rw [dmaRank_up, dmaRank_up]; omega, desc_up l k h2⟩

theorem desc_down {n : Nat} : ∀ (l : List Nat) (i : Nat), (∀ x ∈ l, x < n) → Desc (treeRank n) (downLink i) (l.map downLink) → Desc (dmaRank n) (downLink i) (l.map downLink)
  | [], _, _, _ => trivial
  | k :: l, i, hl, h => by
    obtain ⟨h1, h2⟩ := h
    rw [treeRank_down, treeRank_down] at h1
    have := hl k (by simp)
    exact ⟨by rw [dmaRank_down, dmaRank_down]; omega, desc_down l k (fun x hx => hl x (List.mem_cons_of_mem _ hx)) h2⟩

theorem Spec.UpRoute.dma {parent : Nat → Nat} {n : Nat} (hp : ∀ i, i ≠ 0 → parent i < i) {i m : Nat} {r : List Nat} (h : UpRoute parent i (m :: r)) (hi : i < n) : Desc (dmaRank n) m r := by
  obtain ⟨rfl, hd, _, _⟩ := h.ok hp hi
  obtain ⟨p, _, hl⟩ := h
  cases p with
  | nil => simp at hl
  | cons k p =>
    obtain ⟨_, rfl⟩ := List.cons.inj hl
    exact desc_up p i hd

theorem Spec.DownRoute.dma {parent : Nat → Nat} {n : Nat} (hp : ∀ i, i ≠ 0 → parent i < i) {i m : Nat} {r : List Nat} (h : DownRoute parent i (m :: r)) (hi : i < n) : Desc (dmaRank n) m r := by
  obtain ⟨rfl, hd, hlt, _⟩ := h.ok hp hi
  obtain ⟨p, _, hl⟩ := h
  cases hp' : p.reverse with
  | nil => rw [hp'] at hl; simp at hl
  | cons k p' =>
    rw [hp', List.map_cons] at hl
    obtain ⟨_, rfl⟩ := List.cons.inj hl
    refine desc_down p' 0 (fun x hx => ?_) hd
    have := hlt (downLink x) (List.mem_cons_of_mem _ (List.mem_map.2 ⟨x, hx, rfl⟩))
    unfold downLink at this
    omega

theorem Spec.Below.ok {parent : Nat → Nat} {n : Nat} (hp : ∀ i, i ≠ 0 → parent i < i) {a : Nat} {l : List Nat} (h : Below parent n a l) :
    Desc (dmaRank n) (downLink a) l ∧ (∀ i, Desc (dmaRank n) (upLink i) l) ∧ ∀ x ∈ l, x < 2 * n := by
  induction h with
  | here a => exact ⟨trivial, fun _ => trivial, by simp⟩
  | @step a b l h0 hb hpb _ ih =>
    obtain ⟨h1, _, h3⟩ := ih
    have := hp b h0
    refine ⟨⟨by rw [dmaRank_down, dmaRank_down]; omega, h1⟩, fun i => ⟨by rw [dmaRank_down, dmaRank_up]; omega, h1⟩, fun x hx => ?_⟩
    rcases List.mem_cons.1 hx with rfl | hx
    · unfold downLink; omega
    · exact h3 x hx

theorem Spec.PeerRoute.ok {parent : Nat → Nat} {n : Nat} (hp : ∀ i, i ≠ 0 → parent i < i) {i : Nat} {l : List Nat} (h : PeerRoute parent n i l) (hi : i < n) :
    ∃ r, l = upLink i :: r ∧ Desc (dmaRank n) (upLink i) r ∧ ∀ x ∈ l, x < 2 * n := by
  induction h with
  | @turn i l h0 hb =>
    obtain ⟨_, h2, h3⟩ := hb.ok hp
    refine ⟨l, rfl, h2 i, fun x hx => ?_⟩
    rcases List.mem_cons.1 hx with rfl | hx
    · unfold upLink; omega
    · exact h3 x hx
  | @up i l h0 _ ih =>
    have := hp i h0
    obtain ⟨r, rfl, h2, h3⟩ := ih (by omega)
    refine ⟨_, rfl, ⟨by rw [dmaRank_up, dmaRank_up]; omega, h2⟩, fun x hx => ?_⟩
    rcases List.mem_cons.1 hx with rfl | hx
    · unfold upLink; omega
    · exact h3 x hx

theorem Spec.DmaTraffic.ok {N : TNet} {parent : Nat → Nat} {n m : Nat} {p : TPkt} (H : Hierarchy N parent n) (h : DmaTraffic N parent n m p) : TOk N (dmaRank n) (2 * n) m p := by
  obtain ⟨hf, h⟩ := h
  rcases h with ⟨i, hi, rfl, hr, ha⟩ | ⟨ha, i, hi, hr⟩ | ⟨ha, i, hi, hr⟩
  · obtain ⟨_, _, hl, hg⟩ := hr.ok H.parent hi
    refine ⟨hr.dma H.parent hi, hl, hf, fun c hc => ?_⟩
    rw [hg]
    obtain ⟨k, hk, hcf, hcr, hcl⟩ := ha c hc
    obtain ⟨_, _, hcl', _⟩ := hcr.ok H.parent hk
    have hb := (H.back 0).2
    exact ⟨by unfold upLink; have := H.some; omega, .inl (by rw [hb]; exact H.inner _ (by simp [downLink])), hcl, hcf, by rw [hb]; exact hcr.dma H.parent hk, by rw [hb]; exact hcl'⟩
  · obtain ⟨r, he, hd, hl⟩ := hr.ok H.parent hi
    obtain ⟨rfl, rfl⟩ := List.cons.inj he
    exact ⟨hd, hl, hf, by rw [ha]; simp⟩
  · obtain ⟨_, _, hl, _⟩ := hr.ok H.parent hi
    exact ⟨hr.dma H.parent hi, hl, hf, by rw [ha]; simp⟩

end Pcie
