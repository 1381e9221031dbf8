import Verif.Spec.UsMgmt
import Verif.Lemmas.Config
import Mathlib.Data.List.Forall2
/-
Lemmas for C60.
-/
namespace Pcie
open Spec
variable {σ : Type} (ops : CapOps σ)

theorem mgmtEdges_append (a b : List (MgmtObs σ)) : mgmtEdges (a ++ b) = mgmtEdges a ++ mgmtEdges b := by simp [mgmtEdges, List.filterMap_append]
theorem mgmtAccesses_append (a b : List (MgmtObs σ)) : mgmtAccesses (a ++ b) = mgmtAccesses a ++ mgmtAccesses b := by
  simp [mgmtAccesses, List.filterMap_append]
theorem mgmtAnswered_append (a b : List (MgmtObs σ)) : mgmtAnswered (a ++ b) = mgmtAnswered a ++ mgmtAnswered b := by
  simp [mgmtAnswered, mgmtEdges_append, List.filterMap_append]

theorem mgmtReplay_append (fns : List (Fn σ)) (a b : List (MgmtObs σ)) : mgmtReplay ops fns (a ++ b) = mgmtReplay ops (mgmtReplay ops fns a) b := by
  induction a generalizing fns with
  | nil => rfl
  | cons o a ih => match o with
    | .edge _ _ _ => exact ih _
    | .env _ => exact ih _
    | .access (.write ..) => exact ih _
    | .access (.read ..) => exact ih _
    | .access .internal => exact ih _

theorem Spec.MgmtHeld.prefix {a b : List (MgmtIn × Bool × Nat)} (h : MgmtHeld (a ++ b)) : MgmtHeld a := by
  intro k e e' he he'
  refine h k e e' ?_ ?_
  · rw [List.getElem?_append_left (List.getElem?_eq_some_iff.1 he).1, he]
  · rw [List.getElem?_append_left (List.getElem?_eq_some_iff.1 he').1, he']

theorem Spec.MgmtHeld.last {a : List (MgmtIn × Bool × Nat)} {e e' : MgmtIn × Bool × Nat} (h : MgmtHeld (a ++ [e'])) (hl : a.getLast? = some e)
    (hr : e.1.read ∨ e.1.write) (hd : e.2.1 = false) : e'.1 = e.1 := by
  obtain ⟨b, rfl⟩ := List.getLast?_eq_some_iff.1 hl
  refine h b.length e e' ?_ ?_ hr hd
  · simp
  · simp

namespace Mgmt

theorem access_spec (usp : Bool) (s s' : Mgmt σ) (i : MgmtIn) (hi : i.read ∨ i.write) (h : access ops usp s i = .ok s') :
    ∃ a, s'.hist = s.hist ++ [.access a] ∧ s'.st = s.st ∧ s'.done = s.done ∧ MgmtMatches usp (i, s'.readData) a ∧
      s'.fns = mgmtReplay ops s.fns [.access a] ∧ (∀ fn reg v, a = .read fn reg v → ∃ f, s.fns[fn]? = some f ∧ v = f.read ops reg) := by
  have e1 : i.addr >>> 10 &&& 0x7f = i.addr / 2 ^ 10 % 2 ^ 7 := by
    rw [show (0x7f : Nat) = 2 ^ 7 - 1 from rfl, Nat.and_two_pow_sub_one_eq_mod, Nat.shiftRight_eq_div_pow]
  have e2 : i.addr &&& 0x3ff = i.addr % 2 ^ 10 := by rw [show (0x3ff : Nat) = 2 ^ 10 - 1 from rfl, Nat.and_two_pow_sub_one_eq_mod]
  have e3 : (i.addr &&& 1 <<< 18 ≠ 0) ↔ i.addr.testBit 18 = true := by
    exact and_ne_bit _ _
  have ht : target usp i = (mgmtFn usp i, mgmtReg usp i) := by
    unfold target mgmtFn mgmtReg
    cases usp <;> simp [e1, e2]
  have hx : (¬ usp = true ∧ i.addr &&& 1 <<< 18 ≠ 0) ↔ mgmtInternal usp i = true := by
    rw [e3]; unfold mgmtInternal; cases usp <;> simp
  unfold access at h
  simp only [ht, hx] at h
  split at h
  · rename_i hin
    cases h
    exact ⟨.internal, rfl, rfl, rfl, hin, rfl, by intro _ _ _ h; cases h⟩
  · rename_i hin
    rw [Bool.not_eq_true] at hin
    split at h
    · cases h
    · rename_i f hf
      split at h
      · rename_i hrd
        split at h
        · cases h
          exact ⟨_, rfl, rfl, rfl, ⟨hin, hrd, rfl, rfl, rfl⟩, rfl, by intro _ _ _ h; cases h; exact ⟨f, hf, rfl⟩⟩
        · cases h
      · rename_i hrd
        rw [Bool.not_eq_true] at hrd
        cases h
        have hw : i.write = true := by rcases hi with h | h <;> simp_all
        refine ⟨_, rfl, rfl, rfl, ⟨hin, hw, hrd, rfl, rfl, rfl, rfl⟩, ?_, by intro _ _ _ h; cases h⟩
        simp only [mgmtReplay, hf]

/-- What holds between events, if the user has followed the protocol so far. -/
structure Inv (usp : Bool) (s : Mgmt σ) : Prop where
  idle : s.st = .idle → s.done = false → List.Forall₂ (MgmtMatches usp) (mgmtAnswered s.hist) (mgmtAccesses s.hist)
  done : s.st = .idle → s.done = true → ∃ acc a e, mgmtAccesses s.hist = acc ++ [a] ∧ List.Forall₂ (MgmtMatches usp) (mgmtAnswered s.hist) acc ∧
    (mgmtEdges s.hist).getLast? = some e ∧ (e.1.read ∨ e.1.write) ∧ e.2.1 = false ∧ MgmtMatches usp (e.1, s.readData) a
  busy : ∀ i left, s.st = .busy i left → s.done = false ∧ List.Forall₂ (MgmtMatches usp) (mgmtAnswered s.hist) (mgmtAccesses s.hist) ∧
    (i.read ∨ i.write) ∧ ∃ e, (mgmtEdges s.hist).getLast? = some e ∧ e.1 = i ∧ e.2.1 = false

theorem step_hist (usp : Bool) (s s' : Mgmt σ) (e : MgmtEv σ) (h : step ops usp s e = .ok s') : ∃ t, s'.hist = s.hist ++ t := by
  unfold step at h
  split at h
  · unfold clock at h
    simp only at h
    split at h
    · split at h
      · cases h; exact ⟨_, rfl⟩
      · split at h <;> (cases h; exact ⟨_, rfl⟩)
    · split at h
      · split at h
        · cases h
        · rename_i ha
          cases h
          unfold access at ha
          simp only at ha
          split at ha
          · cases ha; exact ⟨_, List.append_assoc ..⟩
          · split at ha
            · cases ha
            · split at ha
              · split at ha
                · cases ha; exact ⟨_, List.append_assoc ..⟩
                · cases ha
              · cases ha; exact ⟨_, List.append_assoc ..⟩
      · cases h; exact ⟨_, rfl⟩
  · cases h; exact ⟨_, rfl⟩

theorem run_hist (usp : Bool) (es : List (MgmtEv σ)) (s s' : Mgmt σ) (h : run ops usp s es = .ok s') : ∃ t, s'.hist = s.hist ++ t := by
  induction es generalizing s with
  | nil => cases h; exact ⟨[], by simp⟩
  | cons e es ih =>
    unfold run at h
    split at h
    · cases h
    · rename_i s1 h1
      obtain ⟨t1, e1⟩ := step_hist ops usp s s1 e h1
      obtain ⟨t2, e2⟩ := ih s1 h
      exact ⟨t1 ++ t2, by rw [e2, e1, List.append_assoc]⟩

theorem step_inv (usp : Bool) (s s' : Mgmt σ) (e : MgmtEv σ) (hi : Inv usp s) (h : step ops usp s e = .ok s')
    (hh : MgmtHeld (mgmtEdges s'.hist)) : Inv usp s' := by
  cases e with
  | env fns =>
    cases h
    have a1 : mgmtAnswered (s.hist ++ [MgmtObs.env fns]) = mgmtAnswered s.hist := by simp [mgmtAnswered_append]; simp [mgmtAnswered, mgmtEdges]
    have a2 : mgmtAccesses (s.hist ++ [MgmtObs.env fns]) = mgmtAccesses s.hist := by simp [mgmtAccesses_append]; simp [mgmtAccesses]
    have a3 : mgmtEdges (s.hist ++ [MgmtObs.env fns]) = mgmtEdges s.hist := by simp [mgmtEdges_append]; simp [mgmtEdges]
    exact ⟨fun h1 h2 => by rw [a1, a2]; exact hi.idle h1 h2, fun h1 h2 => by rw [a1, a2, a3]; exact hi.done h1 h2,
      fun i l h1 => by rw [a1, a2, a3]; exact hi.busy i l h1⟩
  | clock i =>
    have a3 : mgmtEdges (s.hist ++ [.edge i s.done s.readData]) = mgmtEdges s.hist ++ [(i, s.done, s.readData)] := by
      rw [mgmtEdges_append]; rfl
    have a2 : mgmtAccesses (s.hist ++ [.edge i s.done s.readData]) = mgmtAccesses s.hist := by rw [mgmtAccesses_append]; simp [mgmtAccesses]
    have a1 : s.done = false → mgmtAnswered (s.hist ++ [.edge i s.done s.readData]) = mgmtAnswered s.hist := by
      intro hd; rw [mgmtAnswered_append, hd]; simp [mgmtAnswered, mgmtEdges]
    simp only [step, clock] at h
    split at h
    · rename_i hst
      split at h
      · rename_i hd
        cases h
        obtain ⟨acc, a, e, b1, b2, b3, b4, b5, b6⟩ := hi.done hst hd
        simp only [a3] at hh
        have := hh.last b3 b4 b5
        refine ⟨fun _ _ => ?_, fun _ h => by simp at h, fun i' l h1 => by simp [hst] at h1⟩
        simp only [a2, b1]
        rw [mgmtAnswered_append, hd]
        refine List.rel_append b2 ?_
        simp only at this
        simpa [mgmtAnswered, mgmtEdges, this] using b6
      · rename_i hd
        rw [Bool.not_eq_true] at hd
        split at h
        · rename_i hreq
          cases h
          refine ⟨fun h1 => by simp at h1, fun h1 => by simp at h1, fun i' l h1 => ?_⟩
          simp only [MgmtSt.busy.injEq] at h1
          obtain ⟨rfl, rfl⟩ := h1
          refine ⟨hd, ?_, hreq, ?_⟩
          · simp only [a2, a1 hd]; exact hi.idle hst hd
          · simp only [a3]; exact ⟨(i, s.done, s.readData), by simp, rfl, hd⟩
        · cases h
          refine ⟨fun _ _ => ?_, fun _ h => by simp [hd] at h, fun i' l h1 => by simp [hst] at h1⟩
          simp only [a2, a1 hd]; exact hi.idle hst hd
    · rename_i j left hst
      obtain ⟨b1, b2, b3, e, b4, b5, b6⟩ := hi.busy j left hst
      have hij : i = j := by
        obtain ⟨t, ht⟩ : ∃ t, s'.hist = (s.hist ++ [.edge i s.done s.readData]) ++ t := by
          split at h
          · split at h
            · cases h
            · rename_i ha
              obtain ⟨a, c1, -⟩ := access_spec ops usp _ _ j b3 ha
              cases h
              exact ⟨_, c1⟩
          · cases h; exact ⟨[], by simp⟩
        rw [ht, mgmtEdges_append, a3] at hh
        have := (hh.prefix).last b4 (by rw [b5]; exact b3) b6
        simpa [b5] using this
      subst hij
      split at h
      · split at h
        · cases h
        · rename_i ha
          obtain ⟨a, c1, c2, c3, c4, c5, c6⟩ := access_spec ops usp _ _ i b3 ha
          cases h
          simp only at c1 c2 c3
          refine ⟨fun _ h => by simp at h, fun _ _ => ?_, fun i' l h1 => by rw [c2] at h1; cases h1⟩
          simp only [c1]
          refine ⟨mgmtAccesses s.hist, a, (i, s.done, s.readData), ?_, ?_, ?_, b3, b1, c4⟩
          · rw [mgmtAccesses_append, a2]; rfl
          · rw [mgmtAnswered_append, a1 b1]
            simpa [mgmtAnswered, mgmtEdges] using b2
          · rw [mgmtEdges_append, a3]; simp [mgmtEdges]
      · cases h
        refine ⟨fun h1 => by simp at h1, fun h1 => by simp at h1, fun i' l h1 => ?_⟩
        simp only [MgmtSt.busy.injEq] at h1
        obtain ⟨rfl, rfl⟩ := h1
        refine ⟨b1, ?_, b3, ?_⟩
        · simp only [a2, a1 b1]; exact b2
        · simp only [a3]; exact ⟨(i, s.done, s.readData), by simp, rfl, b1⟩

theorem run_inv (usp : Bool) (es : List (MgmtEv σ)) (s s' : Mgmt σ) (hi : Inv usp s) (h : run ops usp s es = .ok s')
    (hh : MgmtHeld (mgmtEdges s'.hist)) : Inv usp s' := by
  induction es generalizing s with
  | nil => cases h; exact hi
  | cons e es ih =>
    unfold run at h
    split at h
    · cases h
    · rename_i s1 h1
      obtain ⟨t, ht⟩ := run_hist ops usp es s1 s' h
      refine ih s1 (step_inv ops usp s s1 e hi h1 ?_) h
      rw [ht, mgmtEdges_append] at hh
      exact hh.prefix

/-- The effects of what was recorded, for any user. -/
theorem step_effect (usp : Bool) (s s' : Mgmt σ) (e : MgmtEv σ) (hb : ∀ i left, s.st = .busy i left → i.read ∨ i.write) (h : step ops usp s e = .ok s') :
    (∃ t, s'.hist = s.hist ++ t ∧ s'.fns = mgmtReplay ops s.fns t ∧
      ∀ t1 t2 fn reg v, t = t1 ++ .access (.read fn reg v) :: t2 → ∃ f, (mgmtReplay ops s.fns t1)[fn]? = some f ∧ v = f.read ops reg) ∧
    (∀ i left, s'.st = .busy i left → i.read ∨ i.write) := by
  cases e with
  | env fns =>
    cases h
    refine ⟨⟨_, rfl, rfl, ?_⟩, hb⟩
    intro t1 t2 fn reg v ht
    match t1, ht with
    | _ :: t1, ht => cases t1 <;> simp at ht
  | clock i =>
    have hno : ∀ t1 t2 fn reg v, [MgmtObs.edge i s.done s.readData] = t1 ++ .access (.read fn reg v) :: t2 →
        ∃ f, (mgmtReplay ops s.fns t1)[fn]? = some f ∧ v = f.read ops reg := by
      intro t1 t2 fn reg v ht
      match t1, ht with
      | _ :: t1, ht => cases t1 <;> simp at ht
    simp only [step, clock] at h
    split at h
    · rename_i hst
      split at h
      · cases h; exact ⟨⟨_, rfl, rfl, hno⟩, fun i l h => by simp [hst] at h⟩
      · split at h
        · rename_i hreq
          cases h
          refine ⟨⟨_, rfl, rfl, hno⟩, fun i' l h => ?_⟩
          simp only [MgmtSt.busy.injEq] at h
          rw [← h.1]; exact hreq
        · cases h; exact ⟨⟨_, rfl, rfl, hno⟩, hb⟩
    · rename_i j left hst
      split at h
      · split at h
        · cases h
        · rename_i ha
          obtain ⟨a, c1, c2, c3, c4, c5, c6⟩ := access_spec ops usp _ _ j (hb j left hst) ha
          cases h
          refine ⟨⟨[.edge i s.done s.readData, .access a], by simpa using c1, by simpa [mgmtReplay] using c5, ?_⟩, fun i' l h1 => by rw [c2] at h1; cases h1⟩
          intro t1 t2 fn reg v ht
          match t1, ht with
          | [_], ht =>
            simp only [List.cons_append, List.nil_append, List.cons.injEq] at ht
            obtain ⟨rfl, ht, -⟩ := ht
            exact c6 fn reg v (by injection ht)
          | _ :: _ :: t1, ht => simp at ht
      · cases h
        refine ⟨⟨_, rfl, rfl, hno⟩, fun i' l h => ?_⟩
        simp only [MgmtSt.busy.injEq] at h
        rw [← h.1]; exact hb j left hst

theorem run_effect (usp : Bool) (es : List (MgmtEv σ)) (s s' : Mgmt σ) (hb : ∀ i left, s.st = .busy i left → i.read ∨ i.write) (h : run ops usp s es = .ok s') :
    ∃ t, s'.hist = s.hist ++ t ∧ s'.fns = mgmtReplay ops s.fns t ∧
      ∀ t1 t2 fn reg v, t = t1 ++ .access (.read fn reg v) :: t2 → ∃ f, (mgmtReplay ops s.fns t1)[fn]? = some f ∧ v = f.read ops reg := by
  induction es generalizing s with
  | nil =>
    cases h
    exact ⟨[], by simp, rfl, fun t1 t2 fn reg v ht => by simp at ht⟩
  | cons e es ih =>
    unfold run at h
    split at h
    · cases h
    · rename_i s1 h1
      obtain ⟨⟨t, a1, a2, a3⟩, hb'⟩ := step_effect ops usp s s1 e hb h1
      obtain ⟨u, b1, b2, b3⟩ := ih s1 hb' h
      refine ⟨t ++ u, by rw [b1, a1, List.append_assoc], by rw [b2, a2, mgmtReplay_append], ?_⟩
      intro t1 t2 fn reg v ht
      rcases List.append_eq_append_iff.1 ht with ⟨w, rfl, hw⟩ | ⟨w, rfl, hw⟩
      · obtain ⟨f, hf⟩ := b3 w t2 fn reg v hw
        exact ⟨f, by rw [mgmtReplay_append, ← a2]; exact hf.1, hf.2⟩
      · cases w with
        | nil =>
          simp only [List.nil_append] at hw
          obtain ⟨f, hf⟩ := b3 [] t2 fn reg v hw.symm
          refine ⟨f, ?_, hf.2⟩
          have := hf.1
          rw [a2] at this
          simpa [mgmtReplay] using this
        | cons x w =>
          simp only [List.cons_append, List.cons.injEq] at hw
          obtain ⟨rfl, -⟩ := hw
          exact a3 t1 w fn reg v rfl

/-- The values of the done signal at these clock edges, from the state on. -/
def flags : MgmtSt → Bool → List MgmtIn → List Bool
  | _, _, [] => []
  | .idle, d, i :: is => d :: (if d then flags .idle false is else if i.read ∨ i.write then flags (.busy i 3) false is else flags .idle false is)
  | .busy j left, d, _ :: is => d :: (if left ≤ 1 then flags .idle true is else flags (.busy j (left - 1)) d is)

theorem run_flags (usp : Bool) (es : List (MgmtEv σ)) (s s' : Mgmt σ) (hb : ∀ i left, s.st = .busy i left → i.read ∨ i.write) (h : run ops usp s es = .ok s') :
    (mgmtEdges s'.hist).map (·.2.1) = (mgmtEdges s.hist).map (·.2.1) ++ flags s.st s.done (mgmtClocks es) := by
  induction es generalizing s with
  | nil => cases h; simp [mgmtClocks, flags]
  | cons e es ih =>
    unfold run at h
    split at h
    · cases h
    · rename_i s1 h1
      have hb' := (step_effect ops usp s s1 e hb h1).2
      rw [ih s1 hb' h]
      cases e with
      | env fns =>
        cases h1
        simp only [mgmtEdges_append, List.map_append]
        simp [mgmtEdges, mgmtClocks]
      | clock i =>
        have hc : mgmtClocks (MgmtEv.clock i :: es) = i :: mgmtClocks es := rfl
        have a3 : (mgmtEdges (s.hist ++ [.edge i s.done s.readData])).map (·.2.1) = (mgmtEdges s.hist).map (·.2.1) ++ [s.done] := by
          rw [mgmtEdges_append]; simp [mgmtEdges]
        rw [hc]
        simp only [step, clock] at h1
        split at h1
        · rename_i hst
          split at h1
          · rename_i hd
            cases h1
            refine (congrArg (· ++ _) a3).trans ?_; simp [hst, hd, flags]
          · rename_i hd
            rw [Bool.not_eq_true] at hd
            split at h1
            · rename_i hreq
              cases h1
              refine (congrArg (· ++ _) a3).trans ?_; simp [hst, hd, flags, hreq]
            · rename_i hreq
              cases h1
              refine (congrArg (· ++ _) a3).trans ?_; simp [hst, hd, flags, hreq]
        · rename_i j left hst
          split at h1
          · rename_i hl
            split at h1
            · cases h1
            · rename_i ha
              obtain ⟨a, c1, c2, c3, c4, c5, c6⟩ := access_spec ops usp _ _ j (hb j left hst) ha
              cases h1
              have a4 : mgmtEdges (s.hist ++ [MgmtObs.edge i s.done s.readData] ++ [MgmtObs.access a]) = mgmtEdges (s.hist ++ [MgmtObs.edge i s.done s.readData]) := by
                rw [mgmtEdges_append]; simp [mgmtEdges]
              simp only [c1, c2, a4]; refine (congrArg (· ++ _) a3).trans ?_; simp [hst, flags, hl]
          · rename_i hl
            cases h1
            refine (congrArg (· ++ _) a3).trans ?_; simp [hst, flags, hl]

/-- The run raises no exception, if the functions asked for exist. -/
theorem run_total (usp : Bool) (I : Fn σ → Prop) (hR : ∀ f reg, I f → f.read ops reg < 2 ^ 32) (hW : ∀ f reg data be, I f → I (f.write ops reg data be)) (n : Nat)
    (es : List (MgmtEv σ)) (s : Mgmt σ) (hs : n ≤ s.fns.length ∧ ∀ f ∈ s.fns, I f)
    (he : ∀ fns, MgmtEv.env fns ∈ es → n ≤ fns.length ∧ ∀ f ∈ fns, I f)
    (hc : ∀ i, MgmtEv.clock i ∈ es → (i.read ∨ i.write) → mgmtInternal usp i = false → mgmtFn usp i < n)
    (hb : ∀ i left, s.st = .busy i left → (i.read ∨ i.write) ∧ (mgmtInternal usp i = false → mgmtFn usp i < n)) : ∃ s', run ops usp s es = .ok s' := by
  induction es generalizing s with
  | nil => exact ⟨s, rfl⟩
  | cons e es ih =>
    have hr : ∀ s1, step ops usp s e = .ok s1 → run ops usp s (e :: es) = run ops usp s1 es := fun s1 h => by simp only [run, h]
    have he' : ∀ fns, MgmtEv.env fns ∈ es → n ≤ fns.length ∧ ∀ f ∈ fns, I f := fun fns h => he fns (by simp [h])
    have hc' : ∀ i, MgmtEv.clock i ∈ es → (i.read ∨ i.write) → mgmtInternal usp i = false → mgmtFn usp i < n := fun i h => hc i (by simp [h])
    cases e with
    | env fns =>
      rw [hr _ rfl]
      exact ih _ (he fns (by simp)) he' hc' hb
    | clock i =>
      cases hst : s.st with
      | idle =>
        cases hd : s.done with
        | true => rw [hr _ (by simp only [step, clock, hst, hd]; rfl)]; exact ih _ hs he' hc' (fun i l h => by simp at h)
        | false =>
          rcases Classical.em (i.read = true ∨ i.write = true) with hq | hq
          · rw [hr _ (by simp only [step, clock, hst, hd, hq]; rfl)]
            refine ih _ hs he' hc' (fun i' l h => ?_)
            simp only [MgmtSt.busy.injEq] at h
            rw [← h.1]
            exact ⟨hq, hc i (by simp) hq⟩
          · rw [hr _ (by simp only [step, clock, hst, hd, hq]; rfl)]
            exact ih _ hs he' hc' (fun i l h => by simp at h)
      | busy j left =>
        rcases Nat.lt_or_ge 1 left with hl | hl
        · rw [hr _ (by simp only [step, clock, hst, Nat.not_le.2 hl]; rfl)]
          refine ih _ hs he' hc' (fun i' l h => ?_)
          simp only [MgmtSt.busy.injEq] at h
          rw [← h.1]
          exact hb j left hst
        · obtain ⟨hq, hf⟩ := hb j left hst
          have key : ∃ s1, access ops usp { s with hist := s.hist ++ [.edge i s.done s.readData], st := .idle } j = .ok s1 ∧
              n ≤ s1.fns.length ∧ ∀ f ∈ s1.fns, I f := by
            have e1 : j.addr >>> 10 &&& 0x7f = j.addr / 2 ^ 10 % 2 ^ 7 := by
              rw [show (0x7f : Nat) = 2 ^ 7 - 1 from rfl, Nat.and_two_pow_sub_one_eq_mod, Nat.shiftRight_eq_div_pow]
            have ht : (target usp j).1 = mgmtFn usp j := by
              unfold target mgmtFn
              cases usp <;> simp [e1]
            have hx : (¬ usp = true ∧ j.addr &&& 1 <<< 18 ≠ 0) ↔ mgmtInternal usp j = true := by
              rw [and_ne_bit]; unfold mgmtInternal; cases usp <;> simp
            unfold access
            simp only [ht, hx]
            split
            · exact ⟨_, rfl, hs⟩
            · rename_i hin
              rw [Bool.not_eq_true] at hin
              have hlt : mgmtFn usp j < s.fns.length := Nat.lt_of_lt_of_le (hf hin) hs.1
              rw [List.getElem?_eq_getElem hlt]
              have hI := hs.2 _ (List.getElem_mem hlt)
              simp only
              split
              · rw [if_pos (hR _ _ hI)]
                exact ⟨_, rfl, hs⟩
              · refine ⟨_, rfl, by simpa using hs.1, fun f hf => ?_⟩
                rcases List.mem_or_eq_of_mem_set hf with h | h
                · exact hs.2 f h
                · rw [h]; exact hW _ _ _ _ hI
          obtain ⟨s1, h1, h2⟩ := key
          have h3 : step ops usp s (.clock i) = .ok { s1 with done := true } := by
            simp only [step, clock, hst, hl, if_true]
            rw [h1]
          rw [hr _ h3]
          have h4 : s1.st = .idle := by
            obtain ⟨a, -, c2, -⟩ := access_spec ops usp _ _ j hq h1
            exact c2
          exact ih _ h2 he' hc' (fun i l h => by simp [h4] at h)

end Mgmt
end Pcie
