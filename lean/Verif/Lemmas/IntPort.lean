import Verif.Spec.IntPort
import Verif.Lemmas.Arith
import Verif.Lemmas.Bits
import Mathlib.Data.List.Forall2
/-
Lemmas for C61.
-/
namespace Pcie
open Spec

theorem issue_write {c : MsiCap} {n : Nat} {r : Nat × Nat} (h : c.issue n = .ok r) : r = msiWrite c n := by
  unfold MsiCap.issue at h
  simp only at h
  split at h
  · cases h
  · split at h
    · cases h
    · rename_i hn
      generalize hd : (if c.extCap = true ∧ c.extEnable = true then c.data else c.data &&& 65535) = d0 at h
      split at h
      · cases h
      · cases h
        have hn2 : n < 2 ^ c.mme := Nat.lt_of_lt_of_le (Nat.lt_of_not_le hn) (Nat.pow_le_pow_right (by omega) (Nat.min_le_left _ _))
        have e : c.data &&& 65535 = c.data % 2 ^ 16 := by rw [show (65535 : Nat) = 2 ^ 16 - 1 from rfl, Nat.and_two_pow_sub_one_eq_mod]
        simp only [msiWrite, ← e, hd, andNot_low]
        congr 1
        rw [Nat.mul_comm, ← Nat.two_pow_add_eq_or_of_lt hn2]

theorem issueX_write {c : MsixCap} {a d : Nat} {r : Nat × Nat} (h : c.issue a d = .ok r) : r = (a, d) := by
  unfold MsixCap.issue at h
  split at h
  · cases h
  · split at h
    · cases h
    · cases h; rfl

/-! ### Histories (Xilinx) -/

theorem intEdges_append (a b : List IntObs) : intEdges (a ++ b) = intEdges a ++ intEdges b := by simp [intEdges, List.filterMap_append]
theorem intMessages_append (a b : List IntObs) : intMessages (a ++ b) = intMessages a ++ intMessages b := by simp [intMessages, List.filterMap_append]

/-- The functions after a history, apart from pending bits. -/
def intFns (fns : List IntFn) : List IntObs → List IntFn
  | [] => fns
  | .env fns' :: h => intFns fns' h
  | _ :: h => intFns fns h

theorem intFns_append (fns : List IntFn) (a b : List IntObs) : intFns fns (a ++ b) = intFns (intFns fns a) b := by
  induction a generalizing fns with
  | nil => rfl
  | cons o a ih => cases o <;> exact ih _

theorem intExpected_append (fns : List IntFn) (a b : List IntObs) : intExpected fns (a ++ b) = intExpected fns a ++ intExpected (intFns fns a) b := by
  induction a generalizing fns with
  | nil => rfl
  | cons o a ih => cases o <;> simp only [List.cons_append, intExpected, intFns, ih, List.append_assoc]

/-- A function without its pending bits. -/
def noPend (f : IntFn) : IntFn := { f with msi := { f.msi with pending := 0 } }

theorem noPend_msi (f : IntFn) (n : Nat) : msiWrite (noPend f).msi n = msiWrite f.msi n := rfl

theorem Spec.IntProtocol.prefix {a b : List (IntIn × IntOut)} (h : IntProtocol (a ++ b)) : IntProtocol a where
  one e he := h.one e (List.mem_append_left _ he)
  wait x y k m e e' hk he he' hx hy := by
    have hm := (List.getElem?_eq_some_iff.1 he').1
    obtain ⟨j, e'', h1, h2, h3, h4⟩ := h.wait x y k m e e' hk (by rw [List.getElem?_append_left (by omega), he])
      (by rw [List.getElem?_append_left hm, he']) hx hy
    exact ⟨j, e'', h1, h2, by rwa [List.getElem?_append_left (by omega)] at h3, h4⟩

theorem Spec.IntOneHot.prefix {a b : List (IntIn × IntOut)} (h : IntOneHot (a ++ b)) : IntOneHot a := fun e he => h e (List.mem_append_left _ he)

/-- While a request of kind `x` has not been reported, there is no other request. -/
theorem no_ask {x : Bool} {E1 E2 : List (IntIn × IntOut)} {e0 e : IntIn × IntOut} (h : IntProtocol (E1 ++ e0 :: E2 ++ [e])) (h0 : IntAsks x e0.1)
    (hs : ∀ e' ∈ E2 ++ [e], intSent x e'.2 = false) (y : Bool) : ¬ IntAsks y e.1 := by
  intro hy
  have h1 : (E1 ++ e0 :: E2 ++ [e])[E1.length]? = some e0 := by simp
  have h2 : (E1 ++ e0 :: E2 ++ [e])[E1.length + 1 + E2.length]? = some e := by
    rw [List.getElem?_append_right (by simp; omega)]
    simp only [List.length_append, List.length_cons]
    rw [show E1.length + 1 + E2.length - (E1.length + (E2.length + 1)) = 0 by omega]
    rfl
  obtain ⟨j, e'', j1, j2, j3, j4⟩ := h.wait x y _ _ e0 e (by omega) h1 h2 h0 hy
  have : e'' ∈ E2 ++ [e] := by
    rw [List.append_assoc, List.cons_append, List.getElem?_append_right (by omega),
      show j - E1.length = (j - E1.length - 1) + 1 by omega, List.getElem?_cons_succ] at j3
    exact List.mem_of_getElem? j3
  rw [hs _ this] at j4
  cases j4

theorem bits_one : ∀ b < 32, IntPort.bits (2 ^ b) = [b] := by decide +kernel
theorem bits_zero : IntPort.bits 0 = [] := by decide +kernel

namespace IntPort

/-- What holds between events, if the user has followed the protocol so far. -/
structure Inv (fns0 : List IntFn) (s : IntPort) : Prop where
  fns : (intFns fns0 s.hist).map noPend = s.fns.map noPend
  msgs : intMessages s.hist = intExpected fns0 s.hist
  msi : ∀ i, s.st = .msi i → i.msixInt = false ∧ s.out.msiSent = false ∧
    ∃ E1 e0 E2, intEdges s.hist = E1 ++ e0 :: E2 ∧ IntAsks false e0.1 ∧ ∀ e ∈ E2, intSent false e.2 = false
  msix : s.st = .msix → s.out.msixSent = false ∧
    ∃ E1 e0 E2, intEdges s.hist = E1 ++ e0 :: E2 ∧ IntAsks true e0.1 ∧ ∀ e ∈ E2, intSent true e.2 = false

theorem map_get {a b : List IntFn} (h : a.map noPend = b.map noPend) (k : Nat) : (a[k]?).map noPend = (b[k]?).map noPend := by
  rw [← List.getElem?_map, ← List.getElem?_map, h]

/-- The state in `afterMsi` before the MSI-X part. -/
theorem afterMsi_spec {nx : Nat} {s s' : IntPort} {i : IntIn} (h : afterMsi nx s i = .ok s') :
    s'.fns.map noPend = s.fns.map noPend ∧ s'.out.msiSent = s.out.msiSent ∧ s'.out.msixSent = false ∧
    ((s'.st = .idle ∧ s'.hist = s.hist ∧ (i.msixInt = true → s.fns.length ≤ i.fn)) ∨
      (i.msixInt = true ∧ i.fn < s.fns.length ∧ s'.st = .msix ∧ s'.hist = s.hist ++ [.msix ⟨i.fn, i.msixAddr, i.msixData, i.attr⟩])) := by
  unfold afterMsi at h
  simp only at h
  generalize hf : (if i.pendEnable = true then
      match s.fns[i.pendFn]? with
      | some f => s.fns.set i.pendFn { f with msi := { f.msi with pending := i.pend } }
      | none => s.fns
    else s.fns) = fns at h
  have hfns : fns.map noPend = s.fns.map noPend := by
    rw [← hf]
    split
    · split
      · rename_i f he
        rw [List.map_set]
        apply List.ext_getElem?
        intro k
        rw [List.getElem?_set]
        split
        · rename_i hk
          subst hk
          have := (List.getElem?_eq_some_iff.1 he).1
          simp only [List.length_map, this, if_true, List.getElem?_map, he, Option.map_some]
          rfl
        · rfl
      · rfl
    · rfl
  have hlen : fns.length = s.fns.length := by simpa using congrArg List.length hfns
  split at h
  · rename_i hx
    split at h
    · rename_i he
      cases h
      refine ⟨hfns, rfl, rfl, .inl ⟨rfl, rfl, fun _ => ?_⟩⟩
      have := List.getElem?_eq_none_iff.1 he
      omega
    · rename_i f he
      split at h
      · cases h
      · rename_i a d hi
        cases issueX_write hi
        cases h
        have := (List.getElem?_eq_some_iff.1 he).1
        exact ⟨hfns, rfl, rfl, .inr ⟨hx, by omega, rfl, rfl⟩⟩
  · rename_i hx
    cases h
    exact ⟨hfns, rfl, rfl, .inl ⟨rfl, rfl, fun h => absurd h hx⟩⟩

theorem step_inv {nx : Nat} {fns0 : List IntFn} {s s' : IntPort} {e : IntEv} (hi : Inv fns0 s) (h : s.step nx e = some (.ok s'))
    (hp : IntProtocol (intEdges s'.hist)) (ho : IntOneHot (intEdges s'.hist)) : Inv fns0 s' := by
  cases e with
  | env fns =>
    cases h
    refine ⟨?_, ?_, ?_, ?_⟩
    · simp only [intFns_append]; rfl
    · simp only [intMessages_append, intExpected_append, hi.msgs]; rfl
    · intro i h
      obtain ⟨a, b, E1, e0, E2, c, d⟩ := hi.msi i h
      exact ⟨a, b, E1, e0, E2, by simp only [intEdges_append, c]; simp [intEdges], d⟩
    · intro h
      obtain ⟨b, E1, e0, E2, c, d⟩ := hi.msix h
      exact ⟨b, E1, e0, E2, by simp only [intEdges_append, c]; simp [intEdges], d⟩
  | taken =>
    simp only [step] at h
    split at h
    · cases h
    · rename_i i hs
      rw [Option.some_inj] at h
      obtain ⟨a, b, _⟩ := hi.msi i hs
      obtain ⟨h1, h2, h3, h4⟩ := afterMsi_spec h
      rcases h4 with ⟨h4, h5, h6⟩ | ⟨h4, _⟩
      · refine ⟨?_, ?_, ?_, ?_⟩
        · rw [h5, h1]; exact hi.fns
        · rw [h5]; exact hi.msgs
        · intro j h; rw [h4] at h; cases h
        · intro h; rw [h4] at h; cases h
      · rw [a] at h4; cases h4
    · cases h
      exact ⟨hi.fns, hi.msgs, (by intro j h; cases h), (by intro h; cases h)⟩
  | clock i =>
    simp only [step] at h
    split at h
    · rename_i hst
      -- a clock edge at which the task looks at the request
      have hb : i.msiInt ≠ 0 → ∃ b < 32, i.msiInt = 2 ^ b := by
        intro hne
        have hmem : ∃ t, intEdges s'.hist = intEdges s.hist ++ [(i, s.out)] ++ t := by
          split at h
          · rw [Option.some_inj] at h
            split at h
            · cases h
            · cases h
              exact ⟨[], by simp [intEdges_append, intEdges]⟩
          · rw [Option.some_inj] at h
            obtain ⟨_, _, _, h4⟩ := afterMsi_spec h
            rcases h4 with ⟨_, h5, _⟩ | ⟨_, _, _, h5⟩
            · exact ⟨[], by rw [h5]; simp [intEdges_append, intEdges]⟩
            · exact ⟨[], by rw [h5]; simp [intEdges_append, intEdges]⟩
        obtain ⟨t, ht⟩ := hmem
        exact ho (i, s.out) (by rw [ht]; simp) hne
      have key := fun k => map_get hi.fns k
      split at h
      · rename_i bb f hbits hf
        rw [Option.some_inj] at h
        split at h
        · cases h
        · rename_i a d hiss
          cases h
          have hne : i.msiInt ≠ 0 := by
            intro h0; rw [h0, bits_zero] at hbits; cases hbits
          obtain ⟨b, hb32, hbe⟩ := hb hne
          have hbb : bb = b := by
            rw [hbe, bits_one b hb32] at hbits
            cases hbits; rfl
          subst hbb
          have hx : i.msixInt = false := by
            have := hp.one (i, s.out) (by simp [intEdges_append, intEdges])
            cases hxx : i.msixInt
            · rfl
            · exact absurd ⟨hne, hxx⟩ this
          have hr := issue_write hiss
          have hr1 : a = (msiWrite f.msi bb).1 := congrArg Prod.fst hr
          have hr2 : d = (msiWrite f.msi bb).2 := congrArg Prod.snd hr
          refine ⟨?_, ?_, ?_, ?_⟩
          · simp only [intFns_append, intFns]; exact hi.fns
          · have hk := key i.fn
            rw [hf] at hk
            cases hg : (intFns fns0 s.hist)[i.fn]? with
            | none => rw [hg] at hk; cases hk
            | some g =>
              rw [hg] at hk
              have hk : noPend g = noPend f := Option.some.inj hk
              have hl : Nat.log2 (2 ^ bb) = bb := Nat.log2_two_pow
              simp only [intMessages_append, intExpected_append, hi.msgs, intExpected, msiAsked, msixAsked, hg, hbe, hx, hl, intFns]
              rw [← noPend_msi g, hk, noPend_msi]
              simp [intMessages, hr1, hr2]
          · intro j hj
            cases hj
            refine ⟨hx, rfl, intEdges s.hist, (i, s.out), [], ?_, hne, by simp⟩
            simp [intEdges_append, intEdges]
          · intro hj; cases hj
      · rename_i hno
        rw [Option.some_inj] at h
        obtain ⟨h1, h2, h3, h4⟩ := afterMsi_spec h
        simp only at h1 h2
        have habs : i.msiInt ≠ 0 → s.fns[i.fn]? = none := by
          intro hne
          obtain ⟨b, hb32, hbe⟩ := hb hne
          cases hf : s.fns[i.fn]? with
          | none => rfl
          | some f => exact absurd hf (hno b f (by rw [hbe, bits_one b hb32]))
        have e1 : msiAsked (intFns fns0 s.hist) i = [] := by
          unfold msiAsked
          split
          · rename_i hne
            have hk := key i.fn
            rw [habs hne] at hk
            split
            · rename_i f hf; rw [hf] at hk; cases hk
            · rfl
          · rfl
        have hlen : (intFns fns0 s.hist).length = s.fns.length := by simpa using congrArg List.length hi.fns
        rcases h4 with ⟨h4, h5, h6⟩ | ⟨h4, h6, h7, h5⟩
        · refine ⟨?_, ?_, ?_, ?_⟩
          · rw [h5, h1]; simp only [intFns_append, intFns]; exact hi.fns
          · rw [h5]
            simp only [intMessages_append, intExpected_append, hi.msgs, intExpected, e1]
            unfold msixAsked
            rw [if_neg (by intro ⟨a, b⟩; have h7 : s.fns.length ≤ i.fn := h6 a; omega)]
            simp [intMessages]
          · intro j h; rw [h4] at h; cases h
          · intro h; rw [h4] at h; cases h
        · simp only at h6
          refine ⟨?_, ?_, ?_, ?_⟩
          · rw [h5, h1]; simp only [intFns_append, intFns]; exact hi.fns
          · rw [h5]
            simp only [intMessages_append, intExpected_append, hi.msgs, intExpected, e1]
            unfold msixAsked
            rw [if_pos ⟨h4, by omega⟩]
            simp [intMessages]
          · intro j h; rw [h7] at h; cases h
          · intro _
            refine ⟨h3, intEdges s.hist, (i, s.out), [], ?_, h4, by simp⟩
            rw [h5]; simp [intEdges_append, intEdges]
    · rename_i hst
      cases h
      have hed : intEdges (s.hist ++ [.edge i s.out]) = intEdges s.hist ++ [(i, s.out)] := by simp [intEdges_append, intEdges]
      rw [hed] at hp
      -- a clock edge while a message is waiting: there is no request
      have hq : (∀ y, ¬ IntAsks y i) ∧ (∀ j, s.st = .msi j → ∃ E1 e0 E2, intEdges s.hist ++ [(i, s.out)] = E1 ++ e0 :: E2 ∧ IntAsks false e0.1 ∧
            ∀ e ∈ E2, intSent false e.2 = false) ∧
          (s.st = .msix → ∃ E1 e0 E2, intEdges s.hist ++ [(i, s.out)] = E1 ++ e0 :: E2 ∧ IntAsks true e0.1 ∧ ∀ e ∈ E2, intSent true e.2 = false) := by
        cases hs : s.st with
        | idle => exact absurd hs hst
        | msi j =>
          obtain ⟨a, b, E1, e0, E2, c, d, f⟩ := hi.msi j hs
          have hs2 : ∀ e' ∈ E2 ++ [(i, s.out)], intSent false e'.2 = false := by
            intro e' he'
            rcases List.mem_append.1 he' with he' | he'
            · exact f e' he'
            · rw [List.mem_singleton.1 he']; exact b
          rw [c] at hp
          refine ⟨no_ask hp d hs2, fun _ _ => ⟨E1, e0, E2 ++ [(i, s.out)], by rw [c]; simp, d, hs2⟩, by intro h; cases h⟩
        | msix =>
          obtain ⟨b, E1, e0, E2, c, d, f⟩ := hi.msix hs
          have hs2 : ∀ e' ∈ E2 ++ [(i, s.out)], intSent true e'.2 = false := by
            intro e' he'
            rcases List.mem_append.1 he' with he' | he'
            · exact f e' he'
            · rw [List.mem_singleton.1 he']; exact b
          rw [c] at hp
          refine ⟨no_ask hp d hs2, (by intro j h; cases h), fun _ => ⟨E1, e0, E2 ++ [(i, s.out)], by rw [c]; simp, d, hs2⟩⟩
      obtain ⟨q1, q2, q3⟩ := hq
      have n1 : ¬ i.msiInt ≠ 0 := q1 false
      have n2 : ¬ i.msixInt = true := q1 true
      refine ⟨?_, ?_, ?_, ?_⟩
      · simp only [intFns_append, intFns]; exact hi.fns
      · simp only [intMessages_append, intExpected_append, hi.msgs, intExpected, msiAsked, msixAsked, if_neg n1]
        rw [if_neg (fun h => n2 h.1)]
        simp [intMessages]
      · intro j hj
        obtain ⟨a, b, _⟩ := hi.msi j hj
        obtain ⟨E1, e0, E2, x⟩ := q2 j hj
        exact ⟨a, b, E1, e0, E2, by rw [hed]; exact x⟩
      · intro hj
        obtain ⟨b, _⟩ := hi.msix hj
        obtain ⟨E1, e0, E2, x⟩ := q3 hj
        exact ⟨b, E1, e0, E2, by rw [hed]; exact x⟩

theorem step_hist {nx : Nat} {s s' : IntPort} {e : IntEv} (h : s.step nx e = some (.ok s')) : ∃ t, s'.hist = s.hist ++ t := by
  cases e with
  | env fns => cases h; exact ⟨_, rfl⟩
  | taken =>
    simp only [step] at h
    split at h
    · cases h
    · rw [Option.some_inj] at h
      obtain ⟨_, _, _, h4⟩ := afterMsi_spec h
      rcases h4 with ⟨_, h5, _⟩ | ⟨_, _, _, h5⟩
      · exact ⟨[], by rw [h5]; simp⟩
      · exact ⟨_, h5⟩
    · cases h; exact ⟨[], by simp⟩
  | clock i =>
    simp only [step] at h
    split at h
    · split at h
      · rw [Option.some_inj] at h
        split at h
        · cases h
        · cases h; exact ⟨_, List.append_assoc _ _ _⟩
      · rw [Option.some_inj] at h
        obtain ⟨_, _, _, h4⟩ := afterMsi_spec h
        rcases h4 with ⟨_, h5, _⟩ | ⟨_, _, _, h5⟩
        · exact ⟨_, h5⟩
        · exact ⟨_, h5.trans (List.append_assoc _ _ _)⟩
    · cases h; exact ⟨_, rfl⟩

theorem run_hist {nx : Nat} {es : List IntEv} : ∀ {s s' : IntPort}, s.run nx es = some (.ok s') → ∃ t, s'.hist = s.hist ++ t := by
  induction es with
  | nil => intro s s' h; cases h; exact ⟨[], by simp⟩
  | cons e es ih =>
    intro s s' h
    simp only [run] at h
    split at h
    · cases h
    · cases h
    · rename_i s1 h1
      obtain ⟨t1, e1⟩ := step_hist h1
      obtain ⟨t2, e2⟩ := ih h
      exact ⟨t1 ++ t2, by rw [e2, e1, List.append_assoc]⟩

theorem run_append {nx : Nat} {es fs : List IntEv} : ∀ {s s' : IntPort}, s.run nx (es ++ fs) = some (.ok s') →
    ∃ m, s.run nx es = some (.ok m) ∧ m.run nx fs = some (.ok s') := by
  induction es with
  | nil => intro s s' h; exact ⟨s, rfl, h⟩
  | cons e es ih =>
    intro s s' h
    simp only [List.cons_append, run] at h ⊢
    split at h
    · cases h
    · cases h
    · rename_i s1 h1
      obtain ⟨m, e1, e2⟩ := ih h
      exact ⟨m, e1, e2⟩

theorem run_one {nx : Nat} {e : IntEv} {s s' : IntPort} (h : s.run nx [e] = some (.ok s')) : s.step nx e = some (.ok s') := by
  simp only [run] at h
  split at h
  · cases h
  · cases h
  · rename_i s1 h1
    rw [h1, h]

theorem run_inv {nx : Nat} {fns0 : List IntFn} {es : List IntEv} : ∀ {s s' : IntPort}, Inv fns0 s → s.run nx es = some (.ok s') →
    IntProtocol (intEdges s'.hist) → IntOneHot (intEdges s'.hist) → Inv fns0 s' := by
  induction es with
  | nil => intro s s' hi h _ _; cases h; exact hi
  | cons e es ih =>
    intro s s' hi h hp ho
    simp only [run] at h
    split at h
    · cases h
    · cases h
    · rename_i s1 h1
      obtain ⟨t, ht⟩ := run_hist h
      have e : intEdges s'.hist = intEdges s1.hist ++ intEdges t := by rw [ht, intEdges_append]
      exact ih (step_inv hi h1 (by rw [e] at hp; exact hp.prefix) (by rw [e] at ho; exact ho.prefix)) h hp ho

/-! ### Messages and reports -/

/-- What holds between events, whatever the user does: `n` messages have been taken by the link. -/
def Cnt (s : IntPort) (n : Nat) : Prop :=
  match s.st with
  | .idle => (intMessages s.hist).length = n
  | .msi _ => (intMessages s.hist).length = n + 1 ∧ (∃ m, (intMessages s.hist).getLast? = some (false, m)) ∧ s.out.msiSent = false
  | .msix => (intMessages s.hist).length = n + 1 ∧ (∃ m, (intMessages s.hist).getLast? = some (true, m)) ∧ s.out.msixSent = false

theorem afterMsi_cnt {nx n : Nat} {s s' : IntPort} {i : IntIn} (h : afterMsi nx s i = .ok s') (hn : (intMessages s.hist).length = n) : Cnt s' n := by
  obtain ⟨_, _, h3, h4⟩ := afterMsi_spec h
  rcases h4 with ⟨h4, h5, _⟩ | ⟨_, _, h4, h5⟩
  · simp only [Cnt, h4, h5, hn]
  · simp only [Cnt, h4, h5, h3, intMessages_append]
    refine ⟨?_, ?_, trivial⟩
    · rw [List.length_append, hn]; rfl
    · exact ⟨_, List.getLast?_append_of_ne_nil _ (by simp [intMessages])⟩

theorem step_cnt {nx n : Nat} {s s' : IntPort} {e : IntEv} (hi : Cnt s n) (h : s.step nx e = some (.ok s')) :
    Cnt s' (if e = .taken then n + 1 else n) := by
  cases e with
  | env fns =>
    cases h
    have : intMessages (s.hist ++ [IntObs.env fns]) = intMessages s.hist := by simp [intMessages]
    rw [if_neg (by simp)]
    simpa only [Cnt, this] using hi
  | taken =>
    simp only [step] at h
    split at h
    · cases h
    · rename_i hs
      rw [Option.some_inj] at h
      simp only [Cnt, hs] at hi
      exact afterMsi_cnt h hi.1
    · rename_i hs
      cases h
      simp only [Cnt, hs] at hi
      exact hi.1
  | clock i =>
    have hm : intMessages (s.hist ++ [IntObs.edge i s.out]) = intMessages s.hist := by simp [intMessages]
    simp only [step] at h
    split at h
    · rename_i hs
      simp only [Cnt, hs] at hi
      split at h
      · rw [Option.some_inj] at h
        split at h
        · cases h
        · cases h
          simp only [Cnt, intMessages_append _ [IntObs.msi _], hm]
          refine ⟨?_, ?_, trivial⟩
          · rw [List.length_append, hi]; rfl
          · exact ⟨_, List.getLast?_append_of_ne_nil _ (by simp [intMessages])⟩
      · rw [Option.some_inj] at h
        exact afterMsi_cnt h (by rw [hm]; exact hi)
    · cases h
      rw [if_neg (by simp)]
      simpa only [Cnt, hm] using hi

theorem run_cnt {nx : Nat} {es : List IntEv} : ∀ {n : Nat} {s s' : IntPort}, Cnt s n → s.run nx es = some (.ok s') → Cnt s' (n + es.count .taken) := by
  induction es with
  | nil => intro n s s' hi h; cases h; exact hi
  | cons e es ih =>
    intro n s s' hi h
    simp only [run] at h
    split at h
    · cases h
    · cases h
    · rename_i s1 h1
      have := ih (step_cnt hi h1) h
      rw [List.count_cons]
      by_cases he : e = .taken
      · simp only [he, if_true, beq_self_eq_true] at this ⊢
        rwa [Nat.add_comm (es.count _), ← Nat.add_assoc]
      · simp only [he, if_false, beq_iff_eq] at this ⊢
        exact this

/-! ### Status outputs -/

theorem bitsOf_bit (n : Nat) (p : IntFn → Bool) (fs : List IntFn) : ∀ k t, (bitsOf n p k fs).testBit t =
    (decide (k ≤ t) && decide (t < n) && (match fs[t - k]? with | some f => p f | none => false)) := by
  induction fs with
  | nil => intro k t; simp [bitsOf]
  | cons f fs ih =>
    intro k t
    simp only [bitsOf]
    split
    · rename_i hk
      rw [Nat.testBit_or, ih]
      have e1 : (if p f = true then 1 <<< k else 0).testBit t = (p f && decide (t = k)) := by
        cases p f
        · simp
        · simp only [if_true, Nat.one_shiftLeft, Nat.testBit_two_pow, Bool.true_and]
          simp only [eq_comm]
      rw [e1]
      by_cases h : t = k
      · subst h
        simp only [Nat.le_refl, hk, Nat.sub_self, List.getElem?_cons_zero, decide_true, Bool.and_true, Bool.true_and]
        rw [decide_eq_false (by omega : ¬ t + 1 ≤ t)]
        simp
      · by_cases h2 : k ≤ t
        · rw [show t - k = (t - (k + 1)) + 1 by omega, List.getElem?_cons_succ]
          have h3 : k + 1 ≤ t := by omega
          simp [h, h2, h3]
        · have h3 : ¬ k + 1 ≤ t := by omega
          simp [h, h2, h3]
    · have : ¬ (k ≤ t ∧ t < n) := by omega
      rw [Nat.zero_testBit]
      cases h1 : decide (k ≤ t) <;> cases h2 : decide (t < n) <;> try simp only [Bool.false_and, Bool.and_false]
      exact absurd ⟨of_decide_eq_true h1, of_decide_eq_true h2⟩ this

theorem mmBits_field (fs : List IntFn) : ∀ k < 2, mmBits 2 0 fs / 8 ^ k % 8 = match fs[k]? with | some f => f.msi.mme % 8 | none => 0 := by
  have e7 : ∀ x : Nat, x &&& 7 = x % 8 := fun x => Nat.and_two_pow_sub_one_eq_mod x 3
  have hor : ∀ a b : Nat, a % 8 ||| (b % 8) <<< 3 = a % 8 + 8 * (b % 8) := by
    intro a b
    have := @Nat.two_pow_add_eq_or_of_lt 3 (a % 8) (by omega) (b % 8)
    rw [Nat.or_comm, Nat.shiftLeft_eq, Nat.mul_comm, ← this]; omega
  intro k hk
  match fs with
  | [] => simp [mmBits]
  | [f] =>
    simp only [mmBits, e7]
    rcases (by omega : k = 0 ∨ k = 1) with rfl | rfl <;> simp <;> omega
  | f :: g :: [] =>
    simp only [mmBits, e7]
    have h1 : f.msi.mme % 8 < 8 := Nat.mod_lt _ (by omega)
    have h2 : g.msi.mme % 8 < 8 := Nat.mod_lt _ (by omega)
    simp only [Nat.zero_mul, Nat.zero_add, Nat.one_mul, Nat.shiftLeft_zero, hor, Nat.or_zero, Nat.lt_irrefl, if_true, if_false, Nat.one_lt_two, Nat.zero_lt_two]
    rcases (by omega : k = 0 ∨ k = 1) with rfl | rfl
    · show _ = f.msi.mme % 8
      generalize f.msi.mme % 8 = x at *
      generalize g.msi.mme % 8 = y at *
      simp
      omega
    · show _ = g.msi.mme % 8
      generalize f.msi.mme % 8 = x at *
      generalize g.msi.mme % 8 = y at *
      simp
      omega
  | f :: g :: h :: fs =>
    simp only [mmBits, e7]
    have h1 : f.msi.mme % 8 < 8 := Nat.mod_lt _ (by omega)
    have h2 : g.msi.mme % 8 < 8 := Nat.mod_lt _ (by omega)
    simp only [Nat.zero_mul, Nat.zero_add, Nat.one_mul, Nat.shiftLeft_zero, hor, Nat.or_zero, Nat.lt_irrefl, if_true, if_false, Nat.one_lt_two, Nat.zero_lt_two]
    rcases (by omega : k = 0 ∨ k = 1) with rfl | rfl
    · show _ = f.msi.mme % 8
      generalize f.msi.mme % 8 = x at *
      generalize g.msi.mme % 8 = y at *
      simp
      omega
    · show _ = g.msi.mme % 8
      generalize f.msi.mme % 8 = x at *
      generalize g.msi.mme % 8 = y at *
      simp
      omega

end IntPort

/-! ### Intel -/

theorem appEdges_append (a b : List AppObs) : appEdges (a ++ b) = appEdges a ++ appEdges b := by simp [appEdges, List.filterMap_append]
theorem appMessages_append (a b : List AppObs) : appMessages (a ++ b) = appMessages a ++ appMessages b := by simp [appMessages, List.filterMap_append]
theorem appAcked_append (a b : List AppObs) : appAcked (a ++ b) = appAcked a ++ appAcked b := by simp [appAcked, appEdges_append, List.filterMap_append]

/-- The functions after a history. -/
def appFns (fns : List IntFn) : List AppObs → List IntFn
  | [] => fns
  | .env fns' :: h => appFns fns' h
  | _ :: h => appFns fns h

/-- Whether there was a request at the last clock edge. -/
def appBusy (busy : Bool) : List AppObs → Bool
  | [] => busy
  | .edge i _ :: h => appBusy i.req h
  | _ :: h => appBusy busy h

theorem appFns_append (fns : List IntFn) (a b : List AppObs) : appFns fns (a ++ b) = appFns (appFns fns a) b := by
  induction a generalizing fns with
  | nil => rfl
  | cons o a ih => cases o <;> exact ih _
theorem appBusy_append (busy : Bool) (a b : List AppObs) : appBusy busy (a ++ b) = appBusy (appBusy busy a) b := by
  induction a generalizing busy with
  | nil => rfl
  | cons o a ih => cases o <;> exact ih _
theorem appExpected_append (fns : List IntFn) (busy : Bool) (a b : List AppObs) :
    appExpected fns busy (a ++ b) = appExpected fns busy a ++ appExpected (appFns fns a) (appBusy busy a) b := by
  induction a generalizing fns busy with
  | nil => rfl
  | cons o a ih => cases o <;> simp only [List.cons_append, appExpected, appFns, appBusy, ih, List.append_assoc]

theorem Spec.AppProtocol.prefix {a b : List (AppIn × Bool)} (h : AppProtocol (a ++ b)) : AppProtocol a where
  hold k e e' he he' := h.hold k e e' (by rw [List.getElem?_append_left (List.getElem?_eq_some_iff.1 he).1, he])
    (by rw [List.getElem?_append_left (List.getElem?_eq_some_iff.1 he').1, he'])
  drop k e e' he he' := h.drop k e e' (by rw [List.getElem?_append_left (List.getElem?_eq_some_iff.1 he).1, he])
    (by rw [List.getElem?_append_left (List.getElem?_eq_some_iff.1 he').1, he'])

theorem Spec.AppProtocol.holdLast {a : List (AppIn × Bool)} {e e' : AppIn × Bool} (h : AppProtocol (a ++ [e'])) (hl : a.getLast? = some e)
    (hr : e.1.req = true) (hd : e.2 = false) : e'.1 = e.1 := by
  obtain ⟨b, rfl⟩ := List.getLast?_eq_some_iff.1 hl
  exact h.hold b.length e e' (by simp) (by simp) hr hd

theorem Spec.AppProtocol.dropLast {a : List (AppIn × Bool)} {e e' : AppIn × Bool} (h : AppProtocol (a ++ [e'])) (hl : a.getLast? = some e)
    (hr : e.1.req = true) (hd : e.2 = true) : e'.1.req = false := by
  obtain ⟨b, rfl⟩ := List.getLast?_eq_some_iff.1 hl
  exact h.drop b.length e e' (by simp) (by simp) hr hd

namespace AppMsi

/-- What holds between events, if the user has followed the protocol so far. -/
structure Inv (fns0 : List IntFn) (s : AppMsi) : Prop where
  fns : appFns fns0 s.hist = s.fns
  msgs : appMessages s.hist = appExpected fns0 false s.hist
  st : match s.st with
    | .wait => appBusy false s.hist = false ∧ s.ack = false ∧ List.Forall₂ AppMatches (appAcked s.hist) (appMessages s.hist)
    | .sending => appBusy false s.hist = true ∧ s.ack = false ∧ ∃ i ms m, (appEdges s.hist).getLast? = some (i, false) ∧ AppMatches i m ∧ appMessages s.hist = ms ++ [m] ∧
        List.Forall₂ AppMatches (appAcked s.hist) ms
    | .acked => appBusy false s.hist = true ∧ s.ack = true ∧ ∃ i ms m, (appEdges s.hist).getLast? = some (i, false) ∧ AppMatches i m ∧ appMessages s.hist = ms ++ [m] ∧
        List.Forall₂ AppMatches (appAcked s.hist) ms
    | .release => appBusy false s.hist = true ∧ s.ack = false ∧ (∃ i, i.req = true ∧ (appEdges s.hist).getLast? = some (i, true)) ∧
        List.Forall₂ AppMatches (appAcked s.hist) (appMessages s.hist)

theorem edge_same (h : List AppObs) (i : AppIn) (a : Bool) : appMessages (h ++ [.edge i a]) = appMessages h := by simp [appMessages]
theorem edge_edges (h : List AppObs) (i : AppIn) (a : Bool) : appEdges (h ++ [.edge i a]) = appEdges h ++ [(i, a)] := by simp [appEdges]
theorem edge_acked (h : List AppObs) (i : AppIn) (a : Bool) : appAcked (h ++ [.edge i a]) = appAcked h ++ if a then [i] else [] := by
  rw [appAcked_append]; cases a <;> simp [appAcked, appEdges]
theorem edge_busy (h : List AppObs) (i : AppIn) (a : Bool) : appBusy false (h ++ [.edge i a]) = i.req := by rw [appBusy_append]; rfl
theorem edge_expected (fns0 : List IntFn) (h : List AppObs) (i : AppIn) (a : Bool) (hb : i.req = false ∨ appBusy false h = true) :
    appExpected fns0 false (h ++ [.edge i a]) = appExpected fns0 false h := by
  rw [appExpected_append]
  simp only [appExpected]
  rw [if_neg]
  · simp
  · rcases hb with hb | hb <;> simp [hb]

theorem step_inv {fns0 : List IntFn} {s s' : AppMsi} {e : AppEv} (hi : Inv fns0 s) (h : s.step e = some (.ok s'))
    (hp : AppProtocol (appEdges s'.hist)) : Inv fns0 s' := by
  cases e with
  | env fns =>
    cases h
    have e1 : appMessages (s.hist ++ [.env fns]) = appMessages s.hist := by simp [appMessages]
    have e2 : appEdges (s.hist ++ [.env fns]) = appEdges s.hist := by simp [appEdges]
    have e3 : appAcked (s.hist ++ [.env fns]) = appAcked s.hist := by unfold appAcked; rw [e2]
    have e4 : appBusy false (s.hist ++ [.env fns]) = appBusy false s.hist := by rw [appBusy_append]; rfl
    refine ⟨by simp only [appFns_append]; rfl, ?_, ?_⟩
    · simp only [e1, hi.msgs, appExpected_append, appExpected, List.append_nil]
    · simpa only [e1, e2, e3, e4] using hi.st
  | taken =>
    simp only [step] at h
    split at h
    · rename_i hs
      cases h
      have := hi.st
      simp only [hs] at this
      exact ⟨hi.fns, hi.msgs, this.1, rfl, this.2.2⟩
    · cases h
  | clock i =>
    have hst := hi.st
    simp only [step] at h
    have hf : appFns fns0 (s.hist ++ [.edge i s.ack]) = s.fns := by rw [appFns_append]; exact hi.fns
    split at h
    · rename_i hs
      simp only [hs] at hst
      obtain ⟨b1, b2, b3⟩ := hst
      split at h
      · rename_i hr
        split at h
        · cases h
        · rename_i f hg
          split at h
          · cases h
          · rename_i a d hiss
            rw [Option.some_inj] at h
            cases h
            have hw := issue_write hiss
            have hr1 : a = (msiWrite f.msi i.num).1 := congrArg Prod.fst hw
            have hr2 : d = (msiWrite f.msi i.num).2 := congrArg Prod.snd hw
            have e1 : ∀ m, appMessages (s.hist ++ [.edge i s.ack] ++ [.msi m]) = appMessages s.hist ++ [m] := by intro m; simp [appMessages]
            have e2 : ∀ m, appEdges (s.hist ++ [.edge i s.ack] ++ [.msi m]) = appEdges s.hist ++ [(i, s.ack)] := by intro m; simp [appEdges]
            have e3 : ∀ m, appAcked (s.hist ++ [.edge i s.ack] ++ [.msi m]) = appAcked s.hist := by
              intro m; unfold appAcked; rw [e2, b2]; simp
            have e4 : ∀ m, appBusy false (s.hist ++ [.edge i s.ack] ++ [.msi m]) = true := by
              intro m; rw [appBusy_append, edge_busy, hr]; rfl
            refine ⟨by rw [appFns_append]; exact hf, ?_, ?_⟩
            · rw [e1, hi.msgs]
              simp only [appExpected_append, appExpected, b1, hi.fns, hr, hg, hr1, hr2]
              simp
            · simp only [e1, e2, e3, e4]
              exact ⟨trivial, b2, i, _, _, by rw [b2]; simp, ⟨hr, rfl, rfl⟩, rfl, b3⟩
      · rename_i hr
        cases h
        rw [Bool.not_eq_true] at hr
        refine ⟨hf, ?_, ?_⟩
        · rw [edge_same, edge_expected _ _ _ _ (.inl hr), hi.msgs]
        · simp only [hs, edge_same, edge_acked, edge_busy, b2]
          exact ⟨hr, trivial, by simpa using b3⟩
    · rename_i hs
      cases h
      simp only [hs] at hst
      obtain ⟨b1, b2, j, ms, m, b3, b4, b5, b6⟩ := hst
      rw [edge_edges] at hp
      have hij : i = j := hp.holdLast b3 b4.1 rfl
      subst hij
      refine ⟨hf, ?_, ?_⟩
      · rw [edge_same, edge_expected _ _ _ _ (.inr b1), hi.msgs]
      · simp only [hs, edge_same, edge_acked, edge_busy, edge_edges, b2]
        exact ⟨b4.1, trivial, i, ms, m, by simp, b4, b5, by simpa using b6⟩
    · rename_i hs
      cases h
      simp only [hs] at hst
      obtain ⟨b1, b2, j, ms, m, b3, b4, b5, b6⟩ := hst
      rw [edge_edges] at hp
      have hij : i = j := hp.holdLast b3 b4.1 rfl
      subst hij
      refine ⟨hf, ?_, ?_⟩
      · rw [edge_same, edge_expected _ _ _ _ (.inr b1), hi.msgs]
      · simp only [b4.1, if_true, edge_same, edge_acked, edge_busy, edge_edges, b2]
        refine ⟨trivial, trivial, ⟨i, b4.1, by simp⟩, ?_⟩
        rw [b5]
        exact List.rel_append b6 (.cons b4 .nil)
    · rename_i hs
      cases h
      simp only [hs] at hst
      obtain ⟨b1, b2, ⟨j, b3, b4⟩, b5⟩ := hst
      rw [edge_edges] at hp
      have hr : i.req = false := hp.dropLast b4 b3 rfl
      refine ⟨hf, ?_, ?_⟩
      · rw [edge_same, edge_expected _ _ _ _ (.inl hr), hi.msgs]
      · simp only [hr, edge_same, edge_acked, edge_busy, b2]
        exact ⟨trivial, trivial, by simpa using b5⟩

theorem step_hist {s s' : AppMsi} {e : AppEv} (h : s.step e = some (.ok s')) : ∃ t, s'.hist = s.hist ++ t := by
  cases e with
  | env fns => cases h; exact ⟨_, rfl⟩
  | taken =>
    simp only [step] at h
    split at h
    · cases h; exact ⟨[], by simp⟩
    · cases h
  | clock i =>
    simp only [step] at h
    split at h
    · split at h
      · split at h
        · cases h
        · split at h
          · cases h
          · cases h; exact ⟨_, List.append_assoc _ _ _⟩
      · cases h; exact ⟨_, rfl⟩
    all_goals cases h; exact ⟨_, rfl⟩

theorem clock_edges {s s' : AppMsi} {i : AppIn} (h : s.step (.clock i) = some (.ok s')) : appEdges s'.hist = appEdges s.hist ++ [(i, s.ack)] := by
  simp only [step] at h
  split at h
  · split at h
    · split at h
      · cases h
      · split at h
        · cases h
        · cases h; simp [appEdges]
    · cases h; simp [appEdges]
  all_goals cases h; simp [appEdges]

theorem run_hist {es : List AppEv} : ∀ {s s' : AppMsi}, s.run es = some (.ok s') → ∃ t, s'.hist = s.hist ++ t := by
  induction es with
  | nil => intro s s' h; cases h; exact ⟨[], by simp⟩
  | cons e es ih =>
    intro s s' h
    simp only [run] at h
    split at h
    · cases h
    · cases h
    · rename_i s1 h1
      obtain ⟨t1, e1⟩ := step_hist h1
      obtain ⟨t2, e2⟩ := ih h
      exact ⟨t1 ++ t2, by rw [e2, e1, List.append_assoc]⟩

theorem run_inv {fns0 : List IntFn} {es : List AppEv} : ∀ {s s' : AppMsi}, Inv fns0 s → s.run es = some (.ok s') →
    AppProtocol (appEdges s'.hist) → Inv fns0 s' := by
  induction es with
  | nil => intro s s' hi h _; cases h; exact hi
  | cons e es ih =>
    intro s s' hi h hp
    simp only [run] at h
    split at h
    · cases h
    · cases h
    · rename_i s1 h1
      obtain ⟨t, ht⟩ := run_hist h
      have e : appEdges s'.hist = appEdges s1.hist ++ appEdges t := by rw [ht, appEdges_append]
      exact ih (step_inv hi h1 (by rw [e] at hp; exact hp.prefix)) h hp

end AppMsi
end Pcie
