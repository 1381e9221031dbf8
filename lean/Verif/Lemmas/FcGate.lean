import Verif.Spec.FcGate
/-
Invariants of the flow control gate.
-/
namespace Pcie
open Pcie.Spec

theorem gateAsked_append : ∀ (a b : List GateEv), gateAsked (a ++ b) = gateAsked a ++ gateAsked b
  | [], _ => rfl
  | .call t :: a, b => by simp [gateAsked, gateAsked_append a b]
  | .update _ _ :: a, b => by simp [gateAsked, gateAsked_append a b]
  | .wake :: a, b => by simp [gateAsked, gateAsked_append a b]
theorem gateHdr_append : ∀ (a b : List GateEv), gateHdr (a ++ b) = gateHdr a + gateHdr b
  | [], _ => by simp [gateHdr]
  | .call t :: a, b => by simp [gateHdr, gateHdr_append a b]
  | .update _ _ :: a, b => by simp only [List.cons_append, gateHdr, gateHdr_append a b]; omega
  | .wake :: a, b => by simp [gateHdr, gateHdr_append a b]
theorem gateData_append : ∀ (a b : List GateEv), gateData (a ++ b) = gateData a + gateData b
  | [], _ => by simp [gateData]
  | .call t :: a, b => by simp [gateData, gateData_append a b]
  | .update _ _ :: a, b => by simp only [List.cons_append, gateData, gateData_append a b]; omega
  | .wake :: a, b => by simp [gateData, gateData_append a b]

theorem dcSum_append (a b : List GateTlp) : dcSum (a ++ b) = dcSum a + dcSum b := by simp [dcSum]
theorem dcSum_perm {a b : List GateTlp} (h : a.Perm b) : dcSum a = dcSum b := (h.map _).sum_nat

/-- Credits available plus credits used are the credits granted. -/
def Balance (a₀ a : Option Nat) (used granted : Nat) : Prop := (∀ x, a₀ = some x → ∃ y, a = some y ∧ y + used = x + granted) ∧ (a₀ = none → a = none)

theorem Balance.use {a₀ a : Option Nat} {u g k : Nat} (h : Balance a₀ a u g) (hk : a.all (fun x => decide (k ≤ x)) = true) : Balance a₀ (a.map (· - k)) (u + k) g := by
  refine ⟨fun x hx => ?_, fun hx => by rw [h.2 hx]; rfl⟩
  obtain ⟨y, rfl, hy⟩ := h.1 x hx
  simp only [Option.all_some, decide_eq_true_eq] at hk
  exact ⟨y - k, rfl, by omega⟩

theorem Balance.grant {a₀ a : Option Nat} {u g k : Nat} (h : Balance a₀ a u g) : Balance a₀ (a.map (· + k)) u (g + k) := by
  refine ⟨fun x hx => ?_, fun hx => by rw [h.2 hx]; rfl⟩
  obtain ⟨y, rfl, hy⟩ := h.1 x hx
  exact ⟨y + k, rfl, by omega⟩

theorem Balance.le {a₀ a : Option Nat} {u g : Nat} (h : Balance a₀ a u g) {x : Nat} (hx : a₀ = some x) : u ≤ x + g := by
  obtain ⟨y, _, hy⟩ := h.1 x hx
  omega

theorem Balance.enough {a₀ a : Option Nat} {u g k : Nat} (h : Balance a₀ a u g) (hk : ∀ x, a₀ = some x → u + k ≤ x + g) : a.all (fun x => decide (k ≤ x)) = true := by
  cases h0 : a₀ with
  | none => rw [h.2 h0]; rfl
  | some x =>
    obtain ⟨y, rfl, hy⟩ := h.1 x h0
    have := hk x h0
    simp only [Option.all_some, decide_eq_true_eq]
    omega

structure GateInv (h₀ d₀ : Option Nat) (es : List GateEv) (g : Gate) : Prop where
  perm : (g.sent ++ (g.woken ++ g.waiting)).Perm (gateAsked es)
  hdr : Balance h₀ g.hdr g.sent.length (gateHdr es)
  data : Balance d₀ g.data (dcSum g.sent) (gateData es)
  closed : ∀ t ∈ g.waiting, g.has t = false

theorem GateInv.fresh (h₀ d₀ : Option Nat) : GateInv h₀ d₀ [] (Gate.fresh h₀ d₀) :=
  ⟨.refl _, ⟨fun x hx => ⟨x, hx, rfl⟩, fun h => h⟩, ⟨fun x hx => ⟨x, hx, rfl⟩, fun h => h⟩, fun _ h => (by cases h)⟩

theorem Gate.has_iff {g : Gate} {t : GateTlp} : g.has t = true ↔ g.hdr.all (fun h => decide (1 ≤ h)) = true ∧ g.data.all (fun d => decide (t.dc ≤ d)) = true := by
  simp only [Gate.has, Bool.and_eq_true, Nat.succ_le_iff]

/-- Who has no credits has none after another one took some. -/
theorem Gate.has_consume {g : Gate} {t u : GateTlp} (h : g.has t = false) : (g.consume u).has t = false := by
  cases hh : (g.consume u).has t with
  | false => rfl
  | true =>
    rw [← h]
    symm
    rw [Gate.has_iff] at hh ⊢
    simp only [Gate.consume] at hh
    constructor
    · cases hg : g.hdr with
      | none => rfl
      | some x =>
        have := hh.1
        simp only [hg, Option.map_some, Option.all_some, decide_eq_true_eq] at this ⊢
        omega
    · cases hg : g.data with
      | none => rfl
      | some x =>
        have := hh.2
        simp only [hg, Option.map_some, Option.all_some, decide_eq_true_eq] at this ⊢
        omega

theorem GateInv.consume {h₀ d₀ : Option Nat} {es es' : List GateEv} {g g' : Gate} {t : GateTlp} (hh : Balance h₀ g.hdr g.sent.length (gateHdr es)) (hd : Balance d₀ g.data (dcSum g.sent) (gateData es))
    (ht : g.has t = true) (e1 : gateHdr es' = gateHdr es) (e2 : gateData es' = gateData es) (hg : g' = g.consume t) :
    Balance h₀ g'.hdr g'.sent.length (gateHdr es') ∧ Balance d₀ g'.data (dcSum g'.sent) (gateData es') := by
  subst hg
  rw [e1, e2]
  obtain ⟨h1, h2⟩ := Gate.has_iff.1 ht
  refine ⟨?_, ?_⟩
  · simpa [Gate.consume] using hh.use h1
  · have := hd.use h2
    simp only [Gate.consume, dcSum_append]
    simpa [dcSum] using this

theorem GateInv.step {h₀ d₀ : Option Nat} {es : List GateEv} {g g' : Gate} {e : GateEv} (h : GateInv h₀ d₀ es g) (hs : g.step e = some g') : GateInv h₀ d₀ (es ++ [e]) g' := by
  obtain ⟨hp, hh, hd, hc⟩ := h
  cases e with
  | call t =>
    simp only [Gate.step, Option.some.injEq] at hs
    have e1 : gateHdr (es ++ [.call t]) = gateHdr es := by simp [gateHdr_append, gateHdr]
    have e2 : gateData (es ++ [.call t]) = gateData es := by simp [gateData_append, gateData]
    have e3 : gateAsked (es ++ [.call t]) = gateAsked es ++ [t] := by simp [gateAsked_append, gateAsked]
    split at hs
    · next ht =>
      obtain ⟨b1, b2⟩ := GateInv.consume hh hd ht e1 e2 hs.symm
      subst hs
      refine ⟨?_, b1, b2, fun x hx => Gate.has_consume (hc x hx)⟩
      rw [e3]
      simp only [Gate.consume]
      refine List.Perm.trans ?_ (hp.append_right [t])
      rw [List.append_assoc, List.append_assoc]
      exact List.Perm.append_left _ List.perm_append_comm
    · next ht =>
      subst hs
      refine ⟨?_, by rw [e1]; exact hh, by rw [e2]; exact hd, fun x hx => ?_⟩
      · rw [e3]
        simp only [← List.append_assoc] at hp ⊢
        exact hp.append_right [t]
      · rcases List.mem_append.1 hx with hx | hx
        · exact hc x hx
        · rw [List.mem_singleton.1 hx]
          exact Bool.eq_false_iff.2 ht
  | update a b =>
    simp only [Gate.step, Option.some.injEq] at hs
    subst hs
    have e1 : gateHdr (es ++ [.update a b]) = gateHdr es + a := by simp [gateHdr_append, gateHdr]
    have e2 : gateData (es ++ [.update a b]) = gateData es + b := by simp [gateData_append, gateData]
    have e3 : gateAsked (es ++ [.update a b]) = gateAsked es := by simp [gateAsked_append, gateAsked]
    refine ⟨?_, by rw [e1]; exact hh.grant, by rw [e2]; exact hd.grant, fun _ hx => by cases hx⟩
    rw [e3]
    simpa using hp
  | wake =>
    have e1 : gateHdr (es ++ [.wake]) = gateHdr es := by simp [gateHdr_append, gateHdr]
    have e2 : gateData (es ++ [.wake]) = gateData es := by simp [gateData_append, gateData]
    have e3 : gateAsked (es ++ [.wake]) = gateAsked es := by simp [gateAsked_append, gateAsked]
    simp only [Gate.step] at hs
    split at hs
    · cases hs
    · next t r hw =>
      simp only [Option.some.injEq] at hs
      split at hs
      · next ht =>
        obtain ⟨b1, b2⟩ := GateInv.consume (g := { g with woken := r }) hh hd ht e1 e2 hs.symm
        subst hs
        refine ⟨?_, b1, b2, fun x hx => ?_⟩
        · rw [e3]
          simp only [Gate.consume]
          rw [hw] at hp
          simpa using hp
        · exact Gate.has_consume (g := { g with woken := r }) (hc x hx)
      · next ht =>
        subst hs
        refine ⟨?_, by rw [e1]; exact hh, by rw [e2]; exact hd, fun x hx => ?_⟩
        · rw [e3]
          rw [hw] at hp
          refine List.Perm.trans (List.Perm.append_left _ ?_) hp
          show (r ++ (g.waiting ++ [t])).Perm (t :: r ++ g.waiting)
          rw [← List.append_assoc]
          exact List.perm_append_comm
        · rcases List.mem_append.1 hx with hx | hx
          · exact hc x hx
          · rw [List.mem_singleton.1 hx]
            exact Bool.eq_false_iff.2 ht

theorem GateInv.run {h₀ d₀ : Option Nat} : ∀ (es past : List GateEv) (g g' : Gate), GateInv h₀ d₀ past g → g.run es = some g' → GateInv h₀ d₀ (past ++ es) g'
  | [], past, g, g', h, hr => by
    simp only [Gate.run, Option.some.injEq] at hr
    subst hr
    simpa using h
  | e :: es, past, g, g', h, hr => by
    rw [Gate.run, Option.bind_eq_some_iff] at hr
    obtain ⟨k, hk, hr⟩ := hr
    have := GateInv.run es (past ++ [e]) k g' (h.step hk) hr
    simpa using this

/-! ### TLPs of the same size -/

theorem Gate.has_size {g : Gate} {t u : GateTlp} (h : t.dc = u.dc) : g.has t = g.has u := by simp only [Gate.has, h]

/-- In a calm history: those that have checked again and found no credits come before those that are about to check again. -/
theorem GateInv.order_step {h₀ d₀ : Option Nat} {es : List GateEv} {c : Nat} {g g' : Gate} {e : GateEv} (h : GateInv h₀ d₀ es g) (hsz : ∀ t ∈ gateAsked (es ++ [e]), t.dc = c)
    (ho : g.sent ++ (g.waiting ++ g.woken) = gateAsked es) (hcalm : e ≠ .wake → g.woken = []) (hs : g.step e = some g') : g'.sent ++ (g'.waiting ++ g'.woken) = gateAsked (es ++ [e]) := by
  have hempty : ∀ t, t.dc = c → g.has t = true → g.waiting = [] := by
    intro t htc ht
    cases hw : g.waiting with
    | nil => rfl
    | cons x l =>
      have hx : x ∈ gateAsked (es ++ [e]) := by rw [gateAsked_append, ← ho, hw]; simp
      have := h.closed x (by rw [hw]; simp)
      rw [Gate.has_size (u := t) ((hsz x hx).trans htc.symm), ht] at this
      cases this
  rw [gateAsked_append, ← ho]
  cases e with
  | call t =>
    have hw := hcalm (by simp)
    have htc : t.dc = c := hsz t (by rw [gateAsked_append]; simp [gateAsked])
    simp only [Gate.step, Option.some.injEq] at hs
    split at hs
    · next ht =>
      subst hs
      simp [Gate.consume, hw, hempty t htc ht, gateAsked]
    · subst hs
      simp [hw, gateAsked]
  | update a b =>
    have hw := hcalm (by simp)
    simp only [Gate.step, Option.some.injEq] at hs
    subst hs
    simp [hw, gateAsked]
  | wake =>
    simp only [Gate.step] at hs
    split at hs
    · cases hs
    · next t r hw =>
      have htc : t.dc = c := hsz t (by rw [gateAsked_append, ← ho, hw]; simp)
      simp only [Option.some.injEq] at hs
      split at hs
      · next ht =>
        subst hs
        have ht' : g.has t = true := ht
        simp [Gate.consume, hw, hempty t htc ht', gateAsked]
      · subst hs
        simp [hw, gateAsked]

theorem GateInv.order_run {h₀ d₀ : Option Nat} {c : Nat} : ∀ (es past : List GateEv) (g g' : Gate), GateInv h₀ d₀ past g → (∀ t ∈ gateAsked (past ++ es), t.dc = c) →
    g.sent ++ (g.waiting ++ g.woken) = gateAsked past → CalmFrom g es → g.run es = some g' → g'.sent ++ (g'.waiting ++ g'.woken) = gateAsked (past ++ es)
  | [], past, g, g', _, _, ho, _, hr => by
    simp only [Gate.run, Option.some.injEq] at hr
    subst hr
    simpa using ho
  | e :: es, past, g, g', h, hsz, ho, hc, hr => by
    rw [Gate.run, Option.bind_eq_some_iff] at hr
    obtain ⟨k, hk, hr⟩ := hr
    have hsz' : ∀ t ∈ gateAsked ((past ++ [e]) ++ es), t.dc = c := by simpa using hsz
    have := GateInv.order_run es (past ++ [e]) k g' (h.step hk) hsz' (h.order_step (fun t ht => hsz' t (by rw [gateAsked_append]; exact List.mem_append_left _ ht)) ho hc.1 hk) (hc.2 k hk) hr
    simpa using this

/-! ### A TLP that waits forever -/

/-- A write of 128 bytes waits; a write of 4 bytes is sent, credits for another one come back, and the first finds again that there are too few. -/
def bigTlp : GateTlp := ⟨0, 8⟩
def smallTlp : GateTlp := ⟨1, 1⟩
def starveTurns : Nat → List GateEv
  | 0 => []
  | k + 1 => [.call smallTlp, .update 1 1, .wake] ++ starveTurns k

def starving (l : List GateTlp) : Gate := ⟨some 7, some 7, [], [bigTlp], l⟩

theorem starve_turn (l : List GateTlp) (es : List GateEv) : (starving l).run ([.call smallTlp, .update 1 1, .wake] ++ es) = (starving (l ++ [smallTlp])).run es := rfl

theorem starve_calm (l : List GateTlp) (es : List GateEv) (h : CalmFrom (starving (l ++ [smallTlp])) es) : CalmFrom (starving l) ([.call smallTlp, .update 1 1, .wake] ++ es) := by
  refine ⟨fun _ => rfl, fun g hg => ?_⟩
  cases hg
  refine ⟨fun _ => rfl, fun g hg => ?_⟩
  cases hg
  refine ⟨fun h => absurd rfl h, fun g hg => ?_⟩
  cases hg
  exact h

theorem starve_run : ∀ (k : Nat) (l : List GateTlp), (starving l).run (starveTurns k) = some (starving (l ++ List.replicate k smallTlp)) ∧ CalmFrom (starving l) (starveTurns k)
  | 0, l => ⟨by simp [starveTurns, Gate.run], trivial⟩
  | k + 1, l => by
    obtain ⟨h1, h2⟩ := starve_run k (l ++ [smallTlp])
    refine ⟨?_, starve_calm l _ h2⟩
    rw [starveTurns, starve_turn, h1, List.append_assoc]
    rfl

theorem starve_data : ∀ k, gateData (starveTurns k) = k
  | 0 => rfl
  | k + 1 => by
    have := starve_data k
    simp only [starveTurns, List.cons_append, List.nil_append, gateData]
    omega

end Pcie
