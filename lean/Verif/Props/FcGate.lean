import Verif.Lemmas.FcGate
/-
C86: tasks that wait for flow control credits.
-/
namespace Pcie
open Pcie.Spec

/-- **C86**: every TLP that a task asked to send has been sent or is waiting, exactly once; and what has been sent is covered by the credits that were granted. -/
theorem C86_exactly_once {h₀ d₀ : Option Nat} {es : List GateEv} {g : Gate} (hr : (Gate.fresh h₀ d₀).run es = some g) :
    (g.sent ++ (g.woken ++ g.waiting)).Perm (gateAsked es) ∧ Covers h₀ d₀ es g.sent := by
  have h := GateInv.run es [] _ g (.fresh h₀ d₀) hr
  exact ⟨h.perm, fun x hx => h.hdr.le hx, fun x hx => h.data.le hx⟩

/-- **C86**: no wake-up is lost: once the woken tasks have run, no task sleeps although there are credits for its TLP. -/
theorem C86_no_lost_wakeup {h₀ d₀ : Option Nat} {es : List GateEv} {g : Gate} (hr : (Gate.fresh h₀ d₀).run es = some g) (hw : NoneWoken g) {t : GateTlp} (ht : t ∈ gateAsked es) (hns : t ∉ g.sent) :
    ¬Covers h₀ d₀ es (g.sent ++ [t]) := by
  intro hc
  have h := GateInv.run es [] _ g (.fresh h₀ d₀) hr
  have hm : t ∈ g.waiting := by
    have := h.perm.mem_iff.2 ht
    rw [show g.woken = [] from hw] at this
    simpa [hns] using this
  have hno := h.closed t hm
  have hyes : g.has t = true := Gate.has_iff.2
    ⟨h.hdr.enough fun x hx => by simpa using hc.1 x hx, h.data.enough fun x hx => by simpa [dcSum_append, dcSum] using hc.2 x hx⟩
  rw [hyes] at hno
  cases hno

/-- **C86**: the woken tasks run in a bounded number of steps, whatever they find. -/
theorem C86_settles : ∀ (g : Gate), ∃ g', g.run (List.replicate g.woken.length .wake) = some g' ∧ NoneWoken g' := by
  have key : ∀ (n : Nat) (g : Gate), g.woken.length = n → ∃ g', g.run (List.replicate n .wake) = some g' ∧ NoneWoken g' := by
    intro n
    induction n with
    | zero => intro g hg; exact ⟨g, rfl, List.length_eq_zero_iff.1 hg⟩
    | succ n ih =>
      intro g hg
      cases hw : g.woken with
      | nil => rw [hw] at hg; cases hg
      | cons t r =>
        rw [hw, List.length_cons] at hg
        have hlen : ∀ k : Gate, k.woken = r → k.woken.length = n := fun k hk => by rw [hk]; omega
        rw [List.replicate_succ]
        simp only [Gate.run, Gate.step, hw, Option.bind_some]
        split
        · exact ih _ (hlen _ rfl)
        · exact ih _ (hlen _ rfl)
  exact fun g => key _ g rfl

/-- **C86**: when the receiver has granted credits for everything, everything has been sent. -/
theorem C86_all_sent {h₀ d₀ : Option Nat} {es : List GateEv} {g : Gate} (hr : (Gate.fresh h₀ d₀).run es = some g) (hw : NoneWoken g) (hc : Covers h₀ d₀ es (gateAsked es)) :
    g.waiting = [] ∧ g.sent.Perm (gateAsked es) := by
  have h := GateInv.run es [] _ g (.fresh h₀ d₀) hr
  have hp := h.perm
  rw [show g.woken = [] from hw, List.nil_append] at hp
  have hw0 : g.waiting = [] := by
    cases hwt : g.waiting with
    | nil => rfl
    | cons t l =>
      have hno := h.closed t (by rw [hwt]; simp)
      rw [hwt] at hp
      have hl : g.sent.length + 1 ≤ (gateAsked es).length := by
        have := hp.length_eq
        simp only [List.length_append, List.length_cons, List.nil_append] at this
        omega
      have hd : dcSum g.sent + t.dc ≤ dcSum (gateAsked es) := by
        have := dcSum_perm hp
        simp only [List.nil_append, dcSum_append] at this
        rw [← this]
        simp only [dcSum, List.map_cons, List.sum_cons]
        omega
      have hyes : g.has t = true := Gate.has_iff.2
        ⟨h.hdr.enough fun x hx => Nat.le_trans hl (hc.1 x hx), h.data.enough fun x hx => Nat.le_trans hd (hc.2 x hx)⟩
      rw [hyes] at hno
      cases hno
  refine ⟨hw0, ?_⟩
  rw [hw0] at hp
  simpa using hp

/-- **C86**: TLPs of the same size are sent in the order in which the tasks asked, as long as tasks ask and credits arrive only when the woken tasks have run.
Missing: TLPs of different sizes and tasks that ask between a grant and the wake-up, which may overtake (`C86_overtake_violated`, `C86_starved_violated`). -/
theorem C86_order_partial {h₀ d₀ : Option Nat} {es : List GateEv} {g : Gate} (hr : (Gate.fresh h₀ d₀).run es = some g) (hcalm : CalmFrom (Gate.fresh h₀ d₀) es) {c : Nat}
    (hsz : ∀ t ∈ gateAsked es, t.dc = c) : g.sent <+: gateAsked es := by
  have := GateInv.order_run es [] _ g (.fresh h₀ d₀) hsz rfl hcalm hr
  exact ⟨_, this⟩

/-- **C86**: under the same conditions nobody waits forever: as soon as the credits granted cover the first `n` TLPs, these have been sent, whatever has been asked for since. -/
theorem C86_served_partial {h₀ d₀ : Option Nat} {es : List GateEv} {g : Gate} (hr : (Gate.fresh h₀ d₀).run es = some g) (hcalm : CalmFrom (Gate.fresh h₀ d₀) es) {c : Nat}
    (hsz : ∀ t ∈ gateAsked es, t.dc = c) (hw : NoneWoken g) {n : Nat} (hc : Covers h₀ d₀ es ((gateAsked es).take n)) : (gateAsked es).take n <+: g.sent := by
  have h := GateInv.run es [] _ g (.fresh h₀ d₀) hr
  have ho : g.sent ++ (g.waiting ++ g.woken) = gateAsked es := GateInv.order_run es [] _ g (.fresh h₀ d₀) hsz rfl hcalm hr
  rw [show g.woken = [] from hw, List.append_nil] at ho
  by_cases hn : n ≤ g.sent.length
  · rw [← ho, List.take_append_of_le_length hn]
    exact List.take_prefix _ _
  · cases hwt : g.waiting with
    | nil =>
      rw [hwt, List.append_nil] at ho
      rw [← ho]
      exact List.take_prefix _ _
    | cons t l =>
      exfalso
      have hno := h.closed t (by rw [hwt]; simp)
      obtain ⟨k, hk⟩ : ∃ k, n = g.sent.length + (k + 1) := ⟨n - g.sent.length - 1, by omega⟩
      rw [← ho, hwt, hk, List.take_length_add_append, List.take_succ_cons] at hc
      have hyes : g.has t = true := Gate.has_iff.2
        ⟨h.hdr.enough fun x hx => by
          have := hc.1 x hx
          simp only [List.length_append, List.length_cons] at this
          simp only [List.nil_append]
          omega,
         h.data.enough fun x hx => by
          have := hc.2 x hx
          rw [dcSum_append] at this
          simp only [dcSum, List.map_cons, List.sum_cons] at this
          simp only [dcSum, List.nil_append]
          omega⟩
      rw [hyes] at hno
      cases hno

/-- **C86** is violated when a task asks after the credits have come and before the woken task runs: TLP 2 takes the credits for which TLP 1 has been waiting. -/
theorem C86_overtake_violated : ∃ es g, (Gate.fresh (some 1) (some 8)).run es = some g ∧ (∀ t ∈ gateAsked es, t.dc = 8) ∧ (gateAsked es).map (·.id) = [0, 1, 2] ∧
    g.sent.map (·.id) = [0, 2] ∧ g.waiting.map (·.id) = [1] ∧ NoneWoken g :=
  ⟨[.call ⟨0, 8⟩, .call ⟨1, 8⟩, .update 1 8, .call ⟨2, 8⟩, .wake], _, rfl, by decide, rfl, rfl, rfl, rfl⟩

/-- **C86** is violated by a large TLP among small ones: it waits forever. However many writes of 4 bytes are sent after it was asked for, each with the credits that came back for another one, the write of
128 bytes finds one credit too few each time. -/
theorem C86_starved_violated (k : Nat) : ∃ es g, (Gate.fresh (some 8) (some 8)).run es = some g ∧ CalmFrom (Gate.fresh (some 8) (some 8)) es ∧ NoneWoken g ∧ (gateAsked es)[1]? = some ⟨0, 8⟩ ∧
    gateData es = k ∧ g.sent = List.replicate (k + 1) ⟨1, 1⟩ ∧ g.waiting = [⟨0, 8⟩] := by
  obtain ⟨h1, h2⟩ := starve_run k [smallTlp]
  refine ⟨[.call smallTlp, .call bigTlp] ++ starveTurns k, starving ([smallTlp] ++ List.replicate k smallTlp), ?_, ?_, rfl, rfl, ?_, rfl, rfl⟩
  · exact h1
  · refine ⟨fun _ => rfl, fun g hg => ?_⟩
    cases hg
    refine ⟨fun _ => rfl, fun g hg => ?_⟩
    cases hg
    exact h2
  · exact starve_data k

/-! ### The hypotheses can be met -/

/-- Three writes of 128 bytes with credits for one: two of them wait, and go in order when credits come. -/
def gateEvs : List GateEv := [.call ⟨0, 8⟩, .call ⟨1, 8⟩, .call ⟨2, 8⟩, .update 1 8, .wake, .wake, .update 1 8, .wake]

example : ∃ g, (Gate.fresh (some 4) (some 8)).run gateEvs = some g ∧ NoneWoken g ∧ g.sent.map (·.id) = [0, 1, 2] := ⟨_, rfl, rfl, rfl⟩
example : Covers (some 4) (some 8) gateEvs (gateAsked gateEvs) := by
  refine ⟨fun h hh => ?_, fun d hd => ?_⟩ <;> · cases ‹_ = _›; decide
example : (∀ t ∈ gateAsked gateEvs, t.dc = 8) := by decide

instance calmDec : (es : List GateEv) → (g : Gate) → Decidable (CalmFrom g es)
  | [], _ => .isTrue trivial
  | e :: es, g =>
    have : Decidable (e ≠ .wake → NoneWoken g) := by unfold NoneWoken; infer_instance
    match h : g.step e with
    | none => decidable_of_iff (e ≠ .wake → NoneWoken g) ⟨fun hh => ⟨hh, fun g' hg => by rw [h] at hg; cases hg⟩, fun hh => hh.1⟩
    | some k =>
      have := calmDec es k
      decidable_of_iff ((e ≠ .wake → NoneWoken g) ∧ CalmFrom k es) ⟨fun hh => ⟨hh.1, fun g' hg => by rw [h] at hg; cases hg; exact hh.2⟩, fun hh => ⟨hh.1, hh.2 k h⟩⟩

example : CalmFrom (Gate.fresh (some 4) (some 8)) gateEvs := by decide +kernel

/-- After two of them: the third one waits for credits that have not come. -/
example : ∃ g, (Gate.fresh (some 4) (some 8)).run (gateEvs.take 6) = some g ∧ NoneWoken g ∧ ⟨2, 8⟩ ∈ gateAsked (gateEvs.take 6) ∧ ⟨2, 8⟩ ∉ g.sent := ⟨_, rfl, rfl, by decide, by decide⟩

/-- There are credits for the first two of them then. -/
example : Covers (some 4) (some 8) (gateEvs.take 6) ((gateAsked (gateEvs.take 6)).take 2) := by
  refine ⟨fun h hh => ?_, fun d hd => ?_⟩ <;> · cases ‹_ = _›; decide

end Pcie
