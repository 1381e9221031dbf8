import Verif.Lemmas.IntPort
/-
C61: the interrupt ports of the hard IP models send one message for each request.
-/
namespace Pcie
open Spec

/-! ### Xilinx -/

/-- Xilinx: in every history in which the user follows the protocol and no exception is raised, the messages that are sent are exactly those that were asked for, in order: one for each clock edge with a
request, with the address and data that the capability registers of the function gave at that time, while the registers are changed by others at any time and the link takes messages whenever it likes. -/
theorem C61_messages (nx : Nat) (fns : List IntFn) (evs : List IntEv) (s : IntPort) (h : IntPort.run nx { fns } evs = some (.ok s))
    (hp : IntProtocol (intEdges s.hist)) (ho : IntOneHot (intEdges s.hist)) : intMessages s.hist = intExpected fns s.hist := by
  have h0 : IntPort.Inv fns { fns } := ⟨rfl, rfl, (by intro i h; cases h), (by intro h; cases h)⟩
  exact (IntPort.run_inv h0 h hp ho).msgs

/-- Xilinx: whatever the user does, at most one message is waiting for the link at any time; at the clock edge after it has been taken, it is reported sent. -/
theorem C61_reported (nx : Nat) (fns : List IntFn) (evs : List IntEv) (i : IntIn) (s0 s : IntPort) (h0 : IntPort.run nx { fns } evs = some (.ok s0))
    (h : s0.run nx [.taken, .clock i] = some (.ok s)) :
    ∃ x m o, (intMessages s0.hist).getLast? = some (x, m) ∧ (intEdges s.hist).getLast? = some (i, o) ∧ intSent x o = true := by
  have hc := IntPort.run_cnt (n := 0) (s := { fns }) rfl h0
  obtain ⟨s1, h1, h2⟩ := IntPort.run_append (es := [IntEv.taken]) (fs := [.clock i]) h
  replace h1 := IntPort.run_one h1
  replace h2 := IntPort.run_one h2
  have hl : (intEdges s.hist).getLast? = some (i, s1.out) := by
    simp only [IntPort.step] at h2
    split at h2
    · split at h2
      · rw [Option.some_inj] at h2
        split at h2
        · cases h2
        · cases h2; simp [intEdges]
      · rw [Option.some_inj] at h2
        obtain ⟨_, _, _, h4⟩ := IntPort.afterMsi_spec h2
        rcases h4 with ⟨_, h5, _⟩ | ⟨_, _, _, h5⟩ <;> rw [h5] <;> simp [intEdges]
    · cases h2; simp [intEdges]
  simp only [IntPort.step] at h1
  split at h1
  · cases h1
  · rename_i j hs
    rw [Option.some_inj] at h1
    simp only [IntPort.Cnt, hs] at hc
    obtain ⟨m, hm⟩ := hc.2.1
    obtain ⟨_, e, _⟩ := IntPort.afterMsi_spec h1
    exact ⟨false, m, _, hm, hl, e⟩
  · rename_i hs
    cases h1
    simp only [IntPort.Cnt, hs] at hc
    obtain ⟨m, hm⟩ := hc.2.1
    exact ⟨true, m, _, hm, hl, rfl⟩

/-- Xilinx: whatever the user does, the number of messages sent is the number that the link has taken, or one more; in this case the message that is waiting is not reported sent. -/
theorem C61_not_before (nx : Nat) (fns : List IntFn) (evs : List IntEv) (s : IntPort) (h : IntPort.run nx { fns } evs = some (.ok s)) :
    (intMessages s.hist).length = evs.count .taken ∨
    ((intMessages s.hist).length = evs.count .taken + 1 ∧ ∃ x m, (intMessages s.hist).getLast? = some (x, m) ∧ intSent x s.out = false) := by
  have hc := IntPort.run_cnt (n := 0) (s := { fns }) rfl h
  rw [Nat.zero_add] at hc
  unfold IntPort.Cnt at hc
  split at hc
  · exact .inl hc
  · obtain ⟨a, ⟨m, b⟩, c⟩ := hc; exact .inr ⟨a, false, m, b, c⟩
  · obtain ⟨a, ⟨m, b⟩, c⟩ := hc; exact .inr ⟨a, true, m, b, c⟩

/-- Xilinx: after a clock edge at which no message is waiting and none is asked for, the status outputs show the registers of the functions; the function that the user names gets the pending
bits the user gives, and nothing else changes. -/
theorem C61_status (nx : Nat) (fns : List IntFn) (evs : List IntEv) (i : IntIn) (s0 s : IntPort) (h0 : IntPort.run nx { fns } evs = some (.ok s0))
    (hn : (intMessages s0.hist).length = evs.count .taken) (h : s0.run nx [.clock i] = some (.ok s)) (hi : i.msiInt = 0 ∧ i.msixInt = false) :
    (∀ k, s.out.msiEnable.testBit k = (decide (k < 2) && match s0.fns[k]? with | some f => f.msi.enable | none => false)) ∧
    (∀ k < 2, s.out.mmEnable / 8 ^ k % 8 = match s0.fns[k]? with | some f => f.msi.mme % 8 | none => 0) ∧
    (∀ k, s.out.msixEnable.testBit k = (decide (k < nx) && match s0.fns[k]? with | some f => f.msix.enable | none => false)) ∧
    (∀ k, s.out.msixMask.testBit k = (decide (k < nx) && match s0.fns[k]? with | some f => f.msix.functionMask | none => false)) ∧
    s.out.msiSent = false ∧ s.out.msixSent = false ∧
    s.out.msiData = (match s0.fns[i.select]? with | some f => if i.select = 15 then 0 else f.msi.maskBits | none => 0) ∧
    s.fns.length = s0.fns.length ∧
    ∀ (k : Nat) (f : IntFn), s0.fns[k]? = some f → s.fns[k]? = some (if i.pendEnable = true ∧ k = i.pendFn then { f with msi := { f.msi with pending := i.pend } } else f) := by
  have hc := IntPort.run_cnt (n := 0) (s := { fns }) rfl h0
  replace h := IntPort.run_one h
  have hs : s0.st = .idle := by
    unfold IntPort.Cnt at hc
    split at hc
    · assumption
    · omega
    · omega
  simp only [IntPort.step, hs, hi.1, bits_zero, Option.some_inj] at h
  unfold IntPort.afterMsi at h
  simp only [hi.2, Bool.false_eq_true, if_false] at h
  generalize hf : (if i.pendEnable = true then
      match s0.fns[i.pendFn]? with
      | some f => s0.fns.set i.pendFn { f with msi := { f.msi with pending := i.pend } }
      | none => s0.fns
    else s0.fns) = fns' at h
  have hx : ∀ k : Nat, (fns'[k]?).map IntFn.msix = (s0.fns[k]?).map IntFn.msix := by
    intro k
    rw [← hf]
    split
    · split
      · rename_i f he
        rw [List.getElem?_set]
        split
        · rename_i hk
          subst hk
          have := (List.getElem?_eq_some_iff.1 he).1
          simp only [this, if_true, Option.map_some, he]
        · rfl
      · rfl
    · rfl
  have hlen : fns'.length = s0.fns.length := by
    rw [← hf]
    split
    · split
      · exact List.length_set
      · rfl
    · rfl
  have hset : ∀ (k : Nat) (f : IntFn), s0.fns[k]? = some f → fns'[k]? = some (if i.pendEnable = true ∧ k = i.pendFn then { f with msi := { f.msi with pending := i.pend } } else f) := by
    intro k f hk
    rw [← hf]
    by_cases hp : i.pendEnable = true
    · rw [if_pos hp]
      by_cases hkf : k = i.pendFn
      · subst hkf
        rw [hk, if_pos ⟨hp, rfl⟩]
        simp only
        rw [List.getElem?_set_self (List.getElem?_eq_some_iff.1 hk).1]
      · rw [if_neg fun h => hkf h.2]
        split
        · rw [List.getElem?_set_ne (fun h => hkf h.symm)]; exact hk
        · exact hk
    · rw [if_neg hp, if_neg fun h => hp h.1]; exact hk
  cases h
  refine ⟨?_, ?_, ?_, ?_, rfl, rfl, ?_, hlen, hset⟩
  rotate_right
  · show (if i.select = 15 then 0 else match s0.fns[i.select]? with | some f => f.msi.maskBits | none => 0) = _
    split
    · split <;> rfl
    · rfl
  · intro k; simp only [IntPort.bitsOf_bit, Nat.zero_le, decide_true, Bool.true_and, Nat.sub_zero]; rfl
  · intro k hk; exact IntPort.mmBits_field _ k hk
  · intro k; simp only [IntPort.bitsOf_bit, Nat.zero_le, decide_true, Bool.true_and, Nat.sub_zero]
    have := hx k
    cases h1 : fns'[k]? <;> cases h2 : s0.fns[k]? <;> simp_all
  · intro k; simp only [IntPort.bitsOf_bit, Nat.zero_le, decide_true, Bool.true_and, Nat.sub_zero]
    have := hx k
    cases h1 : fns'[k]? <;> cases h2 : s0.fns[k]? <;> simp_all

/-- Two functions; the second has four MSI messages enabled. -/
def exIntFns : List IntFn := [{ msix := { enable := true } }, { msi := { enable := true, mmc := 2, mme := 2, addr := 0xfee00000, data := 0x4043 } }]

/-- MSI 2 of function 1, MSI-X of function 0 asked for at the clock edge at which the MSI is reported; then function 1 gets another address, and sends MSI 1. -/
def exIntEvs : List IntEv :=
  [.clock { msiInt := 4, fn := 1, attr := 1 }, .clock {}, .taken, .clock { msixInt := true, msixAddr := 0x1000, msixData := 7 }, .clock {}, .taken,
    .env [{}, { msi := { enable := true, mmc := 2, mme := 2, addr := 0xfee01000, data := 0x40 } }],
    .clock { msiInt := 2, fn := 1 }, .taken, .clock {}]

/-- `IntProtocol`, computed. -/
def exIntProtocol (l : List (IntIn × IntOut)) : Bool :=
  l.all (fun e => !(decide (e.1.msiInt ≠ 0) && e.1.msixInt)) &&
  (List.range l.length).all fun m => (List.range m).all fun k => match l[k]?, l[m]? with
    | some e, some e' => [true, false].all fun x => [true, false].all fun y =>
      !((if x then e.1.msixInt else decide (e.1.msiInt ≠ 0)) && (if y then e'.1.msixInt else decide (e'.1.msiInt ≠ 0))) ||
      (List.range (m + 1)).any fun j => decide (k < j) && match l[j]? with | some e'' => intSent x e''.2 | none => false
    | _, _ => true

theorem exIntProtocol_ok (l : List (IntIn × IntOut)) (h : exIntProtocol l = true) : IntProtocol l := by
  simp only [exIntProtocol, Bool.and_eq_true, List.all_eq_true, List.mem_range] at h
  refine ⟨fun e he hx => ?_, fun x y k m e e' hk he he' hx hy => ?_⟩
  · have := h.1 e he
    simp only [IntAsks, Bool.false_eq_true, if_false, if_true] at hx
    simp [hx] at this
  · have := h.2 m (List.getElem?_eq_some_iff.1 he').1 k hk
    rw [he, he'] at this
    simp only [List.all_eq_true] at this
    have := this x (by cases x <;> simp) y (by cases y <;> simp)
    rw [Bool.or_eq_true] at this
    rcases this with this | this
    · cases x <;> cases y <;> simp_all [IntAsks]
    · simp only [List.any_eq_true, List.mem_range, Bool.and_eq_true, decide_eq_true_eq] at this
      obtain ⟨j, j1, j2, j3⟩ := this
      cases hj : l[j]? with
      | none => rw [hj] at j3; cases j3
      | some e'' => rw [hj] at j3; exact ⟨j, e'', j2, by omega, hj, j3⟩

theorem exOneHot_ok (l : List (IntIn × IntOut)) (h : (l.all fun e => decide (e.1.msiInt = 0) || (List.range 32).any fun b => decide (e.1.msiInt = 2 ^ b)) = true) :
    IntOneHot l := by
  intro e he ha
  have := List.all_eq_true.1 h e he
  rw [Bool.or_eq_true] at this
  rcases this with this | this
  · exact absurd (of_decide_eq_true this) ha
  · obtain ⟨b, b1, b2⟩ := List.any_eq_true.1 this
    exact ⟨b, List.mem_range.1 b1, of_decide_eq_true b2⟩

/-- The outcome of a run. -/
def intOutcome (nx : Nat) (fns : List IntFn) (evs : List IntEv) : Option IntPort := (IntPort.run nx { fns } evs).bind Except.toOption

theorem intOutcome_some {nx : Nat} {fns : List IntFn} {evs : List IntEv} {s : IntPort} (h : intOutcome nx fns evs = some s) :
    IntPort.run nx { fns } evs = some (.ok s) := by
  unfold intOutcome at h
  cases hr : IntPort.run nx { fns } evs with
  | none => rw [hr] at h; cases h
  | some r => cases r with
    | error e => rw [hr] at h; cases h
    | ok s' => rw [hr] at h; cases h; rfl

/-- The hypotheses of `C61_messages` are met, and three messages are sent. -/
example : ∃ s, IntPort.run 2 { fns := exIntFns } exIntEvs = some (.ok s) ∧ IntProtocol (intEdges s.hist) ∧ IntOneHot (intEdges s.hist) ∧
    intMessages s.hist = [(false, ⟨1, 0xfee00000, 0x4042, 1⟩), (true, ⟨0, 0x1000, 7, 0⟩), (false, ⟨1, 0xfee01000, 0x41, 0⟩)] := by
  have h : ((intOutcome 2 exIntFns exIntEvs).map fun s => (exIntProtocol (intEdges s.hist),
      (intEdges s.hist).all (fun e => decide (e.1.msiInt = 0) || (List.range 32).any fun b => decide (e.1.msiInt = 2 ^ b)), intMessages s.hist)) =
      some (true, true, [(false, ⟨1, 0xfee00000, 0x4042, 1⟩), (true, ⟨0, 0x1000, 7, 0⟩), (false, ⟨1, 0xfee01000, 0x41, 0⟩)]) := by decide +kernel
  cases hr : intOutcome 2 exIntFns exIntEvs with
  | none => rw [hr] at h; cases h
  | some s =>
    rw [hr] at h
    simp only [Option.map_some, Option.some_inj, Prod.mk.injEq] at h
    exact ⟨s, intOutcome_some hr, exIntProtocol_ok _ h.1, exOneHot_ok _ h.2.1, h.2.2⟩

/-- The hypotheses of `C61_reported` and `C61_status` are met: a message is taken, then nothing is asked for. -/
example : (intOutcome 4 exIntFns [.clock { msiInt := 4, fn := 1 }, .taken, .clock {}]).isSome = true ∧
    ((intOutcome 4 exIntFns [.clock { msiInt := 4, fn := 1 }, .taken, .clock {}]).map fun s => (s.out.msiEnable, s.out.mmEnable, s.out.msixEnable)) = some (2, 16, 1) := by
  decide +kernel

/-- Xilinx: without the protocol, requests are lost silently: a request at a clock edge while another message waits for the link is not sent, and never reported in any way. -/
theorem C61_lost_violated : ∃ s, IntPort.run 2 { fns := exIntFns } [.clock { msiInt := 4, fn := 1 }, .clock { msiInt := 1, fn := 1 }, .taken, .clock {}, .clock {}] = some (.ok s) ∧
    (intMessages s.hist).length = 1 ∧ (intExpected exIntFns s.hist).length = 2 := by
  refine ⟨_, intOutcome_some (s := ?_) (by exact rfl), ?_⟩
  exact ⟨by decide +kernel, by decide +kernel⟩

/-- Xilinx: a request for a function that does not exist, or for two interrupts at a time, is answered with neither `sent` nor `fail`, however long the user waits. -/
theorem C61_no_answer_violated (nx n : Nat) (i : IntIn) (hi : i = { msiInt := 1, fn := 2 } ∨ i = { msiInt := 3, fn := 1 }) :
    ∃ s, IntPort.run nx { fns := exIntFns } (.clock i :: List.replicate n (.clock {})) = some (.ok s) ∧ intMessages s.hist = [] ∧
      ∀ e ∈ intEdges s.hist, intSent false e.2 = false ∧ intSent true e.2 = false := by
  have key : ∀ n (s : IntPort), s.fns = exIntFns → s.st = .idle → s.out.msiSent = false → s.out.msixSent = false → intMessages s.hist = [] →
      (∀ e ∈ intEdges s.hist, intSent false e.2 = false ∧ intSent true e.2 = false) →
      ∃ s', s.run nx (List.replicate n (.clock {})) = some (.ok s') ∧ intMessages s'.hist = [] ∧
        ∀ e ∈ intEdges s'.hist, intSent false e.2 = false ∧ intSent true e.2 = false := by
    intro n
    induction n with
    | zero => intro s _ _ _ _ h1 h2; exact ⟨s, rfl, h1, h2⟩
    | succ n ih =>
      intro s hf hs o1 o2 h1 h2
      rw [List.replicate_succ]
      simp only [IntPort.run, IntPort.step, hs, bits_zero, IntPort.afterMsi, hf, Bool.false_eq_true, if_false]
      refine ih _ rfl rfl rfl rfl ?_ ?_
      · rw [intMessages_append, h1]; rfl
      · intro e he
        rw [intEdges_append] at he
        rcases List.mem_append.1 he with he | he
        · exact h2 e he
        · rw [List.mem_singleton.1 he]; exact ⟨o1, o2⟩
  have hb : IntPort.bits 3 = [0, 1] := by decide +kernel
  rcases hi with rfl | rfl
  · simp only [IntPort.run, IntPort.step, IntPort.afterMsi, show exIntFns[2]? = none from rfl, Bool.false_eq_true, if_false]
    refine key n _ rfl rfl rfl rfl rfl ?_
    intro e he
    rw [List.mem_singleton.1 he]; exact ⟨rfl, rfl⟩
  · simp only [IntPort.run, IntPort.step, IntPort.afterMsi, hb, Bool.false_eq_true, if_false]
    refine key n _ rfl rfl rfl rfl rfl ?_
    intro e he
    rw [List.mem_singleton.1 he]; exact ⟨rfl, rfl⟩

/-! ### Intel Stratix 10 -/

/-- Intel Stratix 10: in every history in which the user follows the protocol and no exception is raised, the messages are exactly those that were asked for, in order: one for each new request, with the
address and data that the capability registers of the function gave at that time. -/
theorem C61_app_messages (fns : List IntFn) (evs : List AppEv) (s : AppMsi) (h : AppMsi.run { fns } evs = some (.ok s)) (hp : AppProtocol (appEdges s.hist)) :
    appMessages s.hist = appExpected fns false s.hist :=
  (AppMsi.run_inv (s := { fns }) ⟨rfl, rfl, rfl, rfl, .nil⟩ h hp).msgs

/-- Intel Stratix 10: the acknowledge pulses belong to the messages one by one; at most one message is still without one. -/
theorem C61_app_acks (fns : List IntFn) (evs : List AppEv) (s : AppMsi) (h : AppMsi.run { fns } evs = some (.ok s)) (hp : AppProtocol (appEdges s.hist)) :
    ∃ ms rest, appMessages s.hist = ms ++ rest ∧ rest.length ≤ 1 ∧ List.Forall₂ AppMatches (appAcked s.hist) ms := by
  have := (AppMsi.run_inv (s := { fns }) ⟨rfl, rfl, rfl, rfl, .nil⟩ h hp).st
  split at this
  · exact ⟨_, [], by simp, by simp, this.2.2⟩
  · obtain ⟨_, _, i, ms, m, _, _, e, f⟩ := this; exact ⟨ms, [m], e, by simp, f⟩
  · obtain ⟨_, _, i, ms, m, _, _, e, f⟩ := this; exact ⟨ms, [m], e, by simp, f⟩
  · exact ⟨_, [], by simp, by simp, this.2.2.2⟩

/-- Intel Stratix 10: once the link has taken the message, the next clock edge has the acknowledge, and the one after it does not. -/
theorem C61_app_reported (i j : AppIn) (s0 s : AppMsi)
    (h : s0.run [.taken, .clock i, .clock j] = some (.ok s)) : appEdges s.hist = appEdges s0.hist ++ [(i, true), (j, false)] := by
  simp only [AppMsi.run] at h
  split at h
  · cases h
  · cases h
  · rename_i s1 h1
    split at h
    · cases h
    · cases h
    · rename_i s2 h2
      split at h
      · cases h
      · cases h
      · rename_i s3 h3
        cases h
        rw [AppMsi.clock_edges h3, AppMsi.clock_edges h2]
        simp only [AppMsi.step] at h1
        split at h1
        · cases h1
          simp only [AppMsi.step] at h2
          cases h2
          simp
        · cases h1

/-- `AppProtocol`, computed. -/
def exAppProtocol : List (AppIn × Bool) → Bool
  | e :: e' :: l => (!e.1.req || (if e.2 then !e'.1.req else decide (e'.1 = e.1))) && exAppProtocol (e' :: l)
  | _ => true

theorem exAppProtocol_ok (l : List (AppIn × Bool)) (h : exAppProtocol l = true) : AppProtocol l := by
  induction l with
  | nil => exact ⟨by intro k e e' he; simp at he, by intro k e e' he; simp at he⟩
  | cons x l ih =>
    cases l with
    | nil => exact ⟨by intro k e e' he he'; simp at he', by intro k e e' he he'; simp at he'⟩
    | cons y l =>
      simp only [exAppProtocol, Bool.and_eq_true] at h
      have hl := ih h.2
      constructor
      · intro k e e' he he' hr hd
        cases k with
        | zero => cases he; cases he'; simpa [hr, hd] using h.1
        | succ k => exact hl.hold k e e' he he' hr hd
      · intro k e e' he he' hr hd
        cases k with
        | zero => cases he; cases he'; simpa [hr, hd] using h.1
        | succ k => exact hl.drop k e e' he he' hr hd

/-- Two requests, with a clock cycle between them. -/
def exAppEvs : List AppEv :=
  [.clock {}, .clock { req := true, fn := 1, num := 3, tc := 2 }, .clock { req := true, fn := 1, num := 3, tc := 2 }, .taken, .clock { req := true, fn := 1, num := 3, tc := 2 }, .clock {},
    .clock { req := true, fn := 1, num := 0 }, .taken, .clock { req := true, fn := 1, num := 0 }, .clock {}]

example : ∃ s, AppMsi.run { fns := exIntFns } exAppEvs = some (.ok s) ∧ AppProtocol (appEdges s.hist) ∧
    appMessages s.hist = [⟨1, 0xfee00000, 0x4043, 2⟩, ⟨1, 0xfee00000, 0x4040, 0⟩] ∧ (appAcked s.hist).length = 2 := by
  have h : (((AppMsi.run { fns := exIntFns } exAppEvs).bind Except.toOption).map fun s => (exAppProtocol (appEdges s.hist), appMessages s.hist, (appAcked s.hist).length)) =
      some (true, [⟨1, 0xfee00000, 0x4043, 2⟩, ⟨1, 0xfee00000, 0x4040, 0⟩], 2) := by decide +kernel
  cases hr : AppMsi.run { fns := exIntFns } exAppEvs with
  | none => rw [hr] at h; cases h
  | some r => cases r with
    | error e => rw [hr] at h; cases h
    | ok s =>
      rw [hr] at h
      simp only [Option.bind_some, Except.toOption, Option.map_some, Option.some_inj, Prod.mk.injEq] at h
      exact ⟨s, rfl, exAppProtocol_ok _ h.1, h.2⟩

end Pcie
