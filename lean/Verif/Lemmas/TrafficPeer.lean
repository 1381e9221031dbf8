import Verif.Lemmas.Traffic
import Verif.Spec.TrafficPeer
/-
How two endpoints that read from each other get stuck.
-/
namespace Pcie
open Pcie.Spec

theorem started_append : ∀ a b : List TEv, started (a ++ b) = started a ++ started b
  | [], _ => rfl
  | e :: a, b => by cases e <;> simp [started, started_append a b]

theorem TState.run_append (N : TNet) : ∀ (a b : List TEv) (s : TState), s.run N (a ++ b) = (s.run N a).bind fun s' => s'.run N b
  | [], _, _ => rfl
  | e :: a, b, s => by
    simp only [List.cons_append, TState.run]
    cases s.step N e with
    | none => rfl
    | some s1 => exact TState.run_append N a b s1

/-- A history that starts nothing leads from one state to another. -/
def Leads (N : TNet) (s s' : TState) : Prop := ∃ es, started es = [] ∧ s.run N es = some s'

theorem Leads.refl (N : TNet) (s : TState) : Leads N s s := ⟨[], rfl, rfl⟩

theorem Leads.trans {N : TNet} {s s1 s2 : TState} (h : Leads N s s1) (h' : Leads N s1 s2) : Leads N s s2 := by
  obtain ⟨a, ha, hr⟩ := h
  obtain ⟨b, hb, hr'⟩ := h'
  exact ⟨a ++ b, by rw [started_append, ha, hb]; rfl, by rw [TState.run_append, hr]; exact hr'⟩

/-- The states on the way: for each direction, the requests in tasks, in the endpoint and in the arbitration task, the queue in the switch, and the completions that the endpoint is sending. -/
structure Jam where
  tA : Nat
  xA : Nat
  aA : Bool
  qA : List TPkt
  bB : Nat
  tB : Nat
  xB : Nat
  aB : Bool
  qB : List TPkt
  bA : Nat
  dn : List TPkt

def lastA : TPkt := { readA with route := [] }
def lastB : TPkt := { readB with route := [] }

def Jam.st (j : Jam) : TState where
  tasks m := if m = 4 then List.replicate j.tA readA else if m = 6 then List.replicate j.tB readB else []
  rx m := if m = 7 then List.replicate j.xA lastA else if m = 5 then List.replicate j.xB lastB else []
  q m := if m = 4 then j.qA else if m = 6 then j.qB else []
  arb m := if m = 7 then (if j.aA then some lastA else none) else if m = 5 then (if j.aB then some lastB else none) else none
  busy m := if m = 7 then List.replicate j.bB cplB else if m = 5 then List.replicate j.bA cplA else []
  done := j.dn

theorem TState.ext' {a b : TState} (h1 : ∀ m, a.tasks m = b.tasks m) (h2 : ∀ m, a.rx m = b.rx m) (h3 : ∀ m, a.q m = b.q m) (h4 : ∀ m, a.arb m = b.arb m)
    (h5 : ∀ m, a.busy m = b.busy m) (h6 : a.done = b.done) : a = b := by
  obtain ⟨_, _, _, _, _, _⟩ := a
  obtain ⟨_, _, _, _, _, _⟩ := b
  simp only at h1 h2 h3 h4 h5 h6
  rw [funext h1, funext h2, funext h3, funext h4, funext h5, h6]

theorem run_two {N : TNet} {s s1 s2 : TState} {e e' : TEv} (h : s.step N e = some s1) (h' : s1.step N e' = some s2) : s.run N [e, e'] = some s2 := by
  simp [TState.run, h, h']

theorem run_one {N : TNet} {s s1 : TState} {e : TEv} (h : s.step N e = some s1) : s.run N [e] = some s1 := by
  simp [TState.run, h]

theorem step_send {N : TNet} {s : TState} {m : Nat} {p : TPkt} {r : List TPkt} (h : s.tasks m = p :: r) (hc : s.hasCredit N m p = true) :
    s.step N (.send m 0) = some { s with tasks := setAt s.tasks m r, rx := setAt s.rx m (s.rx m ++ [p]) } := by
  simp [TState.step, h, hc]

theorem step_hop {N : TNet} {s : TState} {m k : Nat} {t : List Nat} {p : TPkt} {r : List TPkt} (hb : s.busy m = []) (h : s.rx m = p :: r) (hr : p.route = k :: t) :
    s.step N (.recv m) = some { s with rx := setAt s.rx m r, q := setAt s.q m (s.q m ++ [p]) } := by
  simp [TState.step, hb, h, hr]

theorem step_end {N : TNet} {s : TState} {m : Nat} {p : TPkt} {r : List TPkt} (hb : s.busy m = []) (h : s.rx m = p :: r) (hr : p.route = []) :
    s.step N (.recv m) = some { s with rx := setAt s.rx m r, busy := setAt s.busy m (N.answer p.id), done := s.done ++ [p] } := by
  simp [TState.step, hb, h, hr]

theorem step_take {N : TNet} {s : TState} {m k : Nat} {t : List Nat} {p : TPkt} {r : List TPkt} (h : s.q m = p :: r) (hr : p.route = k :: t) (ha : s.arb k = none) :
    s.step N (.take m 0) = some { s with q := setAt s.q m r, arb := setAt s.arb k (some { p with route := t }) } := by
  simp [TState.step, h, hr, ha]

theorem step_pass {N : TNet} {s : TState} {m : Nat} {p : TPkt} (h : s.arb m = some p) (hc : s.hasCredit N m p = true) :
    s.step N (.pass m) = some { s with arb := setAt s.arb m none, rx := setAt s.rx m (s.rx m ++ [p]) } := by
  simp [TState.step, h, hc]

theorem step_reply {N : TNet} {s : TState} {m : Nat} {c : TPkt} {cs : List TPkt} (h : s.busy m = c :: cs) (hc : s.hasCredit N (N.back m) c = true) :
    s.step N (.reply m) = some { s with busy := setAt s.busy m cs, rx := setAt s.rx (N.back m) (s.rx (N.back m) ++ [c]) } := by
  simp [TState.step, h, hc]

local macro "jam_ext" : tactic => `(tactic|
  (apply TState.ext' <;> (try intro m) <;> simp only [Jam.st, setAt] <;> (try (repeat' split)) <;>
    simp_all [List.replicate_succ', lastA, lastB, peerNet, readA, readB, cplA, cplB]))

/-- A sends a read, and the switch queues it. -/
theorem Jam.issueA (j : Jam) (t : Nat) (h : j.tA = t + 1) (hc : hdrUse j.qA .NP < 64) (hd : dataUse j.qA .NP ≤ 64) :
    Leads peerNet j.st ({ j with tA := t, qA := j.qA ++ [readA] } : Jam).st := by
  refine ⟨[.send 4 0, .recv 4], rfl, run_two (step_send (p := readA) (r := List.replicate t readA) ?_ ?_) ((step_hop (p := readA) (r := []) (k := 7) (t := []) ?_ ?_ rfl).trans ?_)⟩
  · simp [Jam.st, h, List.replicate_succ]
  · simp [TState.hasCredit, Jam.st, peerNet, readA, downLink]
    omega
  · simp [Jam.st]
  · simp [Jam.st, setAt]
  · refine congrArg some ?_
    jam_ext

/-- The arbitration task of the port to B takes it. -/
theorem Jam.takeA (j : Jam) (r : List TPkt) (h : j.qA = readA :: r) (ha : j.aA = false) : Leads peerNet j.st ({ j with qA := r, aA := true } : Jam).st := by
  refine ⟨[.take 4 0], rfl, run_one ((step_take (p := readA) (r := r) (k := 7) (t := []) ?_ rfl ?_).trans (congrArg some ?_))⟩
  · simp [Jam.st, h]
  · simp [Jam.st, ha]
  · jam_ext

/-- It goes to B. -/
theorem Jam.passA (j : Jam) (ha : j.aA = true) (hx : j.xA < 64) : Leads peerNet j.st ({ j with xA := j.xA + 1, aA := false } : Jam).st := by
  refine ⟨[.pass 7], rfl, run_one ((step_pass (p := lastA) ?_ ?_).trans (congrArg some ?_))⟩
  · simp [Jam.st, ha]
  · simp [TState.hasCredit, Jam.st, peerNet, lastA, readA, downLink, hdrUse, dataUse]
    omega
  · jam_ext

/-- B handles a read. -/
theorem Jam.handleA (j : Jam) (x : Nat) (hx : j.xA = x + 1) (hb : j.bB = 0) : Leads peerNet j.st ({ j with xA := x, bB := 32, dn := j.dn ++ [lastA] } : Jam).st := by
  refine ⟨[.recv 7], rfl, run_one ((step_end (p := lastA) (r := List.replicate x lastA) ?_ ?_ rfl).trans (congrArg some ?_))⟩
  · simp [Jam.st, hb]
  · simp [Jam.st, hx, List.replicate_succ]
  · jam_ext

/-- B sends a completion, and the switch queues it. -/
theorem Jam.replyB (j : Jam) (b : Nat) (hb : j.bB = b + 1) (hc : hdrUse j.qB .CPL < 64) (hd : dataUse j.qB .CPL + 8 ≤ 1024) :
    Leads peerNet j.st ({ j with bB := b, qB := j.qB ++ [cplB] } : Jam).st := by
  refine ⟨[.reply 7, .recv 6], rfl, run_two (step_reply (c := cplB) (cs := List.replicate b cplB) ?_ ?_) ((step_hop (p := cplB) (r := []) (k := 5) (t := []) ?_ ?_ rfl).trans ?_)⟩
  · simp [Jam.st, hb, List.replicate_succ]
  · simp [TState.hasCredit, Jam.st, peerNet, cplB, downLink]
    omega
  · simp [Jam.st, setAt]
  · simp [Jam.st, setAt, peerNet]
  · refine congrArg some ?_
    jam_ext

/-- B sends a read, and the switch queues it. -/
theorem Jam.issueB (j : Jam) (t : Nat) (h : j.tB = t + 1) (hc : hdrUse j.qB .NP < 64) (hd : dataUse j.qB .NP ≤ 64) :
    Leads peerNet j.st ({ j with tB := t, qB := j.qB ++ [readB] } : Jam).st := by
  refine ⟨[.send 6 0, .recv 6], rfl, run_two (step_send (p := readB) (r := List.replicate t readB) ?_ ?_) ((step_hop (p := readB) (r := []) (k := 5) (t := []) ?_ ?_ rfl).trans ?_)⟩
  · simp [Jam.st, h, List.replicate_succ]
  · simp [TState.hasCredit, Jam.st, peerNet, readB, downLink]
    omega
  · simp [Jam.st]
  · simp [Jam.st, setAt]
  · refine congrArg some ?_
    jam_ext

/-- The arbitration task of the port to A takes it. -/
theorem Jam.takeB (j : Jam) (r : List TPkt) (h : j.qB = readB :: r) (ha : j.aB = false) : Leads peerNet j.st ({ j with qB := r, aB := true } : Jam).st := by
  refine ⟨[.take 6 0], rfl, run_one ((step_take (p := readB) (r := r) (k := 5) (t := []) ?_ rfl ?_).trans (congrArg some ?_))⟩
  · simp [Jam.st, h]
  · simp [Jam.st, ha]
  · jam_ext

/-- It goes to A. -/
theorem Jam.passB (j : Jam) (ha : j.aB = true) (hx : j.xB < 64) : Leads peerNet j.st ({ j with xB := j.xB + 1, aB := false } : Jam).st := by
  refine ⟨[.pass 5], rfl, run_one ((step_pass (p := lastB) ?_ ?_).trans (congrArg some ?_))⟩
  · simp [Jam.st, ha]
  · simp [TState.hasCredit, Jam.st, peerNet, lastB, readB, downLink, hdrUse, dataUse]
    omega
  · jam_ext

/-- A handles a read. -/
theorem Jam.handleB (j : Jam) (x : Nat) (hx : j.xB = x + 1) (hb : j.bA = 0) : Leads peerNet j.st ({ j with xB := x, bA := 32, dn := j.dn ++ [lastB] } : Jam).st := by
  refine ⟨[.recv 5], rfl, run_one ((step_end (p := lastB) (r := List.replicate x lastB) ?_ ?_ rfl).trans (congrArg some ?_))⟩
  · simp [Jam.st, hb]
  · simp [Jam.st, hx, List.replicate_succ]
  · jam_ext

/-- A sends a completion, and the switch queues it. -/
theorem Jam.replyA (j : Jam) (b : Nat) (hb : j.bA = b + 1) (hc : hdrUse j.qA .CPL < 64) (hd : dataUse j.qA .CPL + 8 ≤ 1024) :
    Leads peerNet j.st ({ j with bA := b, qA := j.qA ++ [cplA] } : Jam).st := by
  refine ⟨[.reply 5, .recv 4], rfl, run_two (step_reply (c := cplA) (cs := List.replicate b cplA) ?_ ?_) ((step_hop (p := cplA) (r := []) (k := 7) (t := []) ?_ ?_ rfl).trans ?_)⟩
  · simp [Jam.st, hb, List.replicate_succ]
  · simp [TState.hasCredit, Jam.st, peerNet, cplA, downLink]
    omega
  · simp [Jam.st, setAt]
  · simp [Jam.st, setAt, peerNet]
  · refine congrArg some ?_
    jam_ext

theorem hdrUse_append (a b : List TPkt) (c : FcType) : hdrUse (a ++ b) c = hdrUse a c + hdrUse b c := by simp [hdrUse]
theorem dataUse_append (a b : List TPkt) (c : FcType) : dataUse (a ++ b) c = dataUse a c + dataUse b c := by simp [dataUse]

/-- A sends `k` reads to B. -/
theorem Jam.fillA (t : Nat) : ∀ (k : Nat) (j : Jam), j.tA = t + k → j.qA = [] → j.aA = false → j.xA + k ≤ 64 → Leads peerNet j.st ({ j with tA := t, xA := j.xA + k } : Jam).st
  | 0, j, ht, _, _, _ => by
    have : ({ j with tA := t, xA := j.xA + 0 } : Jam) = j := by cases j; simp_all
    rw [this]
    exact Leads.refl _ _
  | k + 1, j, ht, hq, ha, hx => by
    have h1 := j.issueA (t + k) ht (by rw [hq]; decide) (by rw [hq]; decide)
    have h2 := Jam.takeA { j with tA := t + k, qA := j.qA ++ [readA] } [] (by simp [hq]) ha
    have h3 := Jam.passA { j with tA := t + k, qA := [], aA := true } rfl (by simp only; omega)
    have h4 := Jam.fillA t k { j with tA := t + k, qA := [], xA := j.xA + 1, aA := false } rfl rfl rfl (by simp only; omega)
    have he : ({ j with tA := t, qA := [], xA := j.xA + 1 + k, aA := false } : Jam) = { j with tA := t, xA := j.xA + (k + 1) } := by
      cases j; simp_all; omega
    rw [← he]
    exact h1.trans (h2.trans (h3.trans h4))

/-- B sends `k` completions. -/
theorem Jam.repliesB (b : Nat) : ∀ (k : Nat) (j : Jam), j.bB = b + k → hdrUse j.qB .CPL + k ≤ 64 → dataUse j.qB .CPL + 8 * k ≤ 1024 →
    Leads peerNet j.st ({ j with bB := b, qB := j.qB ++ List.replicate k cplB } : Jam).st
  | 0, j, hb, _, _ => by
    have : ({ j with bB := b, qB := j.qB ++ List.replicate 0 cplB } : Jam) = j := by cases j; simp_all
    rw [this]
    exact Leads.refl _ _
  | k + 1, j, hb, hc, hd => by
    have h1 := j.replyB (b + k) hb (by omega) (by omega)
    have h2 := Jam.repliesB b k { j with bB := b + k, qB := j.qB ++ [cplB] } rfl
      (by rw [hdrUse_append, show hdrUse [cplB] .CPL = 1 from rfl]; omega) (by rw [dataUse_append, show dataUse [cplB] .CPL = 8 from rfl]; omega)
    have he : ({ j with bB := b, qB := j.qB ++ [cplB] ++ List.replicate k cplB } : Jam) = { j with bB := b, qB := j.qB ++ List.replicate (k + 1) cplB } := by
      rw [List.replicate_succ, List.append_assoc]; rfl
    rw [← he]
    exact h1.trans h2

/-- A issues reads until B has 64, one is with the arbitration task and three are in the queue. -/
theorem Jam.loadA (j : Jam) (ht : j.tA = 68) (hq : j.qA = []) (ha : j.aA = false) (hx : j.xA = 0) :
    Leads peerNet j.st ({ j with tA := 0, xA := 64, aA := true, qA := [readA, readA, readA] } : Jam).st := by
  have h1 := Jam.fillA 4 64 j ht hq ha (by omega)
  rw [hx] at h1
  have h2 := Jam.issueA { j with tA := 4, xA := 0 + 64 } 3 rfl (by simp only [hq]; decide) (by simp only [hq]; decide)
  have h3 := Jam.takeA { j with tA := 3, xA := 0 + 64, qA := j.qA ++ [readA] } [] (by simp [hq]) ha
  have h4 := Jam.issueA { j with tA := 3, xA := 0 + 64, qA := [], aA := true } 2 rfl (by simp only; decide) (by simp only; decide)
  have h5 := Jam.issueA { j with tA := 2, xA := 0 + 64, qA := [readA], aA := true } 1 rfl (by simp only; decide) (by simp only; decide)
  have h6 := Jam.issueA { j with tA := 1, xA := 0 + 64, qA := [readA, readA], aA := true } 0 rfl (by simp only; decide) (by simp only; decide)
  exact h1.trans (h2.trans (h3.trans (h4.trans (h5.trans h6))))

/-- B handles a read, and the next ones move up. -/
theorem Jam.turnA (j : Jam) (r : List TPkt) (hx : j.xA = 64) (ha : j.aA = true) (hq : j.qA = readA :: r) (hb : j.bB = 0) :
    Leads peerNet j.st ({ j with qA := r, bB := 32, dn := j.dn ++ [lastA] } : Jam).st := by
  have h1 := j.handleA 63 hx hb
  have h2 := Jam.passA { j with xA := 63, bB := 32, dn := j.dn ++ [lastA] } ha (by simp only; omega)
  have h3 := Jam.takeA { j with xA := 63 + 1, aA := false, bB := 32, dn := j.dn ++ [lastA] } r hq rfl
  have he : ({ j with xA := 63 + 1, aA := true, qA := r, bB := 32, dn := j.dn ++ [lastA] } : Jam) = { j with qA := r, bB := 32, dn := j.dn ++ [lastA] } := by
    cases j; simp_all
  rw [← he]
  exact h1.trans (h2.trans h3)

/-- B handles three reads; the completions of two of them are in the queue of the switch, those of the third have to wait. -/
theorem Jam.workA (j : Jam) (l : List TPkt) (hx : j.xA = 64) (ha : j.aA = true) (hq : j.qA = readA :: readA :: readA :: l) (hb : j.bB = 0) (hc : hdrUse j.qB .CPL = 0) (hd : dataUse j.qB .CPL = 0) :
    Leads peerNet j.st ({ j with qA := l, qB := j.qB ++ List.replicate 32 cplB ++ List.replicate 32 cplB, bB := 32, dn := j.dn ++ [lastA] ++ [lastA] ++ [lastA] } : Jam).st := by
  have hr : hdrUse (List.replicate 32 cplB) .CPL = 32 := by decide
  have hr' : dataUse (List.replicate 32 cplB) .CPL = 256 := by decide
  have h1 := j.turnA (readA :: readA :: l) hx ha hq hb
  have h2 := Jam.repliesB 0 32 { j with qA := (readA :: readA :: l), bB := 32, dn := j.dn ++ [lastA] } rfl (by simp only; omega) (by simp only; omega)
  have h3 := Jam.turnA { j with qA := (readA :: readA :: l), bB := 0, qB := j.qB ++ List.replicate 32 cplB, dn := j.dn ++ [lastA] } (readA :: l) hx ha rfl rfl
  have h4 := Jam.repliesB 0 32 { j with qA := (readA :: l), bB := 32, qB := j.qB ++ List.replicate 32 cplB, dn := j.dn ++ [lastA] ++ [lastA] } rfl
    (by simp only [hdrUse_append, hr]; omega) (by simp only [dataUse_append, hr']; omega)
  have h5 := Jam.turnA { j with qA := (readA :: l), bB := 0, qB := j.qB ++ List.replicate 32 cplB ++ List.replicate 32 cplB, dn := j.dn ++ [lastA] ++ [lastA] } l hx ha rfl rfl
  exact h1.trans (h2.trans (h3.trans (h4.trans h5)))

/-- B sends `k` reads to A. -/
theorem Jam.fillB (t : Nat) : ∀ (k : Nat) (j : Jam), j.tB = t + k → j.qB = [] → j.aB = false → j.xB + k ≤ 64 → Leads peerNet j.st ({ j with tB := t, xB := j.xB + k } : Jam).st
  | 0, j, ht, _, _, _ => by
    have : ({ j with tB := t, xB := j.xB + 0 } : Jam) = j := by cases j; simp_all
    rw [this]
    exact Leads.refl _ _
  | k + 1, j, ht, hq, ha, hx => by
    have h1 := j.issueB (t + k) ht (by rw [hq]; decide) (by rw [hq]; decide)
    have h2 := Jam.takeB { j with tB := t + k, qB := j.qB ++ [readB] } [] (by simp [hq]) ha
    have h3 := Jam.passB { j with tB := t + k, qB := [], aB := true } rfl (by simp only; omega)
    have h4 := Jam.fillB t k { j with tB := t + k, qB := [], xB := j.xB + 1, aB := false } rfl rfl rfl (by simp only; omega)
    have he : ({ j with tB := t, qB := [], xB := j.xB + 1 + k, aB := false } : Jam) = { j with tB := t, xB := j.xB + (k + 1) } := by
      cases j; simp_all; omega
    rw [← he]
    exact h1.trans (h2.trans (h3.trans h4))

/-- A sends `k` completions. -/
theorem Jam.repliesA (b : Nat) : ∀ (k : Nat) (j : Jam), j.bA = b + k → hdrUse j.qA .CPL + k ≤ 64 → dataUse j.qA .CPL + 8 * k ≤ 1024 →
    Leads peerNet j.st ({ j with bA := b, qA := j.qA ++ List.replicate k cplA } : Jam).st
  | 0, j, hb, _, _ => by
    have : ({ j with bA := b, qA := j.qA ++ List.replicate 0 cplA } : Jam) = j := by cases j; simp_all
    rw [this]
    exact Leads.refl _ _
  | k + 1, j, hb, hc, hd => by
    have h1 := j.replyA (b + k) hb (by omega) (by omega)
    have h2 := Jam.repliesA b k { j with bA := b + k, qA := j.qA ++ [cplA] } rfl
      (by rw [hdrUse_append, show hdrUse [cplA] .CPL = 1 from rfl]; omega) (by rw [dataUse_append, show dataUse [cplA] .CPL = 8 from rfl]; omega)
    have he : ({ j with bA := b, qA := j.qA ++ [cplA] ++ List.replicate k cplA } : Jam) = { j with bA := b, qA := j.qA ++ List.replicate (k + 1) cplA } := by
      rw [List.replicate_succ, List.append_assoc]; rfl
    rw [← he]
    exact h1.trans h2

/-- B issues reads until A has 64, one is with the arbitration task and three are in the queue. -/
theorem Jam.loadB (j : Jam) (ht : j.tB = 68) (hq : j.qB = []) (ha : j.aB = false) (hx : j.xB = 0) :
    Leads peerNet j.st ({ j with tB := 0, xB := 64, aB := true, qB := [readB, readB, readB] } : Jam).st := by
  have h1 := Jam.fillB 4 64 j ht hq ha (by omega)
  rw [hx] at h1
  have h2 := Jam.issueB { j with tB := 4, xB := 0 + 64 } 3 rfl (by simp only [hq]; decide) (by simp only [hq]; decide)
  have h3 := Jam.takeB { j with tB := 3, xB := 0 + 64, qB := j.qB ++ [readB] } [] (by simp [hq]) ha
  have h4 := Jam.issueB { j with tB := 3, xB := 0 + 64, qB := [], aB := true } 2 rfl (by simp only; decide) (by simp only; decide)
  have h5 := Jam.issueB { j with tB := 2, xB := 0 + 64, qB := [readB], aB := true } 1 rfl (by simp only; decide) (by simp only; decide)
  have h6 := Jam.issueB { j with tB := 1, xB := 0 + 64, qB := [readB, readB], aB := true } 0 rfl (by simp only; decide) (by simp only; decide)
  exact h1.trans (h2.trans (h3.trans (h4.trans (h5.trans h6))))

/-- A handles a read, and the next ones move up. -/
theorem Jam.turnB (j : Jam) (r : List TPkt) (hx : j.xB = 64) (ha : j.aB = true) (hq : j.qB = readB :: r) (hb : j.bA = 0) :
    Leads peerNet j.st ({ j with qB := r, bA := 32, dn := j.dn ++ [lastB] } : Jam).st := by
  have h1 := j.handleB 63 hx hb
  have h2 := Jam.passB { j with xB := 63, bA := 32, dn := j.dn ++ [lastB] } ha (by simp only; omega)
  have h3 := Jam.takeB { j with xB := 63 + 1, aB := false, bA := 32, dn := j.dn ++ [lastB] } r hq rfl
  have he : ({ j with xB := 63 + 1, aB := true, qB := r, bA := 32, dn := j.dn ++ [lastB] } : Jam) = { j with qB := r, bA := 32, dn := j.dn ++ [lastB] } := by
    cases j; simp_all
  rw [← he]
  exact h1.trans (h2.trans h3)

/-- A handles three reads; the completions of two of them are in the queue of the switch, those of the third have to wait. -/
theorem Jam.workB (j : Jam) (l : List TPkt) (hx : j.xB = 64) (ha : j.aB = true) (hq : j.qB = readB :: readB :: readB :: l) (hb : j.bA = 0) (hc : hdrUse j.qA .CPL = 0) (hd : dataUse j.qA .CPL = 0) :
    Leads peerNet j.st ({ j with qB := l, qA := j.qA ++ List.replicate 32 cplA ++ List.replicate 32 cplA, bA := 32, dn := j.dn ++ [lastB] ++ [lastB] ++ [lastB] } : Jam).st := by
  have hr : hdrUse (List.replicate 32 cplA) .CPL = 32 := by decide
  have hr' : dataUse (List.replicate 32 cplA) .CPL = 256 := by decide
  have h1 := j.turnB (readB :: readB :: l) hx ha hq hb
  have h2 := Jam.repliesA 0 32 { j with qB := (readB :: readB :: l), bA := 32, dn := j.dn ++ [lastB] } rfl (by simp only; omega) (by simp only; omega)
  have h3 := Jam.turnB { j with qB := (readB :: readB :: l), bA := 0, qA := j.qA ++ List.replicate 32 cplA, dn := j.dn ++ [lastB] } (readB :: l) hx ha rfl rfl
  have h4 := Jam.repliesA 0 32 { j with qB := (readB :: l), bA := 32, qA := j.qA ++ List.replicate 32 cplA, dn := j.dn ++ [lastB] ++ [lastB] } rfl
    (by simp only [hdrUse_append, hr]; omega) (by simp only [dataUse_append, hr']; omega)
  have h5 := Jam.turnB { j with qB := (readB :: l), bA := 0, qA := j.qA ++ List.replicate 32 cplA ++ List.replicate 32 cplA, dn := j.dn ++ [lastB] ++ [lastB] } l hx ha rfl rfl
  exact h1.trans (h2.trans (h3.trans (h4.trans h5)))

/-- Everybody waits. -/
def jammed : Jam :=
  ⟨0, 64, true, List.replicate 32 cplA ++ List.replicate 32 cplA, 32, 0, 64, true, List.replicate 32 cplB ++ List.replicate 32 cplB, 32,
    [lastA, lastA, lastA, lastB, lastB, lastB]⟩

theorem leads_jammed : Leads peerNet (Jam.st ⟨68, 0, false, [], 0, 68, 0, false, [], 0, []⟩) jammed.st := by
  have h1 := Jam.loadA ⟨68, 0, false, [], 0, 68, 0, false, [], 0, []⟩ rfl rfl rfl rfl
  have h2 := Jam.loadB ⟨0, 64, true, [readA, readA, readA], 0, 68, 0, false, [], 0, []⟩ rfl rfl rfl rfl
  have h3 := Jam.workA ⟨0, 64, true, [readA, readA, readA], 0, 0, 64, true, [readB, readB, readB], 0, []⟩ [] rfl rfl rfl rfl (by decide) (by decide)
  have h4 := Jam.workB ⟨0, 64, true, [], 32, 0, 64, true, [readB, readB, readB] ++ List.replicate 32 cplB ++ List.replicate 32 cplB, 0, [lastA, lastA, lastA]⟩
    (List.replicate 32 cplB ++ List.replicate 32 cplB) rfl rfl rfl rfl (by decide) (by decide)
  exact h1.trans (h2.trans (h3.trans h4))

theorem starts (m : Nat) (p : TPkt) : ∀ k, started (List.replicate k (.start m p)) = List.replicate k (m, p)
  | 0 => rfl
  | k + 1 => by simp only [List.replicate_succ, started, starts m p k]

theorem run_starts (N : TNet) (m : Nat) (p : TPkt) : ∀ (k : Nat) (s : TState), s.run N (List.replicate k (.start m p)) = some { s with tasks := setAt s.tasks m (s.tasks m ++ List.replicate k p) }
  | 0, s => by
    simp only [List.replicate_zero, TState.run, List.append_nil, Option.some.injEq]
    refine TState.ext' (fun j => ?_) (fun _ => rfl) (fun _ => rfl) (fun _ => rfl) (fun _ => rfl) rfl
    simp only [setAt]
    split
    · next h => rw [h]
    · rfl
  | k + 1, s => by
    simp only [List.replicate_succ, TState.run, TState.step, Option.bind_some, run_starts N m p k, Option.some.injEq]
    refine TState.ext' (fun j => ?_) (fun _ => rfl) (fun _ => rfl) (fun _ => rfl) (fun _ => rfl) rfl
    simp only [setAt]
    split <;> simp

theorem jam_start : TState.init.run peerNet (List.replicate 68 (.start (upLink 2) readA) ++ List.replicate 68 (.start (upLink 3) readB)) =
    some (Jam.st ⟨68, 0, false, [], 0, 68, 0, false, [], 0, []⟩) := by
  rw [TState.run_append, run_starts, Option.bind_some, run_starts]
  refine congrArg some (TState.ext' (fun m => ?_) (fun m => ?_) (fun m => ?_) (fun m => ?_) (fun m => ?_) rfl)
  · simp only [TState.init, setAt, upLink, Jam.st, List.nil_append]
    by_cases h4 : m = 4
    · subst h4; rfl
    · by_cases h6 : m = 6
      · subst h6; rfl
      · simp [h4, h6]
  all_goals simp [TState.init, Jam.st]

theorem jammed_halted : Halted peerNet jammed.st := by
  have hA : jammed.st.hasCredit peerNet 7 lastA = false := by decide +kernel
  have hB : jammed.st.hasCredit peerNet 5 lastB = false := by decide +kernel
  have hcB : jammed.st.hasCredit peerNet 6 cplB = false := by decide +kernel
  have hcA : jammed.st.hasCredit peerNet 4 cplA = false := by decide +kernel
  intro e s' hs
  cases e with
  | start m p => exact ⟨m, p, rfl⟩
  | send m i =>
    have : jammed.st.tasks m = [] := by simp [Jam.st, jammed]
    simp [TState.step, this] at hs
  | recv m =>
    by_cases h7 : m = 7
    · subst h7
      have : jammed.st.busy 7 = cplB :: List.replicate 31 cplB := rfl
      simp [TState.step, this] at hs
    · by_cases h5 : m = 5
      · subst h5
        have : jammed.st.busy 5 = cplA :: List.replicate 31 cplA := rfl
        simp [TState.step, this] at hs
      · have h1 : jammed.st.busy m = [] := by simp [Jam.st, h5, h7]
        have h2 : jammed.st.rx m = [] := by simp [Jam.st, h5, h7]
        simp [TState.step, h1, h2] at hs
  | take m i =>
    simp only [TState.step] at hs
    split at hs
    · cases hs
    · next p hp =>
      have hm := List.mem_of_getElem? hp
      have : p = cplA ∨ p = cplB := by
        simp only [Jam.st, jammed] at hm
        split at hm
        · exact .inl (by simpa using hm)
        · split at hm
          · exact .inr (by simpa using hm)
          · simp at hm
      rcases this with rfl | rfl
      · simp only [cplA, show jammed.st.arb (downLink 3) = some lastA from rfl] at hs
        cases hs
      · simp only [cplB, show jammed.st.arb (downLink 2) = some lastB from rfl] at hs
        cases hs
  | pass m =>
    by_cases h7 : m = 7
    · subst h7
      simp [TState.step, show jammed.st.arb 7 = some lastA from rfl, hA] at hs
    · by_cases h5 : m = 5
      · subst h5
        simp [TState.step, show jammed.st.arb 5 = some lastB from rfl, hB] at hs
      · have : jammed.st.arb m = none := by simp [Jam.st, h5, h7]
        simp [TState.step, this] at hs
  | reply m =>
    by_cases h7 : m = 7
    · subst h7
      simp [TState.step, show jammed.st.busy 7 = cplB :: List.replicate 31 cplB from rfl, show peerNet.back 7 = 6 from rfl, hcB] at hs
    · by_cases h5 : m = 5
      · subst h5
        simp [TState.step, show jammed.st.busy 5 = cplA :: List.replicate 31 cplA from rfl, show peerNet.back 5 = 4 from rfl, hcA] at hs
      · have : jammed.st.busy m = [] := by simp [Jam.st, h5, h7]
        simp [TState.step, this] at hs

end Pcie
