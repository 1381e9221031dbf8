import Verif.Lemmas.TrafficPeer
/-
How two endpoints that write to each other get stuck when the root complex reads from them.
-/
namespace Pcie
open Pcie.Spec

/-- The states on the way. For each endpoint: its writes in tasks, in the arbitration task of its switch, in the root complex, in its arbitration task, in the other switch, in its arbitration task and in the other
endpoint; the reads that the root complex has still to send, those in the endpoint, the completions that the endpoint is sending, and those in its switch. -/
structure Cross where
  tA : Nat
  hA : Bool
  uA : Nat
  iA : Bool
  vA : Nat
  kA : Bool
  xA : Nat
  rA : Nat
  nA : Nat
  bA : Nat
  cA : Nat
  tB : Nat
  hB : Bool
  uB : Nat
  iB : Bool
  vB : Nat
  kB : Bool
  xB : Nat
  rB : Nat
  nB : Nat
  bB : Nat
  cB : Nat
  dn : List TPkt

/-- A TLP with the rest of its route. -/
def TPkt.at (p : TPkt) (r : List Nat) : TPkt := { p with route := r }

def Cross.st (j : Cross) : TState where
  tasks m := if m = 6 then List.replicate j.tA writeA else if m = 8 then List.replicate j.tB writeB else if m = 1 then List.replicate j.rA hostReadA ++ List.replicate j.rB hostReadB else []
  rx m := if m = 7 then List.replicate j.nA (hostReadA.at []) ++ List.replicate j.xB (writeB.at []) else
    if m = 9 then List.replicate j.nB (hostReadB.at []) ++ List.replicate j.xA (writeA.at []) else []
  q m := if m = 6 then List.replicate j.cA hostCplA else if m = 8 then List.replicate j.cB hostCplB else
    if m = 2 then List.replicate j.uA (writeA.at [5, 9]) else if m = 4 then List.replicate j.uB (writeB.at [3, 7]) else
    if m = 5 then List.replicate j.vA (writeA.at [9]) else if m = 3 then List.replicate j.vB (writeB.at [7]) else []
  arb m := if m = 2 then (if j.hA then some (writeA.at [5, 9]) else none) else if m = 4 then (if j.hB then some (writeB.at [3, 7]) else none) else
    if m = 5 then (if j.iA then some (writeA.at [9]) else none) else if m = 3 then (if j.iB then some (writeB.at [7]) else none) else
    if m = 9 then (if j.kA then some (writeA.at []) else none) else if m = 7 then (if j.kB then some (writeB.at []) else none) else none
  busy m := if m = 7 then List.replicate j.bA hostCplA else if m = 9 then List.replicate j.bB hostCplB else []
  done := j.dn

theorem trun_cons {N : TNet} {s s1 s2 : TState} {e : TEv} {es : List TEv} (h : s.step N e = some s1) (h' : s1.run N es = some s2) : s.run N (e :: es) = some s2 := by
  simp [TState.run, h, h']

theorem trun_nil {N : TNet} {s s' : TState} (h : s = s') : s.run N [] = some s' := by rw [h]; rfl

local macro "cross_credit" : tactic => `(tactic|
  (simp [TState.hasCredit, Cross.st, crossNet, writeA, writeB, hostReadA, hostReadB, hostCplA, hostCplB, upLink, downLink, TPkt.at, hdrUse, dataUse, setAt]))

/-- A sends a write, which the arbitration task of its switch takes. -/
theorem Cross.w1A (j : Cross) (t : Nat) (ht : j.tA = t + 1) (hc : j.cA = 0) (hh : j.hA = false) : Leads crossNet j.st ({ j with tA := t, hA := true } : Cross).st := by
  refine ⟨[.send 6 0, .recv 6, .take 6 0], rfl, trun_cons (step_send (p := writeA) (r := List.replicate t writeA) ?_ ?_) (trun_cons (step_hop (p := writeA) (r := []) (k := 2) (t := [5, 9]) ?_ ?_ rfl)
    (trun_cons (step_take (p := writeA) (r := []) (k := 2) (t := [5, 9]) ?_ rfl ?_) (trun_nil ?_)))⟩
  · simp [setAt, Cross.st, TPkt.at, crossNet, writeA, writeB, hostReadA, hostReadB, hostCplA, hostCplB, upLink, downLink, List.replicate_succ, ht, hc, hh]
  · cross_credit
  · simp [setAt, Cross.st, TPkt.at, crossNet, writeA, writeB, hostReadA, hostReadB, hostCplA, hostCplB, upLink, downLink, List.replicate_succ, ht, hc, hh]
  · simp [setAt, Cross.st, TPkt.at, crossNet, writeA, writeB, hostReadA, hostReadB, hostCplA, hostCplB, upLink, downLink, List.replicate_succ, ht, hc, hh]
  · simp [setAt, Cross.st, TPkt.at, crossNet, writeA, writeB, hostReadA, hostReadB, hostCplA, hostCplB, upLink, downLink, List.replicate_succ, ht, hc, hh]
  · simp [setAt, Cross.st, TPkt.at, crossNet, writeA, writeB, hostReadA, hostReadB, hostCplA, hostCplB, upLink, downLink, List.replicate_succ, ht, hc, hh]
  · refine TState.ext' (fun m => ?_) (fun m => ?_) (fun m => ?_) (fun m => ?_) (fun m => ?_) (by simp [setAt, Cross.st, TPkt.at, crossNet, writeA, writeB, hostReadA, hostReadB, hostCplA, hostCplB, upLink, downLink])
    all_goals
      by_cases h6 : m = 6
      · subst h6; simp [setAt, Cross.st, TPkt.at, crossNet, writeA, writeB, hostReadA, hostReadB, hostCplA, hostCplB, upLink, downLink, List.replicate_succ', ht, hc, hh]
      by_cases h2 : m = 2
      · subst h2; simp [setAt, Cross.st, TPkt.at, crossNet, writeA, writeB, hostReadA, hostReadB, hostCplA, hostCplB, upLink, downLink, List.replicate_succ', ht, hc, hh]
      simp [setAt, Cross.st, TPkt.at, crossNet, writeA, writeB, hostReadA, hostReadB, hostCplA, hostCplB, upLink, downLink, h6, h2]

theorem Cross.w2A (j : Cross) (hh : j.hA = true) (hu : j.uA < 64) : Leads crossNet j.st ({ j with hA := false, uA := j.uA + 1 } : Cross).st := by
  refine ⟨[.pass 2, .recv 2], rfl, trun_cons (step_pass (p := writeA.at [5, 9]) ?_ ?_) (trun_cons (step_hop (p := writeA.at [5, 9]) (r := []) (k := 5) (t := [9]) ?_ ?_ rfl) (trun_nil ?_))⟩
  · simp [setAt, Cross.st, TPkt.at, crossNet, writeA, writeB, hostReadA, hostReadB, hostCplA, hostCplB, upLink, downLink, List.replicate_succ, hh]
  · cross_credit
    omega
  · simp [setAt, Cross.st, TPkt.at, crossNet, writeA, writeB, hostReadA, hostReadB, hostCplA, hostCplB, upLink, downLink, List.replicate_succ, hh]
  · simp [setAt, Cross.st, TPkt.at, crossNet, writeA, writeB, hostReadA, hostReadB, hostCplA, hostCplB, upLink, downLink, List.replicate_succ, hh]
  · refine TState.ext' (fun m => ?_) (fun m => ?_) (fun m => ?_) (fun m => ?_) (fun m => ?_) (by simp [setAt, Cross.st, TPkt.at, crossNet, writeA, writeB, hostReadA, hostReadB, hostCplA, hostCplB, upLink, downLink])
    all_goals
      by_cases h2 : m = 2
      · subst h2; simp [setAt, Cross.st, TPkt.at, crossNet, writeA, writeB, hostReadA, hostReadB, hostCplA, hostCplB, upLink, downLink, List.replicate_succ', hh]
      simp [setAt, Cross.st, TPkt.at, crossNet, writeA, writeB, hostReadA, hostReadB, hostCplA, hostCplB, upLink, downLink, h2]

theorem Cross.w3A (j : Cross) (u : Nat) (hu : j.uA = u + 1) (hi : j.iA = false) : Leads crossNet j.st ({ j with uA := u, iA := true } : Cross).st := by
  refine ⟨[.take 2 0], rfl, trun_cons (step_take (p := writeA.at [5, 9]) (r := List.replicate u (writeA.at [5, 9])) (k := 5) (t := [9]) ?_ rfl ?_) (trun_nil ?_)⟩
  · simp [setAt, Cross.st, TPkt.at, crossNet, writeA, writeB, hostReadA, hostReadB, hostCplA, hostCplB, upLink, downLink, List.replicate_succ, hu, hi]
  · simp [setAt, Cross.st, TPkt.at, crossNet, writeA, writeB, hostReadA, hostReadB, hostCplA, hostCplB, upLink, downLink, List.replicate_succ, hu, hi]
  · refine TState.ext' (fun m => ?_) (fun m => ?_) (fun m => ?_) (fun m => ?_) (fun m => ?_) (by simp [setAt, Cross.st, TPkt.at, crossNet, writeA, writeB, hostReadA, hostReadB, hostCplA, hostCplB, upLink, downLink])
    all_goals
      by_cases h2 : m = 2
      · subst h2; simp [setAt, Cross.st, TPkt.at, crossNet, writeA, writeB, hostReadA, hostReadB, hostCplA, hostCplB, upLink, downLink, List.replicate_succ', hu, hi]
      by_cases h5 : m = 5
      · subst h5; simp [setAt, Cross.st, TPkt.at, crossNet, writeA, writeB, hostReadA, hostReadB, hostCplA, hostCplB, upLink, downLink, List.replicate_succ', hu, hi]
      simp [setAt, Cross.st, TPkt.at, crossNet, writeA, writeB, hostReadA, hostReadB, hostCplA, hostCplB, upLink, downLink, h2, h5]

theorem Cross.w4A (j : Cross) (hi : j.iA = true) (hv : j.vA < 64) : Leads crossNet j.st ({ j with iA := false, vA := j.vA + 1 } : Cross).st := by
  refine ⟨[.pass 5, .recv 5], rfl, trun_cons (step_pass (p := writeA.at [9]) ?_ ?_) (trun_cons (step_hop (p := writeA.at [9]) (r := []) (k := 9) (t := []) ?_ ?_ rfl) (trun_nil ?_))⟩
  · simp [setAt, Cross.st, TPkt.at, crossNet, writeA, writeB, hostReadA, hostReadB, hostCplA, hostCplB, upLink, downLink, List.replicate_succ, hi]
  · cross_credit
    omega
  · simp [setAt, Cross.st, TPkt.at, crossNet, writeA, writeB, hostReadA, hostReadB, hostCplA, hostCplB, upLink, downLink, List.replicate_succ, hi]
  · simp [setAt, Cross.st, TPkt.at, crossNet, writeA, writeB, hostReadA, hostReadB, hostCplA, hostCplB, upLink, downLink, List.replicate_succ, hi]
  · refine TState.ext' (fun m => ?_) (fun m => ?_) (fun m => ?_) (fun m => ?_) (fun m => ?_) (by simp [setAt, Cross.st, TPkt.at, crossNet, writeA, writeB, hostReadA, hostReadB, hostCplA, hostCplB, upLink, downLink])
    all_goals
      by_cases h5 : m = 5
      · subst h5; simp [setAt, Cross.st, TPkt.at, crossNet, writeA, writeB, hostReadA, hostReadB, hostCplA, hostCplB, upLink, downLink, List.replicate_succ', hi]
      simp [setAt, Cross.st, TPkt.at, crossNet, writeA, writeB, hostReadA, hostReadB, hostCplA, hostCplB, upLink, downLink, h5]

theorem Cross.w5A (j : Cross) (v : Nat) (hv : j.vA = v + 1) (hk : j.kA = false) : Leads crossNet j.st ({ j with vA := v, kA := true } : Cross).st := by
  refine ⟨[.take 5 0], rfl, trun_cons (step_take (p := writeA.at [9]) (r := List.replicate v (writeA.at [9])) (k := 9) (t := []) ?_ rfl ?_) (trun_nil ?_)⟩
  · simp [setAt, Cross.st, TPkt.at, crossNet, writeA, writeB, hostReadA, hostReadB, hostCplA, hostCplB, upLink, downLink, List.replicate_succ, hv, hk]
  · simp [setAt, Cross.st, TPkt.at, crossNet, writeA, writeB, hostReadA, hostReadB, hostCplA, hostCplB, upLink, downLink, List.replicate_succ, hv, hk]
  · refine TState.ext' (fun m => ?_) (fun m => ?_) (fun m => ?_) (fun m => ?_) (fun m => ?_) (by simp [setAt, Cross.st, TPkt.at, crossNet, writeA, writeB, hostReadA, hostReadB, hostCplA, hostCplB, upLink, downLink])
    all_goals
      by_cases h5 : m = 5
      · subst h5; simp [setAt, Cross.st, TPkt.at, crossNet, writeA, writeB, hostReadA, hostReadB, hostCplA, hostCplB, upLink, downLink, List.replicate_succ', hv, hk]
      by_cases h9 : m = 9
      · subst h9; simp [setAt, Cross.st, TPkt.at, crossNet, writeA, writeB, hostReadA, hostReadB, hostCplA, hostCplB, upLink, downLink, List.replicate_succ', hv, hk]
      simp [setAt, Cross.st, TPkt.at, crossNet, writeA, writeB, hostReadA, hostReadB, hostCplA, hostCplB, upLink, downLink, h5, h9]

theorem Cross.w6A (j : Cross) (hk : j.kA = true) (hx : j.xA < 64) : Leads crossNet j.st ({ j with kA := false, xA := j.xA + 1 } : Cross).st := by
  refine ⟨[.pass 9], rfl, trun_cons (step_pass (p := writeA.at []) ?_ ?_) (trun_nil ?_)⟩
  · simp [setAt, Cross.st, TPkt.at, crossNet, writeA, writeB, hostReadA, hostReadB, hostCplA, hostCplB, upLink, downLink, List.replicate_succ, hk]
  · cross_credit
    omega
  · refine TState.ext' (fun m => ?_) (fun m => ?_) (fun m => ?_) (fun m => ?_) (fun m => ?_) (by simp [setAt, Cross.st, TPkt.at, crossNet, writeA, writeB, hostReadA, hostReadB, hostCplA, hostCplB, upLink, downLink])
    all_goals
      by_cases h9 : m = 9
      · subst h9; simp [setAt, Cross.st, TPkt.at, crossNet, writeA, writeB, hostReadA, hostReadB, hostCplA, hostCplB, upLink, downLink, List.replicate_succ', hk]
      simp [setAt, Cross.st, TPkt.at, crossNet, writeA, writeB, hostReadA, hostReadB, hostCplA, hostCplB, upLink, downLink, h9]

/-- A handles a read. -/
theorem Cross.handleA (j : Cross) (n : Nat) (hn : j.nA = n + 1) (hb : j.bA = 0) : Leads crossNet j.st ({ j with nA := n, bA := 32, dn := j.dn ++ [hostReadA.at []] } : Cross).st := by
  refine ⟨[.recv 7], rfl, trun_cons (step_end (p := hostReadA.at []) (r := List.replicate n (hostReadA.at []) ++ List.replicate j.xB (writeB.at [])) ?_ ?_ rfl) (trun_nil ?_)⟩
  · simp [setAt, Cross.st, TPkt.at, crossNet, writeA, writeB, hostReadA, hostReadB, hostCplA, hostCplB, upLink, downLink, List.replicate_succ, hn, hb]
  · simp [setAt, Cross.st, TPkt.at, crossNet, writeA, writeB, hostReadA, hostReadB, hostCplA, hostCplB, upLink, downLink, List.replicate_succ, hn, hb]
  · refine TState.ext' (fun m => ?_) (fun m => ?_) (fun m => ?_) (fun m => ?_) (fun m => ?_) (by simp [setAt, Cross.st, TPkt.at, crossNet, writeA, writeB, hostReadA, hostReadB, hostCplA, hostCplB, upLink, downLink])
    all_goals
      by_cases h7 : m = 7
      · subst h7; simp [setAt, Cross.st, TPkt.at, crossNet, writeA, writeB, hostReadA, hostReadB, hostCplA, hostCplB, upLink, downLink, List.replicate_succ', hn, hb]
      simp [setAt, Cross.st, TPkt.at, crossNet, writeA, writeB, hostReadA, hostReadB, hostCplA, hostCplB, upLink, downLink, h7]

/-- A sends a completion, and its switch queues it. -/
theorem Cross.replyA (j : Cross) (b : Nat) (hb : j.bA = b + 1) (hc : j.cA < 64) : Leads crossNet j.st ({ j with bA := b, cA := j.cA + 1 } : Cross).st := by
  refine ⟨[.reply 7, .recv 6], rfl, trun_cons (step_reply (c := hostCplA) (cs := List.replicate b hostCplA) ?_ ?_) (trun_cons (step_hop (p := hostCplA) (r := []) (k := 2) (t := [0]) ?_ ?_ rfl) (trun_nil ?_))⟩
  · simp [setAt, Cross.st, TPkt.at, crossNet, writeA, writeB, hostReadA, hostReadB, hostCplA, hostCplB, upLink, downLink, List.replicate_succ, hb]
  · cross_credit
    omega
  · simp [setAt, Cross.st, TPkt.at, crossNet, writeA, writeB, hostReadA, hostReadB, hostCplA, hostCplB, upLink, downLink, List.replicate_succ, hb]
  · simp [setAt, Cross.st, TPkt.at, crossNet, writeA, writeB, hostReadA, hostReadB, hostCplA, hostCplB, upLink, downLink, List.replicate_succ, hb]
  · refine TState.ext' (fun m => ?_) (fun m => ?_) (fun m => ?_) (fun m => ?_) (fun m => ?_) (by simp [setAt, Cross.st, TPkt.at, crossNet, writeA, writeB, hostReadA, hostReadB, hostCplA, hostCplB, upLink, downLink])
    all_goals
      by_cases h7 : m = 7
      · subst h7; simp [setAt, Cross.st, TPkt.at, crossNet, writeA, writeB, hostReadA, hostReadB, hostCplA, hostCplB, upLink, downLink, List.replicate_succ', hb]
      by_cases h6 : m = 6
      · subst h6; simp [setAt, Cross.st, TPkt.at, crossNet, writeA, writeB, hostReadA, hostReadB, hostCplA, hostCplB, upLink, downLink, List.replicate_succ', hb]
      simp [setAt, Cross.st, TPkt.at, crossNet, writeA, writeB, hostReadA, hostReadB, hostCplA, hostCplB, upLink, downLink, h7, h6]

/-- The root complex sends a read to A. -/
theorem Cross.readA (j : Cross) (r : Nat) (hr : j.rA = r + 1) (hi : j.iB = false) (hv : j.vB = 0) (hk : j.kB = false) (hx : j.xB = 0) (hn : j.nA < 64) :
    Leads crossNet j.st ({ j with rA := r, nA := j.nA + 1 } : Cross).st := by
  refine ⟨[.send 1 0, .recv 1, .take 1 0, .pass 3, .recv 3, .take 3 0, .pass 7], rfl,
    trun_cons (step_send (p := hostReadA) (r := List.replicate r hostReadA ++ List.replicate j.rB hostReadB) ?_ ?_) (trun_cons (step_hop (p := hostReadA) (r := []) (k := 3) (t := [7]) ?_ ?_ rfl)
    (trun_cons (step_take (p := hostReadA) (r := []) (k := 3) (t := [7]) ?_ rfl ?_) (trun_cons (step_pass (p := hostReadA.at [7]) ?_ ?_)
    (trun_cons (step_hop (p := hostReadA.at [7]) (r := []) (k := 7) (t := []) ?_ ?_ rfl) (trun_cons (step_take (p := hostReadA.at [7]) (r := []) (k := 7) (t := []) ?_ rfl ?_)
    (trun_cons (step_pass (p := hostReadA.at []) ?_ ?_) (trun_nil ?_)))))))⟩
  · simp [setAt, Cross.st, TPkt.at, crossNet, writeA, writeB, hostReadA, hostReadB, hostCplA, hostCplB, upLink, downLink, List.replicate_succ, hr, hi, hv, hk, hx]
  · cross_credit
  · simp [setAt, Cross.st, TPkt.at, crossNet, writeA, writeB, hostReadA, hostReadB, hostCplA, hostCplB, upLink, downLink, List.replicate_succ, hr, hi, hv, hk, hx]
  · simp [setAt, Cross.st, TPkt.at, crossNet, writeA, writeB, hostReadA, hostReadB, hostCplA, hostCplB, upLink, downLink, List.replicate_succ, hr, hi, hv, hk, hx]
  · simp [setAt, Cross.st, TPkt.at, crossNet, writeA, writeB, hostReadA, hostReadB, hostCplA, hostCplB, upLink, downLink, List.replicate_succ, hr, hi, hv, hk, hx]
  · simp [setAt, Cross.st, TPkt.at, crossNet, writeA, writeB, hostReadA, hostReadB, hostCplA, hostCplB, upLink, downLink, List.replicate_succ, hr, hi, hv, hk, hx]
  · simp [setAt, Cross.st, TPkt.at, crossNet, writeA, writeB, hostReadA, hostReadB, hostCplA, hostCplB, upLink, downLink, List.replicate_succ, hr, hi, hv, hk, hx]
  · cross_credit
    try simp [hv]
  · simp [setAt, Cross.st, TPkt.at, crossNet, writeA, writeB, hostReadA, hostReadB, hostCplA, hostCplB, upLink, downLink, List.replicate_succ, hr, hi, hv, hk, hx]
  · simp [setAt, Cross.st, TPkt.at, crossNet, writeA, writeB, hostReadA, hostReadB, hostCplA, hostCplB, upLink, downLink, List.replicate_succ, hr, hi, hv, hk, hx]
  · simp [setAt, Cross.st, TPkt.at, crossNet, writeA, writeB, hostReadA, hostReadB, hostCplA, hostCplB, upLink, downLink, List.replicate_succ, hr, hi, hv, hk, hx]
  · simp [setAt, Cross.st, TPkt.at, crossNet, writeA, writeB, hostReadA, hostReadB, hostCplA, hostCplB, upLink, downLink, List.replicate_succ, hr, hi, hv, hk, hx]
  · simp [setAt, Cross.st, TPkt.at, crossNet, writeA, writeB, hostReadA, hostReadB, hostCplA, hostCplB, upLink, downLink, List.replicate_succ, hr, hi, hv, hk, hx]
  · cross_credit
    omega
  · refine TState.ext' (fun m => ?_) (fun m => ?_) (fun m => ?_) (fun m => ?_) (fun m => ?_) (by simp [setAt, Cross.st, TPkt.at, crossNet, writeA, writeB, hostReadA, hostReadB, hostCplA, hostCplB, upLink, downLink])
    all_goals
      by_cases h1 : m = 1
      · subst h1; simp [setAt, Cross.st, TPkt.at, crossNet, writeA, writeB, hostReadA, hostReadB, hostCplA, hostCplB, upLink, downLink, List.replicate_succ', hr, hi, hv, hk, hx]
      by_cases h3 : m = 3
      · subst h3; simp [setAt, Cross.st, TPkt.at, crossNet, writeA, writeB, hostReadA, hostReadB, hostCplA, hostCplB, upLink, downLink, List.replicate_succ', hr, hi, hv, hk, hx]
      by_cases h7 : m = 7
      · subst h7; simp [setAt, Cross.st, TPkt.at, crossNet, writeA, writeB, hostReadA, hostReadB, hostCplA, hostCplB, upLink, downLink, List.replicate_succ', hr, hi, hv, hk, hx]
      simp [setAt, Cross.st, TPkt.at, crossNet, writeA, writeB, hostReadA, hostReadB, hostCplA, hostCplB, upLink, downLink, h1, h3, h7]

/-- B sends a write, which the arbitration task of its switch takes. -/
theorem Cross.w1B (j : Cross) (t : Nat) (ht : j.tB = t + 1) (hc : j.cB = 0) (hh : j.hB = false) : Leads crossNet j.st ({ j with tB := t, hB := true } : Cross).st := by
  refine ⟨[.send 8 0, .recv 8, .take 8 0], rfl, trun_cons (step_send (p := writeB) (r := List.replicate t writeB) ?_ ?_) (trun_cons (step_hop (p := writeB) (r := []) (k := 4) (t := [3, 7]) ?_ ?_ rfl)
    (trun_cons (step_take (p := writeB) (r := []) (k := 4) (t := [3, 7]) ?_ rfl ?_) (trun_nil ?_)))⟩
  · simp [setAt, Cross.st, TPkt.at, crossNet, writeA, writeB, hostReadA, hostReadB, hostCplA, hostCplB, upLink, downLink, List.replicate_succ, ht, hc, hh]
  · cross_credit
  · simp [setAt, Cross.st, TPkt.at, crossNet, writeA, writeB, hostReadA, hostReadB, hostCplA, hostCplB, upLink, downLink, List.replicate_succ, ht, hc, hh]
  · simp [setAt, Cross.st, TPkt.at, crossNet, writeA, writeB, hostReadA, hostReadB, hostCplA, hostCplB, upLink, downLink, List.replicate_succ, ht, hc, hh]
  · simp [setAt, Cross.st, TPkt.at, crossNet, writeA, writeB, hostReadA, hostReadB, hostCplA, hostCplB, upLink, downLink, List.replicate_succ, ht, hc, hh]
  · simp [setAt, Cross.st, TPkt.at, crossNet, writeA, writeB, hostReadA, hostReadB, hostCplA, hostCplB, upLink, downLink, List.replicate_succ, ht, hc, hh]
  · refine TState.ext' (fun m => ?_) (fun m => ?_) (fun m => ?_) (fun m => ?_) (fun m => ?_) (by simp [setAt, Cross.st, TPkt.at, crossNet, writeA, writeB, hostReadA, hostReadB, hostCplA, hostCplB, upLink, downLink])
    all_goals
      by_cases h8 : m = 8
      · subst h8; simp [setAt, Cross.st, TPkt.at, crossNet, writeA, writeB, hostReadA, hostReadB, hostCplA, hostCplB, upLink, downLink, List.replicate_succ', ht, hc, hh]
      by_cases h4 : m = 4
      · subst h4; simp [setAt, Cross.st, TPkt.at, crossNet, writeA, writeB, hostReadA, hostReadB, hostCplA, hostCplB, upLink, downLink, List.replicate_succ', ht, hc, hh]
      simp [setAt, Cross.st, TPkt.at, crossNet, writeA, writeB, hostReadA, hostReadB, hostCplA, hostCplB, upLink, downLink, h8, h4]

theorem Cross.w2B (j : Cross) (hh : j.hB = true) (hu : j.uB < 64) : Leads crossNet j.st ({ j with hB := false, uB := j.uB + 1 } : Cross).st := by
  refine ⟨[.pass 4, .recv 4], rfl, trun_cons (step_pass (p := writeB.at [3, 7]) ?_ ?_) (trun_cons (step_hop (p := writeB.at [3, 7]) (r := []) (k := 3) (t := [7]) ?_ ?_ rfl) (trun_nil ?_))⟩
  · simp [setAt, Cross.st, TPkt.at, crossNet, writeA, writeB, hostReadA, hostReadB, hostCplA, hostCplB, upLink, downLink, List.replicate_succ, hh]
  · cross_credit
    omega
  · simp [setAt, Cross.st, TPkt.at, crossNet, writeA, writeB, hostReadA, hostReadB, hostCplA, hostCplB, upLink, downLink, List.replicate_succ, hh]
  · simp [setAt, Cross.st, TPkt.at, crossNet, writeA, writeB, hostReadA, hostReadB, hostCplA, hostCplB, upLink, downLink, List.replicate_succ, hh]
  · refine TState.ext' (fun m => ?_) (fun m => ?_) (fun m => ?_) (fun m => ?_) (fun m => ?_) (by simp [setAt, Cross.st, TPkt.at, crossNet, writeA, writeB, hostReadA, hostReadB, hostCplA, hostCplB, upLink, downLink])
    all_goals
      by_cases h4 : m = 4
      · subst h4; simp [setAt, Cross.st, TPkt.at, crossNet, writeA, writeB, hostReadA, hostReadB, hostCplA, hostCplB, upLink, downLink, List.replicate_succ', hh]
      simp [setAt, Cross.st, TPkt.at, crossNet, writeA, writeB, hostReadA, hostReadB, hostCplA, hostCplB, upLink, downLink, h4]

theorem Cross.w3B (j : Cross) (u : Nat) (hu : j.uB = u + 1) (hi : j.iB = false) : Leads crossNet j.st ({ j with uB := u, iB := true } : Cross).st := by
  refine ⟨[.take 4 0], rfl, trun_cons (step_take (p := writeB.at [3, 7]) (r := List.replicate u (writeB.at [3, 7])) (k := 3) (t := [7]) ?_ rfl ?_) (trun_nil ?_)⟩
  · simp [setAt, Cross.st, TPkt.at, crossNet, writeA, writeB, hostReadA, hostReadB, hostCplA, hostCplB, upLink, downLink, List.replicate_succ, hu, hi]
  · simp [setAt, Cross.st, TPkt.at, crossNet, writeA, writeB, hostReadA, hostReadB, hostCplA, hostCplB, upLink, downLink, List.replicate_succ, hu, hi]
  · refine TState.ext' (fun m => ?_) (fun m => ?_) (fun m => ?_) (fun m => ?_) (fun m => ?_) (by simp [setAt, Cross.st, TPkt.at, crossNet, writeA, writeB, hostReadA, hostReadB, hostCplA, hostCplB, upLink, downLink])
    all_goals
      by_cases h4 : m = 4
      · subst h4; simp [setAt, Cross.st, TPkt.at, crossNet, writeA, writeB, hostReadA, hostReadB, hostCplA, hostCplB, upLink, downLink, List.replicate_succ', hu, hi]
      by_cases h3 : m = 3
      · subst h3; simp [setAt, Cross.st, TPkt.at, crossNet, writeA, writeB, hostReadA, hostReadB, hostCplA, hostCplB, upLink, downLink, List.replicate_succ', hu, hi]
      simp [setAt, Cross.st, TPkt.at, crossNet, writeA, writeB, hostReadA, hostReadB, hostCplA, hostCplB, upLink, downLink, h4, h3]

theorem Cross.w4B (j : Cross) (hi : j.iB = true) (hv : j.vB < 64) : Leads crossNet j.st ({ j with iB := false, vB := j.vB + 1 } : Cross).st := by
  refine ⟨[.pass 3, .recv 3], rfl, trun_cons (step_pass (p := writeB.at [7]) ?_ ?_) (trun_cons (step_hop (p := writeB.at [7]) (r := []) (k := 7) (t := []) ?_ ?_ rfl) (trun_nil ?_))⟩
  · simp [setAt, Cross.st, TPkt.at, crossNet, writeA, writeB, hostReadA, hostReadB, hostCplA, hostCplB, upLink, downLink, List.replicate_succ, hi]
  · cross_credit
    omega
  · simp [setAt, Cross.st, TPkt.at, crossNet, writeA, writeB, hostReadA, hostReadB, hostCplA, hostCplB, upLink, downLink, List.replicate_succ, hi]
  · simp [setAt, Cross.st, TPkt.at, crossNet, writeA, writeB, hostReadA, hostReadB, hostCplA, hostCplB, upLink, downLink, List.replicate_succ, hi]
  · refine TState.ext' (fun m => ?_) (fun m => ?_) (fun m => ?_) (fun m => ?_) (fun m => ?_) (by simp [setAt, Cross.st, TPkt.at, crossNet, writeA, writeB, hostReadA, hostReadB, hostCplA, hostCplB, upLink, downLink])
    all_goals
      by_cases h3 : m = 3
      · subst h3; simp [setAt, Cross.st, TPkt.at, crossNet, writeA, writeB, hostReadA, hostReadB, hostCplA, hostCplB, upLink, downLink, List.replicate_succ', hi]
      simp [setAt, Cross.st, TPkt.at, crossNet, writeA, writeB, hostReadA, hostReadB, hostCplA, hostCplB, upLink, downLink, h3]

theorem Cross.w5B (j : Cross) (v : Nat) (hv : j.vB = v + 1) (hk : j.kB = false) : Leads crossNet j.st ({ j with vB := v, kB := true } : Cross).st := by
  refine ⟨[.take 3 0], rfl, trun_cons (step_take (p := writeB.at [7]) (r := List.replicate v (writeB.at [7])) (k := 7) (t := []) ?_ rfl ?_) (trun_nil ?_)⟩
  · simp [setAt, Cross.st, TPkt.at, crossNet, writeA, writeB, hostReadA, hostReadB, hostCplA, hostCplB, upLink, downLink, List.replicate_succ, hv, hk]
  · simp [setAt, Cross.st, TPkt.at, crossNet, writeA, writeB, hostReadA, hostReadB, hostCplA, hostCplB, upLink, downLink, List.replicate_succ, hv, hk]
  · refine TState.ext' (fun m => ?_) (fun m => ?_) (fun m => ?_) (fun m => ?_) (fun m => ?_) (by simp [setAt, Cross.st, TPkt.at, crossNet, writeA, writeB, hostReadA, hostReadB, hostCplA, hostCplB, upLink, downLink])
    all_goals
      by_cases h3 : m = 3
      · subst h3; simp [setAt, Cross.st, TPkt.at, crossNet, writeA, writeB, hostReadA, hostReadB, hostCplA, hostCplB, upLink, downLink, List.replicate_succ', hv, hk]
      by_cases h7 : m = 7
      · subst h7; simp [setAt, Cross.st, TPkt.at, crossNet, writeA, writeB, hostReadA, hostReadB, hostCplA, hostCplB, upLink, downLink, List.replicate_succ', hv, hk]
      simp [setAt, Cross.st, TPkt.at, crossNet, writeA, writeB, hostReadA, hostReadB, hostCplA, hostCplB, upLink, downLink, h3, h7]

theorem Cross.w6B (j : Cross) (hk : j.kB = true) (hx : j.xB < 64) : Leads crossNet j.st ({ j with kB := false, xB := j.xB + 1 } : Cross).st := by
  refine ⟨[.pass 7], rfl, trun_cons (step_pass (p := writeB.at []) ?_ ?_) (trun_nil ?_)⟩
  · simp [setAt, Cross.st, TPkt.at, crossNet, writeA, writeB, hostReadA, hostReadB, hostCplA, hostCplB, upLink, downLink, List.replicate_succ, hk]
  · cross_credit
    omega
  · refine TState.ext' (fun m => ?_) (fun m => ?_) (fun m => ?_) (fun m => ?_) (fun m => ?_) (by simp [setAt, Cross.st, TPkt.at, crossNet, writeA, writeB, hostReadA, hostReadB, hostCplA, hostCplB, upLink, downLink])
    all_goals
      by_cases h7 : m = 7
      · subst h7; simp [setAt, Cross.st, TPkt.at, crossNet, writeA, writeB, hostReadA, hostReadB, hostCplA, hostCplB, upLink, downLink, List.replicate_succ', hk]
      simp [setAt, Cross.st, TPkt.at, crossNet, writeA, writeB, hostReadA, hostReadB, hostCplA, hostCplB, upLink, downLink, h7]

/-- B handles a read. -/
theorem Cross.handleB (j : Cross) (n : Nat) (hn : j.nB = n + 1) (hb : j.bB = 0) : Leads crossNet j.st ({ j with nB := n, bB := 32, dn := j.dn ++ [hostReadB.at []] } : Cross).st := by
  refine ⟨[.recv 9], rfl, trun_cons (step_end (p := hostReadB.at []) (r := List.replicate n (hostReadB.at []) ++ List.replicate j.xA (writeA.at [])) ?_ ?_ rfl) (trun_nil ?_)⟩
  · simp [setAt, Cross.st, TPkt.at, crossNet, writeA, writeB, hostReadA, hostReadB, hostCplA, hostCplB, upLink, downLink, List.replicate_succ, hn, hb]
  · simp [setAt, Cross.st, TPkt.at, crossNet, writeA, writeB, hostReadA, hostReadB, hostCplA, hostCplB, upLink, downLink, List.replicate_succ, hn, hb]
  · refine TState.ext' (fun m => ?_) (fun m => ?_) (fun m => ?_) (fun m => ?_) (fun m => ?_) (by simp [setAt, Cross.st, TPkt.at, crossNet, writeA, writeB, hostReadA, hostReadB, hostCplA, hostCplB, upLink, downLink])
    all_goals
      by_cases h9 : m = 9
      · subst h9; simp [setAt, Cross.st, TPkt.at, crossNet, writeA, writeB, hostReadA, hostReadB, hostCplA, hostCplB, upLink, downLink, List.replicate_succ', hn, hb]
      simp [setAt, Cross.st, TPkt.at, crossNet, writeA, writeB, hostReadA, hostReadB, hostCplA, hostCplB, upLink, downLink, h9]

/-- B sends a completion, and its switch queues it. -/
theorem Cross.replyB (j : Cross) (b : Nat) (hb : j.bB = b + 1) (hc : j.cB < 64) : Leads crossNet j.st ({ j with bB := b, cB := j.cB + 1 } : Cross).st := by
  refine ⟨[.reply 9, .recv 8], rfl, trun_cons (step_reply (c := hostCplB) (cs := List.replicate b hostCplB) ?_ ?_) (trun_cons (step_hop (p := hostCplB) (r := []) (k := 4) (t := [0]) ?_ ?_ rfl) (trun_nil ?_))⟩
  · simp [setAt, Cross.st, TPkt.at, crossNet, writeA, writeB, hostReadA, hostReadB, hostCplA, hostCplB, upLink, downLink, List.replicate_succ, hb]
  · cross_credit
    omega
  · simp [setAt, Cross.st, TPkt.at, crossNet, writeA, writeB, hostReadA, hostReadB, hostCplA, hostCplB, upLink, downLink, List.replicate_succ, hb]
  · simp [setAt, Cross.st, TPkt.at, crossNet, writeA, writeB, hostReadA, hostReadB, hostCplA, hostCplB, upLink, downLink, List.replicate_succ, hb]
  · refine TState.ext' (fun m => ?_) (fun m => ?_) (fun m => ?_) (fun m => ?_) (fun m => ?_) (by simp [setAt, Cross.st, TPkt.at, crossNet, writeA, writeB, hostReadA, hostReadB, hostCplA, hostCplB, upLink, downLink])
    all_goals
      by_cases h9 : m = 9
      · subst h9; simp [setAt, Cross.st, TPkt.at, crossNet, writeA, writeB, hostReadA, hostReadB, hostCplA, hostCplB, upLink, downLink, List.replicate_succ', hb]
      by_cases h8 : m = 8
      · subst h8; simp [setAt, Cross.st, TPkt.at, crossNet, writeA, writeB, hostReadA, hostReadB, hostCplA, hostCplB, upLink, downLink, List.replicate_succ', hb]
      simp [setAt, Cross.st, TPkt.at, crossNet, writeA, writeB, hostReadA, hostReadB, hostCplA, hostCplB, upLink, downLink, h9, h8]

/-- The root complex sends a read to B. -/
theorem Cross.readB (j : Cross) (r : Nat) (hr : j.rB = r + 1) (hA : j.rA = 0) (hi : j.iA = false) (hv : j.vA = 0) (hk : j.kA = false) (hx : j.xA = 0) (hn : j.nB < 64) :
    Leads crossNet j.st ({ j with rB := r, nB := j.nB + 1 } : Cross).st := by
  refine ⟨[.send 1 0, .recv 1, .take 1 0, .pass 5, .recv 5, .take 5 0, .pass 9], rfl,
    trun_cons (step_send (p := hostReadB) (r := List.replicate r hostReadB) ?_ ?_) (trun_cons (step_hop (p := hostReadB) (r := []) (k := 5) (t := [9]) ?_ ?_ rfl)
    (trun_cons (step_take (p := hostReadB) (r := []) (k := 5) (t := [9]) ?_ rfl ?_) (trun_cons (step_pass (p := hostReadB.at [9]) ?_ ?_)
    (trun_cons (step_hop (p := hostReadB.at [9]) (r := []) (k := 9) (t := []) ?_ ?_ rfl) (trun_cons (step_take (p := hostReadB.at [9]) (r := []) (k := 9) (t := []) ?_ rfl ?_)
    (trun_cons (step_pass (p := hostReadB.at []) ?_ ?_) (trun_nil ?_)))))))⟩
  · simp [setAt, Cross.st, TPkt.at, crossNet, writeA, writeB, hostReadA, hostReadB, hostCplA, hostCplB, upLink, downLink, List.replicate_succ, hr, hi, hv, hk, hx, hA]
  · cross_credit
  · simp [setAt, Cross.st, TPkt.at, crossNet, writeA, writeB, hostReadA, hostReadB, hostCplA, hostCplB, upLink, downLink, List.replicate_succ, hr, hi, hv, hk, hx, hA]
  · simp [setAt, Cross.st, TPkt.at, crossNet, writeA, writeB, hostReadA, hostReadB, hostCplA, hostCplB, upLink, downLink, List.replicate_succ, hr, hi, hv, hk, hx, hA]
  · simp [setAt, Cross.st, TPkt.at, crossNet, writeA, writeB, hostReadA, hostReadB, hostCplA, hostCplB, upLink, downLink, List.replicate_succ, hr, hi, hv, hk, hx, hA]
  · simp [setAt, Cross.st, TPkt.at, crossNet, writeA, writeB, hostReadA, hostReadB, hostCplA, hostCplB, upLink, downLink, List.replicate_succ, hr, hi, hv, hk, hx, hA]
  · simp [setAt, Cross.st, TPkt.at, crossNet, writeA, writeB, hostReadA, hostReadB, hostCplA, hostCplB, upLink, downLink, List.replicate_succ, hr, hi, hv, hk, hx, hA]
  · cross_credit
    try simp [hv]
  · simp [setAt, Cross.st, TPkt.at, crossNet, writeA, writeB, hostReadA, hostReadB, hostCplA, hostCplB, upLink, downLink, List.replicate_succ, hr, hi, hv, hk, hx, hA]
  · simp [setAt, Cross.st, TPkt.at, crossNet, writeA, writeB, hostReadA, hostReadB, hostCplA, hostCplB, upLink, downLink, List.replicate_succ, hr, hi, hv, hk, hx, hA]
  · simp [setAt, Cross.st, TPkt.at, crossNet, writeA, writeB, hostReadA, hostReadB, hostCplA, hostCplB, upLink, downLink, List.replicate_succ, hr, hi, hv, hk, hx, hA]
  · simp [setAt, Cross.st, TPkt.at, crossNet, writeA, writeB, hostReadA, hostReadB, hostCplA, hostCplB, upLink, downLink, List.replicate_succ, hr, hi, hv, hk, hx, hA]
  · simp [setAt, Cross.st, TPkt.at, crossNet, writeA, writeB, hostReadA, hostReadB, hostCplA, hostCplB, upLink, downLink, List.replicate_succ, hr, hi, hv, hk, hx, hA]
  · cross_credit
    omega
  · refine TState.ext' (fun m => ?_) (fun m => ?_) (fun m => ?_) (fun m => ?_) (fun m => ?_) (by simp [setAt, Cross.st, TPkt.at, crossNet, writeA, writeB, hostReadA, hostReadB, hostCplA, hostCplB, upLink, downLink])
    all_goals
      by_cases h1 : m = 1
      · subst h1; simp [setAt, Cross.st, TPkt.at, crossNet, writeA, writeB, hostReadA, hostReadB, hostCplA, hostCplB, upLink, downLink, List.replicate_succ', hr, hi, hv, hk, hx, hA]
      by_cases h5 : m = 5
      · subst h5; simp [setAt, Cross.st, TPkt.at, crossNet, writeA, writeB, hostReadA, hostReadB, hostCplA, hostCplB, upLink, downLink, List.replicate_succ', hr, hi, hv, hk, hx, hA]
      by_cases h9 : m = 9
      · subst h9; simp [setAt, Cross.st, TPkt.at, crossNet, writeA, writeB, hostReadA, hostReadB, hostCplA, hostCplB, upLink, downLink, List.replicate_succ', hr, hi, hv, hk, hx, hA]
      simp [setAt, Cross.st, TPkt.at, crossNet, writeA, writeB, hostReadA, hostReadB, hostCplA, hostCplB, upLink, downLink, h1, h5, h9]

/-- Writes of A go all the way to the other endpoint. -/
theorem Cross.fillXA (t : Nat) : ∀ (k : Nat) (j : Cross), j.tA = t + k → j.cA = 0 → j.hA = false → j.uA = 0 → j.iA = false → j.vA = 0 → j.kA = false → j.xA + k ≤ 64 →
    Leads crossNet j.st ({ j with tA := t, xA := j.xA + k } : Cross).st
  | 0, j, ht, _, _, _, _, _, _, _ => by
    have : ({ j with tA := t, xA := j.xA + 0 } : Cross) = j := by cases j; simp_all
    rw [this]
    exact Leads.refl _ _
  | k + 1, j, ht, hc, hh, hu, hi, hv, hk, hx => by
    have h1 := j.w1A (t + k) ht hc hh
    have h2 := Cross.w2A { j with tA := t + k, hA := true } rfl (by simp only; omega)
    have h3 := Cross.w3A { j with tA := t + k, hA := false, uA := j.uA + 1 } j.uA rfl hi
    have h4 := Cross.w4A { j with tA := t + k, hA := false, iA := true } rfl (by simp only; omega)
    have h5 := Cross.w5A { j with tA := t + k, hA := false, iA := false, vA := j.vA + 1 } j.vA rfl hk
    have h6 := Cross.w6A { j with tA := t + k, hA := false, iA := false, kA := true } rfl (by simp only; omega)
    have h7 := Cross.fillXA t k { j with tA := t + k, hA := false, iA := false, kA := false, xA := j.xA + 1 } rfl hc rfl hu rfl hv rfl (by simp only; omega)
    have he : ({ j with tA := t, hA := false, iA := false, kA := false, xA := j.xA + 1 + k } : Cross) = { j with tA := t, xA := j.xA + (k + 1) } := by
      simp only [hh, hi, hk, Nat.add_assoc, Nat.add_comm 1 k]
    rw [← he]
    exact h1.trans (h2.trans (h3.trans (h4.trans (h5.trans (h6.trans h7)))))

/-- Writes of A go to the other switch. -/
theorem Cross.fillVA (t : Nat) : ∀ (k : Nat) (j : Cross), j.tA = t + k → j.cA = 0 → j.hA = false → j.uA = 0 → j.iA = false → j.vA + k ≤ 64 →
    Leads crossNet j.st ({ j with tA := t, vA := j.vA + k } : Cross).st
  | 0, j, ht, _, _, _, _, _ => by
    have : ({ j with tA := t, vA := j.vA + 0 } : Cross) = j := by cases j; simp_all
    rw [this]
    exact Leads.refl _ _
  | k + 1, j, ht, hc, hh, hu, hi, hv => by
    have h1 := j.w1A (t + k) ht hc hh
    have h2 := Cross.w2A { j with tA := t + k, hA := true } rfl (by simp only; omega)
    have h3 := Cross.w3A { j with tA := t + k, hA := false, uA := j.uA + 1 } j.uA rfl hi
    have h4 := Cross.w4A { j with tA := t + k, hA := false, iA := true } rfl (by simp only; omega)
    have h7 := Cross.fillVA t k { j with tA := t + k, hA := false, iA := false, vA := j.vA + 1 } rfl hc rfl hu rfl (by simp only; omega)
    have he : ({ j with tA := t, hA := false, iA := false, vA := j.vA + 1 + k } : Cross) = { j with tA := t, vA := j.vA + (k + 1) } := by
      simp only [hh, hi, Nat.add_assoc, Nat.add_comm 1 k]
    rw [← he]
    exact h1.trans (h2.trans (h3.trans (h4.trans h7)))

/-- Writes of A go to the root complex. -/
theorem Cross.fillUA (t : Nat) : ∀ (k : Nat) (j : Cross), j.tA = t + k → j.cA = 0 → j.hA = false → j.uA + k ≤ 64 →
    Leads crossNet j.st ({ j with tA := t, uA := j.uA + k } : Cross).st
  | 0, j, ht, _, _, _ => by
    have : ({ j with tA := t, uA := j.uA + 0 } : Cross) = j := by cases j; simp_all
    rw [this]
    exact Leads.refl _ _
  | k + 1, j, ht, hc, hh, hu => by
    have h1 := j.w1A (t + k) ht hc hh
    have h2 := Cross.w2A { j with tA := t + k, hA := true } rfl (by simp only; omega)
    have h7 := Cross.fillUA t k { j with tA := t + k, hA := false, uA := j.uA + 1 } rfl hc rfl (by simp only; omega)
    have he : ({ j with tA := t, hA := false, uA := j.uA + 1 + k } : Cross) = { j with tA := t, uA := j.uA + (k + 1) } := by
      simp only [hh, Nat.add_assoc, Nat.add_comm 1 k]
    rw [← he]
    exact h1.trans (h2.trans h7)

/-- A sends `k` completions. -/
theorem Cross.repliesA (b : Nat) : ∀ (k : Nat) (j : Cross), j.bA = b + k → j.cA + k ≤ 64 → Leads crossNet j.st ({ j with bA := b, cA := j.cA + k } : Cross).st
  | 0, j, hb, _ => by
    have : ({ j with bA := b, cA := j.cA + 0 } : Cross) = j := by cases j; simp_all
    rw [this]
    exact Leads.refl _ _
  | k + 1, j, hb, hc => by
    have h1 := j.replyA (b + k) hb (by omega)
    have h2 := Cross.repliesA b k { j with bA := b + k, cA := j.cA + 1 } rfl (by simp only; omega)
    have he : ({ j with bA := b, cA := j.cA + 1 + k } : Cross) = { j with bA := b, cA := j.cA + (k + 1) } := by
      rw [Nat.add_assoc, Nat.add_comm 1 k]
    rw [← he]
    exact h1.trans h2

/-- The writes of A fill all places. -/
theorem Cross.loadA (j : Cross) : Leads crossNet ({ j with tA := 195, cA := 0, hA := false, uA := 0, iA := false, vA := 0, kA := false, xA := 0 } : Cross).st ({ j with tA := 0, cA := 0, hA := true, uA := 64, iA := true, vA := 64, kA := true, xA := 64 } : Cross).st := by
  have h1 := Cross.fillXA 131 64 { j with tA := 195, cA := 0, hA := false, uA := 0, iA := false, vA := 0, kA := false, xA := 0 } rfl rfl rfl rfl rfl rfl rfl (by simp only; omega)
  have h2 := Cross.w1A { j with tA := 131, cA := 0, hA := false, uA := 0, iA := false, vA := 0, kA := false, xA := 64 } 130 rfl rfl rfl
  have h3 := Cross.w2A { j with tA := 130, cA := 0, hA := true, uA := 0, iA := false, vA := 0, kA := false, xA := 64 } rfl (by simp only; omega)
  have h4 := Cross.w3A { j with tA := 130, cA := 0, hA := false, uA := 1, iA := false, vA := 0, kA := false, xA := 64 } 0 rfl rfl
  have h5 := Cross.w4A { j with tA := 130, cA := 0, hA := false, uA := 0, iA := true, vA := 0, kA := false, xA := 64 } rfl (by simp only; omega)
  have h6 := Cross.w5A { j with tA := 130, cA := 0, hA := false, uA := 0, iA := false, vA := 1, kA := false, xA := 64 } 0 rfl rfl
  have h7 := Cross.fillVA 66 64 { j with tA := 130, cA := 0, hA := false, uA := 0, iA := false, vA := 0, kA := true, xA := 64 } rfl rfl rfl rfl rfl (by simp only; omega)
  have h8 := Cross.w1A { j with tA := 66, cA := 0, hA := false, uA := 0, iA := false, vA := 64, kA := true, xA := 64 } 65 rfl rfl rfl
  have h9 := Cross.w2A { j with tA := 65, cA := 0, hA := true, uA := 0, iA := false, vA := 64, kA := true, xA := 64 } rfl (by simp only; omega)
  have h10 := Cross.w3A { j with tA := 65, cA := 0, hA := false, uA := 1, iA := false, vA := 64, kA := true, xA := 64 } 0 rfl rfl
  have h11 := Cross.fillUA 1 64 { j with tA := 65, cA := 0, hA := false, uA := 0, iA := true, vA := 64, kA := true, xA := 64 } rfl rfl rfl (by simp only; omega)
  have h12 := Cross.w1A { j with tA := 1, cA := 0, hA := false, uA := 64, iA := true, vA := 64, kA := true, xA := 64 } 0 rfl rfl rfl
  exact h1.trans (h2.trans (h3.trans (h4.trans (h5.trans (h6.trans (h7.trans (h8.trans (h9.trans (h10.trans (h11.trans (h12)))))))))))

/-- A handles three reads; the completions of the third have to wait. -/
theorem Cross.workA (j : Cross) (hn : j.nA = 3) (hb : j.bA = 0) (hc : j.cA = 0) :
    Leads crossNet j.st ({ j with nA := 0, bA := 32, cA := 64, dn := j.dn ++ [hostReadA.at []] ++ [hostReadA.at []] ++ [hostReadA.at []] } : Cross).st := by
  have h1 := j.handleA 2 hn hb
  have h2 := Cross.repliesA 0 32 { j with nA := 2, bA := 32, dn := j.dn ++ [hostReadA.at []] } rfl (by simp only; omega)
  simp only [hc] at h2
  have h3 := Cross.handleA { j with nA := 2, bA := 0, cA := 0 + 32, dn := j.dn ++ [hostReadA.at []] } 1 rfl rfl
  have h4 := Cross.repliesA 0 32 { j with nA := 1, bA := 32, cA := 0 + 32, dn := j.dn ++ [hostReadA.at []] ++ [hostReadA.at []] } rfl (by simp only; omega)
  have h5 := Cross.handleA { j with nA := 1, bA := 0, cA := 0 + 32 + 32, dn := j.dn ++ [hostReadA.at []] ++ [hostReadA.at []] } 0 rfl rfl
  simp only [hc] at h1
  exact h1.trans (h2.trans (h3.trans (h4.trans h5)))

/-- Writes of B go all the way to the other endpoint. -/
theorem Cross.fillXB (t : Nat) : ∀ (k : Nat) (j : Cross), j.tB = t + k → j.cB = 0 → j.hB = false → j.uB = 0 → j.iB = false → j.vB = 0 → j.kB = false → j.xB + k ≤ 64 →
    Leads crossNet j.st ({ j with tB := t, xB := j.xB + k } : Cross).st
  | 0, j, ht, _, _, _, _, _, _, _ => by
    have : ({ j with tB := t, xB := j.xB + 0 } : Cross) = j := by cases j; simp_all
    rw [this]
    exact Leads.refl _ _
  | k + 1, j, ht, hc, hh, hu, hi, hv, hk, hx => by
    have h1 := j.w1B (t + k) ht hc hh
    have h2 := Cross.w2B { j with tB := t + k, hB := true } rfl (by simp only; omega)
    have h3 := Cross.w3B { j with tB := t + k, hB := false, uB := j.uB + 1 } j.uB rfl hi
    have h4 := Cross.w4B { j with tB := t + k, hB := false, iB := true } rfl (by simp only; omega)
    have h5 := Cross.w5B { j with tB := t + k, hB := false, iB := false, vB := j.vB + 1 } j.vB rfl hk
    have h6 := Cross.w6B { j with tB := t + k, hB := false, iB := false, kB := true } rfl (by simp only; omega)
    have h7 := Cross.fillXB t k { j with tB := t + k, hB := false, iB := false, kB := false, xB := j.xB + 1 } rfl hc rfl hu rfl hv rfl (by simp only; omega)
    have he : ({ j with tB := t, hB := false, iB := false, kB := false, xB := j.xB + 1 + k } : Cross) = { j with tB := t, xB := j.xB + (k + 1) } := by
      simp only [hh, hi, hk, Nat.add_assoc, Nat.add_comm 1 k]
    rw [← he]
    exact h1.trans (h2.trans (h3.trans (h4.trans (h5.trans (h6.trans h7)))))

/-- Writes of B go to the other switch. -/
theorem Cross.fillVB (t : Nat) : ∀ (k : Nat) (j : Cross), j.tB = t + k → j.cB = 0 → j.hB = false → j.uB = 0 → j.iB = false → j.vB + k ≤ 64 →
    Leads crossNet j.st ({ j with tB := t, vB := j.vB + k } : Cross).st
  | 0, j, ht, _, _, _, _, _ => by
    have : ({ j with tB := t, vB := j.vB + 0 } : Cross) = j := by cases j; simp_all
    rw [this]
    exact Leads.refl _ _
  | k + 1, j, ht, hc, hh, hu, hi, hv => by
    have h1 := j.w1B (t + k) ht hc hh
    have h2 := Cross.w2B { j with tB := t + k, hB := true } rfl (by simp only; omega)
    have h3 := Cross.w3B { j with tB := t + k, hB := false, uB := j.uB + 1 } j.uB rfl hi
    have h4 := Cross.w4B { j with tB := t + k, hB := false, iB := true } rfl (by simp only; omega)
    have h7 := Cross.fillVB t k { j with tB := t + k, hB := false, iB := false, vB := j.vB + 1 } rfl hc rfl hu rfl (by simp only; omega)
    have he : ({ j with tB := t, hB := false, iB := false, vB := j.vB + 1 + k } : Cross) = { j with tB := t, vB := j.vB + (k + 1) } := by
      simp only [hh, hi, Nat.add_assoc, Nat.add_comm 1 k]
    rw [← he]
    exact h1.trans (h2.trans (h3.trans (h4.trans h7)))

/-- Writes of B go to the root complex. -/
theorem Cross.fillUB (t : Nat) : ∀ (k : Nat) (j : Cross), j.tB = t + k → j.cB = 0 → j.hB = false → j.uB + k ≤ 64 →
    Leads crossNet j.st ({ j with tB := t, uB := j.uB + k } : Cross).st
  | 0, j, ht, _, _, _ => by
    have : ({ j with tB := t, uB := j.uB + 0 } : Cross) = j := by cases j; simp_all
    rw [this]
    exact Leads.refl _ _
  | k + 1, j, ht, hc, hh, hu => by
    have h1 := j.w1B (t + k) ht hc hh
    have h2 := Cross.w2B { j with tB := t + k, hB := true } rfl (by simp only; omega)
    have h7 := Cross.fillUB t k { j with tB := t + k, hB := false, uB := j.uB + 1 } rfl hc rfl (by simp only; omega)
    have he : ({ j with tB := t, hB := false, uB := j.uB + 1 + k } : Cross) = { j with tB := t, uB := j.uB + (k + 1) } := by
      simp only [hh, Nat.add_assoc, Nat.add_comm 1 k]
    rw [← he]
    exact h1.trans (h2.trans h7)

/-- B sends `k` completions. -/
theorem Cross.repliesB (b : Nat) : ∀ (k : Nat) (j : Cross), j.bB = b + k → j.cB + k ≤ 64 → Leads crossNet j.st ({ j with bB := b, cB := j.cB + k } : Cross).st
  | 0, j, hb, _ => by
    have : ({ j with bB := b, cB := j.cB + 0 } : Cross) = j := by cases j; simp_all
    rw [this]
    exact Leads.refl _ _
  | k + 1, j, hb, hc => by
    have h1 := j.replyB (b + k) hb (by omega)
    have h2 := Cross.repliesB b k { j with bB := b + k, cB := j.cB + 1 } rfl (by simp only; omega)
    have he : ({ j with bB := b, cB := j.cB + 1 + k } : Cross) = { j with bB := b, cB := j.cB + (k + 1) } := by
      rw [Nat.add_assoc, Nat.add_comm 1 k]
    rw [← he]
    exact h1.trans h2

/-- The writes of B fill all places. -/
theorem Cross.loadB (j : Cross) : Leads crossNet ({ j with tB := 195, cB := 0, hB := false, uB := 0, iB := false, vB := 0, kB := false, xB := 0 } : Cross).st ({ j with tB := 0, cB := 0, hB := true, uB := 64, iB := true, vB := 64, kB := true, xB := 64 } : Cross).st := by
  have h1 := Cross.fillXB 131 64 { j with tB := 195, cB := 0, hB := false, uB := 0, iB := false, vB := 0, kB := false, xB := 0 } rfl rfl rfl rfl rfl rfl rfl (by simp only; omega)
  have h2 := Cross.w1B { j with tB := 131, cB := 0, hB := false, uB := 0, iB := false, vB := 0, kB := false, xB := 64 } 130 rfl rfl rfl
  have h3 := Cross.w2B { j with tB := 130, cB := 0, hB := true, uB := 0, iB := false, vB := 0, kB := false, xB := 64 } rfl (by simp only; omega)
  have h4 := Cross.w3B { j with tB := 130, cB := 0, hB := false, uB := 1, iB := false, vB := 0, kB := false, xB := 64 } 0 rfl rfl
  have h5 := Cross.w4B { j with tB := 130, cB := 0, hB := false, uB := 0, iB := true, vB := 0, kB := false, xB := 64 } rfl (by simp only; omega)
  have h6 := Cross.w5B { j with tB := 130, cB := 0, hB := false, uB := 0, iB := false, vB := 1, kB := false, xB := 64 } 0 rfl rfl
  have h7 := Cross.fillVB 66 64 { j with tB := 130, cB := 0, hB := false, uB := 0, iB := false, vB := 0, kB := true, xB := 64 } rfl rfl rfl rfl rfl (by simp only; omega)
  have h8 := Cross.w1B { j with tB := 66, cB := 0, hB := false, uB := 0, iB := false, vB := 64, kB := true, xB := 64 } 65 rfl rfl rfl
  have h9 := Cross.w2B { j with tB := 65, cB := 0, hB := true, uB := 0, iB := false, vB := 64, kB := true, xB := 64 } rfl (by simp only; omega)
  have h10 := Cross.w3B { j with tB := 65, cB := 0, hB := false, uB := 1, iB := false, vB := 64, kB := true, xB := 64 } 0 rfl rfl
  have h11 := Cross.fillUB 1 64 { j with tB := 65, cB := 0, hB := false, uB := 0, iB := true, vB := 64, kB := true, xB := 64 } rfl rfl rfl (by simp only; omega)
  have h12 := Cross.w1B { j with tB := 1, cB := 0, hB := false, uB := 64, iB := true, vB := 64, kB := true, xB := 64 } 0 rfl rfl rfl
  exact h1.trans (h2.trans (h3.trans (h4.trans (h5.trans (h6.trans (h7.trans (h8.trans (h9.trans (h10.trans (h11.trans (h12)))))))))))

/-- B handles three reads; the completions of the third have to wait. -/
theorem Cross.workB (j : Cross) (hn : j.nB = 3) (hb : j.bB = 0) (hc : j.cB = 0) :
    Leads crossNet j.st ({ j with nB := 0, bB := 32, cB := 64, dn := j.dn ++ [hostReadB.at []] ++ [hostReadB.at []] ++ [hostReadB.at []] } : Cross).st := by
  have h1 := j.handleB 2 hn hb
  have h2 := Cross.repliesB 0 32 { j with nB := 2, bB := 32, dn := j.dn ++ [hostReadB.at []] } rfl (by simp only; omega)
  simp only [hc] at h2
  have h3 := Cross.handleB { j with nB := 2, bB := 0, cB := 0 + 32, dn := j.dn ++ [hostReadB.at []] } 1 rfl rfl
  have h4 := Cross.repliesB 0 32 { j with nB := 1, bB := 32, cB := 0 + 32, dn := j.dn ++ [hostReadB.at []] ++ [hostReadB.at []] } rfl (by simp only; omega)
  have h5 := Cross.handleB { j with nB := 1, bB := 0, cB := 0 + 32 + 32, dn := j.dn ++ [hostReadB.at []] ++ [hostReadB.at []] } 0 rfl rfl
  simp only [hc] at h1
  exact h1.trans (h2.trans (h3.trans (h4.trans h5)))

/-- Before anything is sent. -/
def crossStart : Cross := ⟨195, false, 0, false, 0, false, 0, 3, 0, 0, 0, 195, false, 0, false, 0, false, 0, 3, 0, 0, 0, []⟩

/-- Everybody waits. -/
def crossed : Cross := ⟨0, true, 64, true, 64, true, 64, 0, 0, 32, 64, 0, true, 64, true, 64, true, 64, 0, 0, 32, 64,
  [hostReadA.at [], hostReadA.at [], hostReadA.at [], hostReadB.at [], hostReadB.at [], hostReadB.at []]⟩

theorem leads_crossed : Leads crossNet crossStart.st crossed.st := by
  have a1 := Cross.readA crossStart 2 rfl rfl rfl rfl rfl (by decide)
  have a2 := Cross.readA { crossStart with rA := 2, nA := 0 + 1 } 1 rfl rfl rfl rfl rfl (by decide)
  have a3 := Cross.readA { crossStart with rA := 1, nA := 0 + 1 + 1 } 0 rfl rfl rfl rfl rfl (by decide)
  have b1 := Cross.readB { crossStart with rA := 0, nA := 3 } 2 rfl rfl rfl rfl rfl rfl (by decide)
  have b2 := Cross.readB { crossStart with rA := 0, nA := 3, rB := 2, nB := 0 + 1 } 1 rfl rfl rfl rfl rfl rfl (by decide)
  have b3 := Cross.readB { crossStart with rA := 0, nA := 3, rB := 1, nB := 0 + 1 + 1 } 0 rfl rfl rfl rfl rfl rfl (by decide)
  have l1 := Cross.loadA { crossStart with rA := 0, nA := 3, rB := 0, nB := 3 }
  have l2 := Cross.loadB { crossStart with rA := 0, nA := 3, rB := 0, nB := 3, tA := 0, hA := true, uA := 64, iA := true, vA := 64, kA := true, xA := 64 }
  have w1 := Cross.workA ⟨0, true, 64, true, 64, true, 64, 0, 3, 0, 0, 0, true, 64, true, 64, true, 64, 0, 3, 0, 0, []⟩ rfl rfl rfl
  have w2 := Cross.workB ⟨0, true, 64, true, 64, true, 64, 0, 0, 32, 64, 0, true, 64, true, 64, true, 64, 0, 3, 0, 0, [hostReadA.at [], hostReadA.at [], hostReadA.at []]⟩ rfl rfl rfl
  exact a1.trans (a2.trans (a3.trans (b1.trans (b2.trans (b3.trans (l1.trans (l2.trans (w1.trans w2))))))))

/-- What is started. -/
def crossEvs : List TEv :=
  List.replicate 195 (.start (upLink 3) writeA) ++ List.replicate 195 (.start (upLink 4) writeB) ++ List.replicate 3 (.start (downLink 0) hostReadA) ++ List.replicate 3 (.start (downLink 0) hostReadB)

theorem cross_start : TState.init.run crossNet crossEvs = some crossStart.st := by
  unfold crossEvs
  rw [TState.run_append, TState.run_append, TState.run_append, run_starts, Option.bind_some, run_starts, Option.bind_some, run_starts, Option.bind_some, run_starts]
  refine congrArg some (TState.ext' (fun m => ?_) (fun m => ?_) (fun m => ?_) (fun m => ?_) (fun m => ?_) rfl)
  · simp only [TState.init, setAt, upLink, downLink, Cross.st, crossStart, List.nil_append]
    by_cases h6 : m = 6
    · subst h6; rfl
    · by_cases h8 : m = 8
      · subst h8; rfl
      · by_cases h1 : m = 1
        · subst h1; rfl
        · simp [h6, h8, h1]
  all_goals simp [TState.init, Cross.st, crossStart]

theorem crossed_halted : Halted crossNet crossed.st := by
  have c2 : crossed.st.hasCredit crossNet 2 (writeA.at [5, 9]) = false := by decide +kernel
  have c4 : crossed.st.hasCredit crossNet 4 (writeB.at [3, 7]) = false := by decide +kernel
  have c5 : crossed.st.hasCredit crossNet 5 (writeA.at [9]) = false := by decide +kernel
  have c3 : crossed.st.hasCredit crossNet 3 (writeB.at [7]) = false := by decide +kernel
  have c9 : crossed.st.hasCredit crossNet 9 (writeA.at []) = false := by decide +kernel
  have c7 : crossed.st.hasCredit crossNet 7 (writeB.at []) = false := by decide +kernel
  have c6 : crossed.st.hasCredit crossNet 6 hostCplA = false := by decide +kernel
  have c8 : crossed.st.hasCredit crossNet 8 hostCplB = false := by decide +kernel
  intro e s' hs
  cases e with
  | start m p => exact ⟨m, p, rfl⟩
  | send m i =>
    have : crossed.st.tasks m = [] := by simp [Cross.st, crossed]
    simp [TState.step, this] at hs
  | recv m =>
    by_cases h7 : m = 7
    · subst h7
      simp [TState.step, show crossed.st.busy 7 = hostCplA :: List.replicate 31 hostCplA from rfl] at hs
    · by_cases h9 : m = 9
      · subst h9
        simp [TState.step, show crossed.st.busy 9 = hostCplB :: List.replicate 31 hostCplB from rfl] at hs
      · have h1 : crossed.st.busy m = [] := by simp [Cross.st, h7, h9]
        have h2 : crossed.st.rx m = [] := by simp [Cross.st, h7, h9]
        simp [TState.step, h1, h2] at hs
  | take m i =>
    simp only [TState.step] at hs
    split at hs
    · cases hs
    · next p hp =>
      have hm := List.mem_of_getElem? hp
      have : ∃ k r, p.route = k :: r ∧ (crossed.st.arb k).isSome := by
        simp only [Cross.st, crossed] at hm
        split at hm
        · obtain rfl := (List.mem_replicate.1 hm).2; exact ⟨_, _, rfl, rfl⟩
        · split at hm
          · obtain rfl := (List.mem_replicate.1 hm).2; exact ⟨_, _, rfl, rfl⟩
          · split at hm
            · obtain rfl := (List.mem_replicate.1 hm).2; exact ⟨_, _, rfl, rfl⟩
            · split at hm
              · obtain rfl := (List.mem_replicate.1 hm).2; exact ⟨_, _, rfl, rfl⟩
              · split at hm
                · obtain rfl := (List.mem_replicate.1 hm).2; exact ⟨_, _, rfl, rfl⟩
                · split at hm
                  · obtain rfl := (List.mem_replicate.1 hm).2; exact ⟨_, _, rfl, rfl⟩
                  · simp at hm
      obtain ⟨k, r, hr, ha⟩ := this
      obtain ⟨x, hx⟩ := Option.isSome_iff_exists.1 ha
      simp only [hr, hx] at hs
      cases hs
  | pass m =>
    have key : crossed.st.arb m = none ∨ ∃ p, crossed.st.arb m = some p ∧ crossed.st.hasCredit crossNet m p = false := by
      by_cases h2 : m = 2
      · subst h2; exact .inr ⟨_, rfl, c2⟩
      · by_cases h4 : m = 4
        · subst h4; exact .inr ⟨_, rfl, c4⟩
        · by_cases h5 : m = 5
          · subst h5; exact .inr ⟨_, rfl, c5⟩
          · by_cases h3 : m = 3
            · subst h3; exact .inr ⟨_, rfl, c3⟩
            · by_cases h9 : m = 9
              · subst h9; exact .inr ⟨_, rfl, c9⟩
              · by_cases h7 : m = 7
                · subst h7; exact .inr ⟨_, rfl, c7⟩
                · exact .inl (by simp [Cross.st, h2, h3, h4, h5, h7, h9])
    rcases key with h | ⟨p, h, hc⟩
    · simp [TState.step, h] at hs
    · simp [TState.step, h, hc] at hs
  | reply m =>
    by_cases h7 : m = 7
    · subst h7
      simp [TState.step, show crossed.st.busy 7 = hostCplA :: List.replicate 31 hostCplA from rfl, show crossNet.back 7 = 6 from rfl, c6] at hs
    · by_cases h9 : m = 9
      · subst h9
        simp [TState.step, show crossed.st.busy 9 = hostCplB :: List.replicate 31 hostCplB from rfl, show crossNet.back 9 = 8 from rfl, c8] at hs
      · have : crossed.st.busy m = [] := by simp [Cross.st, h7, h9]
        simp [TState.step, this] at hs

end Pcie
