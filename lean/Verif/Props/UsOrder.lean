import Verif.Lemmas.UsOrder
import Verif.Props.UsHip
/-
C53: the order of requests in the Xilinx hard IP models. C43: the number of waiting requests.
-/
namespace Pcie
open Spec Hip

/-- C53: a posted request is sent, or dropped because bus mastering is disabled, before anything else happens. -/
theorem C53_posted_at_once (p : HipParams) (ext : Bool) (bus : Nat) (funcs : List (PcieId × Bool)) (es : List HipEv) (s : Hip)
    (h : run p { ext := ext, busNum := bus, funcs := funcs } es = some (.ok s)) (pre post : List HipObs) (t : Tlp) (hs : s.hist = pre ++ .accepted t :: post)
    (ht : t.isNonposted = false) : ∃ post', post = .sent t.copy :: post' ∨ post = .refused t :: post' :=
  (run_order es (inv_init p _ rfl) (Nat.zero_le _) (by intro pre t post he; simp at he) h).1 pre t post hs ht

/-- C53: posted requests leave in the order in which they were made; none is lost or repeated. -/
theorem C53_posted_order (p : HipParams) (ext : Bool) (bus : Nat) (funcs : List (PcieId × Bool)) (es : List HipEv) (s : Hip)
    (h : run p { ext := ext, busNum := bus, funcs := funcs } es = some (.ok s)) : postedDone s.hist = postedMade s.hist := by
  obtain ⟨d, h1, h2⟩ := run_posted es (inv_init p _ rfl) h
  rw [h1]
  exact h2

/-- C53: no non-posted request passes a posted request: when one is sent, all the posted requests made before have left. -/
theorem C53_no_pass (p : HipParams) (ext : Bool) (bus : Nat) (funcs : List (PcieId × Bool)) (es : List HipEv) (s : Hip)
    (h : run p { ext := ext, busNum := bus, funcs := funcs } es = some (.ok s)) (pre post : List HipObs) (n : Tlp) (hs : s.hist = pre ++ .sent n :: post)
    (hn : n.isNonposted = true) : postedDone pre = postedMade pre :=
  run_behind es (inv_init p _ rfl) rfl (by intro pre t post he; simp at he) h pre n post hs hn

/-- C53, part: non-posted requests leave in the order in which they were made, provided that the user makes no request while the task that empties the queue waits for
credits or tags. Missing, and false (C53_overtake_violated): requests made meanwhile. -/
theorem C53_nonposted_order_partial (p : HipParams) (ext : Bool) (bus : Nat) (funcs : List (PcieId × Bool)) (es : List HipEv) (s : Hip)
    (hq : ∀ k u r, es[k]? = some (.rq u) → run p { ext := ext, busNum := bus, funcs := funcs } (es.take k) = some (.ok r) → r.np = .idle)
    (h : run p { ext := ext, busNum := bus, funcs := funcs } es = some (.ok s)) :
    nonpostedMade s.hist = nonpostedDone s.hist ++ (waiting s).map untagged := by
  obtain ⟨d, h1, h2⟩ := run_fifo es (inv_init p _ rfl) hq h
  rw [h1]
  exact h2

/-- C43: at most as many requests are waiting as the queue has places, and one in each of the two tasks. -/
theorem C43_waiting_bound (p : HipParams) (ext : Bool) (bus : Nat) (funcs : List (PcieId × Bool)) (es : List HipEv) (s : Hip)
    (h : run p { ext := ext, busNum := bus, funcs := funcs } es = some (.ok s)) : (waiting s).length ≤ p.npLimit + 2 := by
  have h1 := (run_order es (inv_init p _ rfl) (Nat.zero_le _) (by intro pre t post he; simp at he) h).2
  rw [waits_eq, List.length_append, List.length_append]
  have h2 : (npWait s.np).length ≤ 1 := by cases s.np <;> simp [npWait]
  have h3 : (rqWait s.rq).length ≤ 1 := by cases s.rq <;> simp [rqWait]
  omega

/-- A read that waits for a tag, and a later read that does not. -/
def ovA : UsTlp := { tlp := { length := 1, first_be := 15, address := 0x100 } }
@[inherit_doc ovA] def ovB : UsTlp := { tlp := { length := 1, first_be := 15, address := 0x200 } }

def ovEvs : List HipEv := List.replicate 32 (.rq hipRead) ++ [.rq ovA, .npGet, .cpl (hipCpl 1), .rq ovB]

/-- A later read overtakes an earlier one: the read of 0x200 is sent, and the read of 0x100, made before, is not. -/
theorem C53_overtake_violated : ∃ s l, run .us {} ovEvs = some (.ok s) ∧ nonpostedMade s.hist = l ++ [untagged ovA.tlp, untagged ovB.tlp] ∧
    nonpostedDone s.hist = l ++ [untagged ovB.tlp] ∧ ovA.tlp.address ≠ ovB.tlp.address := by
  have key : ((run .us {} ovEvs).map fun r => r.toOption.map fun s => (nonpostedMade s.hist, nonpostedDone s.hist)) =
      some (some (List.replicate 32 (untagged hipRead.tlp) ++ [untagged ovA.tlp, untagged ovB.tlp], List.replicate 32 (untagged hipRead.tlp) ++ [untagged ovB.tlp])) := by decide +kernel
  rcases hr : run .us {} ovEvs with _ | r
  · rw [hr] at key; cases key
  · rw [hr] at key
    cases r with
    | error x => cases key
    | ok s =>
      simp only [Option.map_some, Except.toOption, Option.some.injEq, Prod.mk.injEq] at key
      exact ⟨s, _, rfl, key.1, key.2, by decide⟩

/-! ### The hypotheses can hold -/

/-- A write between two reads. -/
def ovWrite : UsTlp := { tlp := { fmt := 2, type := 0, length := 1, first_be := 15, address := 0x300, data := [1, 2, 3, 4] } }

example : ((run .us {} [.rq hipRead, .rq ovWrite, .rq ovA]).map fun r => r.toOption.map fun s => (postedDone s.hist, s.hist.length, nonpostedDone s.hist)) =
    some (some ([untagged ovWrite.tlp], 6, [untagged hipRead.tlp, untagged ovA.tlp])) := by decide +kernel

example : ∀ k u r, hipRun[k]? = some (.rq u) → run .us {} (hipRun.take k) = some (.ok r) → r.np = .idle := by
  intro k u r hk hr
  have key : ∀ k < 7, ((run .us {} (hipRun.take k)).map fun r => r.toOption.map fun s => decide (s.np = .idle)) = some (some true) := by decide +kernel
  have hlt : k < 7 := (List.getElem?_eq_some_iff.mp hk).1
  have := key k hlt
  rw [hr] at this
  simpa [Except.toOption] using this

/- The bound is reached: 16 requests in the queue and one in each task. -/
example : ((run .us {} (List.replicate 33 (.rq hipRead) ++ [.npGet] ++ List.replicate 17 (.rq hipRead))).map fun r => r.toOption.map fun s => (waiting s).length) = some (some 18) := by
  decide +kernel

end Pcie
