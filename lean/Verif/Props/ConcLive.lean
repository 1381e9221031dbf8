import Verif.Lemmas.ConcLive
import Verif.Props.Conc
/-
C78: the operations of tasks that use memory at the same time come to an end.
-/
namespace Pcie
open Spec

variable {σ : Type}

/-- No operation waits for ever: after any history, if the tasks start nothing more, only a bounded number of things can happen, in whatever order; and when nothing more can happen, all requests
have been sent and handled, and all operations have finished. (Operations that wait for a tag have not been started in this sense; then a tag is free for them.) -/
theorem C78_finishes (C : Completer σ) (view : σ → Mem) (Good : σ → Prop) (rid : PcieId) (lo hi : Nat) (hC : ServesMem C view Good rid lo hi) (m : σ) (hm : Good m) (es : List (ConcEv σ))
    (he : ∀ e ∈ es, TaskOk Good rid lo hi e) (s : Conc σ) (hs : Conc.run C { mem := m } es = some (.ok s)) (k : Nat) (s' : Conc σ) (hg : Goes C s k s') :
    k ≤ 2050 * s.ops.ops.length + s.link.length ∧
    ((∀ e s'', ¬ Happens C s' e s'') → s'.unsent = [] ∧ s'.link = [] ∧ (∀ o ∈ s'.ops.ops, o.finished = true) ∧ ∀ n, 0 < n → s'.ops.pool.alloc n ≠ none) := by
  obtain ⟨h, j⟩ := Conc.j_run hC es (Conc.init_i rid lo hi m hm) (Conc.j_init m) he hs
  obtain ⟨h', j', hk⟩ := Conc.goes_inv hC hg h j
  have := Conc.left_le h
  refine ⟨by omega, fun hq => ?_⟩
  obtain ⟨q1, q2, q3⟩ := Conc.quiet hC h' j' hq
  refine ⟨q1, q2, q3, fun n hn => Conc.alloc_free (fun t => ?_) hn⟩
  cases ht : s'.ops.pool.active.getD t false with
  | false => rfl
  | true =>
    obtain ⟨i, o, o1, o2, _⟩ := j'.held t ht
    have := q3 o (List.mem_of_getElem? o1)
    rw [o2] at this
    cases this

/-- So as long as an operation has not finished, something can happen: there is no deadlock, whatever the tasks have done and in whatever order. -/
theorem C78_no_deadlock (C : Completer σ) (view : σ → Mem) (Good : σ → Prop) (rid : PcieId) (lo hi : Nat) (hC : ServesMem C view Good rid lo hi) (m : σ) (hm : Good m) (es : List (ConcEv σ))
    (he : ∀ e ∈ es, TaskOk Good rid lo hi e) (s : Conc σ) (hs : Conc.run C { mem := m } es = some (.ok s)) (o : Op) (ho : o ∈ s.ops.ops) (hf : o.finished = false) :
    ∃ e s', Happens C s e s' := by
  by_cases h : ∃ e s', Happens C s e s'
  · exact h
  · have := ((C78_finishes C view Good rid lo hi hC m hm es he s hs 0 s (.done s)).2 (fun e s'' hh => h ⟨e, s'', hh⟩)).2.2.1 o ho
    rw [hf] at this
    cases this

/-! ### A concrete case: two reads of four bytes each by two tasks, and a posted write, none of them handled yet -/

private abbrev clReq (a : Nat) : Tlp := { fmt := 0, type := 0, length := 1, first_be := 15, address := a }
private abbrev clWr : Tlp := { fmt := 2, type := 0, length := 1, first_be := 15, address := 0x104, data := [1, 2, 3, 4] }
private abbrev clEs : List (ConcEv AddrSpace) := [.start (clReq 0x100) 32, .start (clReq 0x104) 32, .send 1, .post clWr]
private abbrev clMore : List (ConcEv AddrSpace) := [.handle, .send 0, .arrive 1, .handle, .handle, .recv 1, .arrive 0, .recv 0]

/-- How many requests have not been sent, how many are on the link, how many operations have been answered, and for each operation the completions under way, those taken, and whether it
has finished. -/
private abbrev clSee (es : List (ConcEv AddrSpace)) : Option (List Nat) := ((Conc.run (Completer.rc {}) { mem := { mem := fun _ => 0xaa } } es).bind (·.toOption)).map fun s =>
  [s.unsent.length, s.link.length, s.served.length] ++ s.ops.net.map List.length ++ s.ops.ops.map (·.got.length) ++ s.ops.ops.map (·.finished.toNat)

/-- Each of these steps changes something, and in the end both operations have finished. -/
example : clSee clEs = some [1, 2, 0, 0, 0, 0, 0, 0, 0] ∧ clSee (clEs ++ clMore.take 1) = some [1, 1, 1, 0, 1, 0, 0, 0, 0] ∧
    clSee (clEs ++ clMore.take 2) = some [0, 2, 1, 0, 1, 0, 0, 0, 0] ∧ clSee (clEs ++ clMore.take 3) = some [0, 2, 1, 0, 0, 0, 0, 0, 0] ∧
    clSee (clEs ++ clMore.take 6) = some [0, 0, 2, 1, 0, 0, 1, 0, 1] ∧ clSee (clEs ++ clMore) = some [0, 0, 2, 0, 0, 1, 1, 1, 1] :=
  ⟨by decide +kernel, by decide +kernel, by decide +kernel, by decide +kernel, by decide +kernel, by decide +kernel⟩

/-- The tasks' events are allowed. -/
example : ∀ e ∈ clEs, TaskOk (fun s : AddrSpace => ∀ a n, 0 ≤ a → a + n ≤ 0x2000 → s.covers a n = true ∧ s.readOk a n = true ∧ s.writeOk a n = true) ⟨0, 0, 0⟩ 0 0x2000 e := by
  have hr : ∀ a, a % 4096 + 4 ≤ 4096 → a % 4 = 0 → a < 2 ^ 32 → (clReq a).check = .ok true → ReadOk 4 (clReq a) := fun a h1 h2 h3 h4 =>
    ⟨rfl, Nat.le_refl 4, Nat.le_refl 1, by show 1 ≤ 1024; decide, h2, h1, by show some TlpType.MEM_READ = _; rw [if_pos h3], h4⟩
  intro e h
  simp only [clEs, List.mem_cons, List.not_mem_nil, or_false] at h
  rcases h with rfl | rfl | rfl | rfl
  · exact ⟨by decide, ⟨4, hr _ (by decide) (by decide) (by decide) rfl⟩, ⟨by decide, by decide, by decide⟩, by decide, by decide, rfl, rfl, by decide⟩
  · exact ⟨by decide, ⟨4, hr _ (by decide) (by decide) (by decide) rfl⟩, ⟨by decide, by decide, by decide⟩, by decide, by decide, rfl, rfl, by decide⟩
  · trivial
  · exact ⟨⟨4, rfl, by decide, by decide, by decide, by decide, by decide, rfl, rfl⟩, by decide, by decide, rfl, rfl, by decide⟩

end Pcie
