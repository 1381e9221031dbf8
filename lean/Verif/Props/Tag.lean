/-
C18, C19: tags and the completions of non-posted operations.
-/
import Verif.Lemmas.Tag
namespace Pcie

/-! ### C18 -/

theorem TagUsers.run_inv {s : TagUsers} (h : s.Inv) (ops : List TagOp) : ∃ s', s.run ops = .ok s' ∧ s'.Inv := by
  induction ops generalizing s with
  | nil => exact ⟨s, rfl, h⟩
  | cons op ops ih =>
    obtain ⟨s1, e, h1⟩ := TagUsers.step_inv h op
    obtain ⟨s2, e2, h2⟩ := ih h1
    exact ⟨s2, by unfold run; rw [e]; exact e2, h2⟩

/-- C18: after any interleaving of allocations and releases by any number of users, under any changes of the tag count and
of the extended tag setting, no assertion has failed and all tags held are different. -/
theorem C18_unique (ops : List TagOp) : ∃ s, TagUsers.run {} ops = .ok s ∧ s.held.Nodup := by
  obtain ⟨s, e, h⟩ := TagUsers.run_inv TagUsers.inv_init ops
  exact ⟨s, e, h.nodup⟩

/-- C18: in any such state an allocation hands out a tag that nobody holds and that is below the configured count, or, if
all tags below the configured count are held, it waits. -/
theorem C18_alloc (ops : List TagOp) (ext : Bool) (count : Nat) (s : TagUsers) (hs : TagUsers.run {} ops = .ok s) :
    (∃ tag s', s.step (.alloc ext count) = .ok s' ∧ s'.held = s.held ++ [tag] ∧ tag ∉ s.held ∧ tag < count ∧ tag < 256 ∧
        (ext = false → tag < 32)) ∨
    ((∀ tag, tag < count → tag < (if ext then 256 else 32) → tag ∈ s.held) ∧ s.step (.alloc ext count) = .ok s) := by
  obtain ⟨s', e, h⟩ := TagUsers.run_inv TagUsers.inv_init ops
  rw [hs] at e; injection e with e; subst e
  unfold TagUsers.step
  simp only
  obtain ⟨q1, q2, q3⟩ := Tags.limit_le ext count
  split
  · next tag pool hal =>
    obtain ⟨a, b, -⟩ := Tags.alloc_some hal
    refine .inl ⟨tag, _, rfl, rfl, fun hm => ?_, by omega, by omega, fun he => ?_⟩
    · rw [(h.act tag).2 hm] at b; cases b
    · have := q2 he; omega
  · next hal =>
    refine .inr ⟨fun tag h1 h2 => ?_, rfl⟩
    have : tag < Tags.limit ext count := by unfold Tags.limit; cases ext <;> simp at h2 ⊢ <;> omega
    exact (h.act tag).1 (Tags.alloc_none hal tag this)

/-- C18: a release gives back exactly the released tag: it is then held by nobody, all others are held as before. -/
theorem C18_release (ops : List TagOp) (i tag : Nat) (s : TagUsers) (hs : TagUsers.run {} ops = .ok s)
    (hi : s.held[i]? = some tag) :
    ∃ s', s.step (.release i) = .ok s' ∧ tag ∉ s'.held ∧ ∀ t, t ≠ tag → (t ∈ s'.held ↔ t ∈ s.held) := by
  obtain ⟨s', e, h⟩ := TagUsers.run_inv TagUsers.inv_init ops
  rw [hs] at e; injection e with e; subst e
  have hm : tag ∈ s.held := List.mem_of_getElem? hi
  unfold TagUsers.step
  simp only [hi]
  unfold Tags.release
  rw [if_pos ((h.act tag).2 hm)]
  obtain ⟨hil, hie⟩ := List.getElem?_eq_some_iff.1 hi
  have he : s.held.eraseIdx i = s.held.erase tag := by
    rw [← hie]; exact (List.Nodup.erase_getElem h.nodup i hil).symm
  refine ⟨_, rfl, ?_, ?_⟩
  · simp only; rw [he, h.nodup.mem_erase_iff]; simp
  · intro t ht; simp only; rw [he, h.nodup.mem_erase_iff]; simp [ht]

/-- Three users share two tags: the third waits until the first has released its tag, and then gets it. -/
example : (TagUsers.run {} [.alloc true 2, .alloc true 2, .alloc true 2]).toOption.map (·.held) = some [1, 0] ∧
    (TagUsers.run {} [.alloc true 2, .alloc true 2, .alloc true 2, .release 0, .alloc true 2]).toOption.map (·.held) =
      some [0, 1] := by decide +kernel

/-! ### C19 -/

/-- A memory read request and a one-dword completion for it. -/
def exReq : Tlp := { fmt := 0, type := 0, length := 1 }
@[inherit_doc exReq] def exCpl (b : UInt8) : Tlp :=
  { fmt := 2, type := 0x0a, length := 1, byte_count := 4, data := [b, b, b, b] }

/-- Operation 0 times out, operation 1 gets the same tag, and then the completion of operation 0 arrives. -/
def exLate : List OpAct :=
  [.start exReq [exCpl 0xaa] 1, .timeout 0, .start exReq [exCpl 0xbb] 1, .arrive 0, .recv 1]

/-- C19 fails: after a timeout the tag is reused at once, and a late completion of the timed out operation is delivered to
the operation that now has the tag, which returns it as its own result. -/
theorem C19_late_completion_violated : ∃ acts s o c, Ops.run {} acts = .ok s ∧ s.ops[1]? = some o ∧ o.finished = true ∧
    o.got = [c] ∧ c.1 = 0 := by
  refine ⟨exLate, _, _, (0, exCpl 0xaa), rfl, rfl, by decide +kernel, by decide +kernel, rfl⟩

/-- C19 (part): without timeouts, when every request is answered by a complete sequence of completions, every operation
receives only completions for its own request, and an operation that has returned has received exactly the completions sent
for it, in order. Missing: operations with a timeout, for which the property fails (`C19_late_completion_violated`). -/
theorem C19_own_completions_partial (acts : List OpAct) (h : Spec.NoTimeout acts) :
    ∃ s, Ops.run {} acts = .ok s ∧ ∀ (i : Nat) (o : Op), s.ops[i]? = some o →
      (∀ c ∈ o.got, c.1 = i) ∧ (o.finished = true → o.got.map (·.2) = o.answers) := by
  obtain ⟨s, e, hi⟩ := Ops.run_inv Ops.inv_init acts h
  refine ⟨s, e, fun i o ho => ?_⟩
  cases hf : o.finished
  · exact ⟨fun c hc => ((hi.live i o ho hf).got c hc).1, fun h => by cases h⟩
  · exact ⟨(hi.ended i o ho hf).got, fun _ => (hi.ended i o ho hf).all⟩

/-- C19: no operation is left behind: one whose completions have all arrived and that has not returned finds the next one in
its queue. -/
theorem C19_progress_partial (acts : List OpAct) (h : Spec.NoTimeout acts) (s : Ops) (hs : Ops.run {} acts = .ok s)
    (i : Nat) (o : Op) (ho : s.ops[i]? = some o) (hf : o.finished = false) (hn : s.net[i]? = some []) :
    s.queue o.tag ≠ [] := by
  obtain ⟨s', e, hi⟩ := Ops.run_inv Ops.inv_init acts h
  rw [hs] at e; injection e with e; subst e
  obtain ⟨l1, ⟨m, l2, l2'⟩, l3, l4⟩ := hi.live i o ho hf
  rw [hn] at l2; injection l2 with l2; subst l2
  intro hq
  obtain ⟨pre, last, c1, c2, -⟩ := (hi.complete i o ho).1
  rw [hq, c1] at l2'
  simp only [List.map_nil, List.append_nil] at l2'
  have hmem : last ∈ o.got.map (·.2) := by rw [← l2']; simp
  obtain ⟨c, hc, hce⟩ := List.mem_map.1 hmem
  have := (l4 c hc).2
  rw [hce, c2] at this; cases this

/-- The loop of an operation is `Region.collect`, used in C20: the first completion that ends the operation is the last one
it takes. -/
theorem C19_collect (req : Tlp) (answers rest : List Tlp) (h : Spec.CompleteAnswer req answers) :
    Region.collect (Region.isMemRead req) (answers ++ rest) = (answers, rest) := by
  obtain ⟨pre, last, rfl, h1, h2⟩ := h
  have key : ∀ c l, Region.collect (Region.isMemRead req) (c :: l) =
      if Op.ends req c then ([c], l) else (c :: (Region.collect (Region.isMemRead req) l).1, (Region.collect (Region.isMemRead req) l).2) := by
    intro c l
    rw [Region.collect, Op.ends]
    by_cases a : c.status = CplStatus.SC <;> cases b : Region.isMemRead req <;>
      by_cases d : c.byte_count + (c.lower_address &&& 3) ≤ c.length * 4 <;>
      by_cases e : (c.fmtType = some TlpType.CPL ∨ c.fmtType = some TlpType.CPL_LOCKED) <;> simp [a, d, e]
  induction pre with
  | nil => simp only [List.nil_append, List.cons_append]; rw [key, if_pos h1]
  | cons c pre ih =>
    simp only [List.cons_append]
    rw [key, if_neg (by rw [h2 c (by simp)]; simp), ih (fun c hc => h2 c (by simp [hc]))]

/-- Non-trivial case: two interleaved reads, one of them answered by two completions. -/
example : Spec.NoTimeout [.start exReq [{ exCpl 1 with byte_count := 8 }, exCpl 2] 4, .start exReq [exCpl 3] 4,
      .arrive 1, .arrive 0, .recv 1, .arrive 0, .recv 0, .recv 0] ∧
    (Ops.run {} [.start exReq [{ exCpl 1 with byte_count := 8 }, exCpl 2] 4, .start exReq [exCpl 3] 4,
      .arrive 1, .arrive 0, .recv 1, .arrive 0, .recv 0, .recv 0]).toOption.map
        (fun s => s.ops.map fun o => (o.tag, o.finished, o.got.map fun c => (c.1, c.2.data.headD 0))) =
      some [(1, true, [(0, 1), (0, 2)]), (2, true, [(1, 3)])] := by
  constructor
  · intro a ha
    simp only [List.mem_cons, List.not_mem_nil, or_false] at ha
    rcases ha with rfl | rfl | rfl | rfl | rfl | rfl | rfl | rfl <;> simp only
    · exact ⟨⟨[{ exCpl 1 with byte_count := 8 }], exCpl 2, rfl, by decide +kernel, by decide +kernel⟩, by decide⟩
    · exact ⟨⟨[], exCpl 3, rfl, by decide +kernel, by simp⟩, by decide⟩
  · decide +kernel

end Pcie
