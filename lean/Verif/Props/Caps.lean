import Verif.Lemmas.CapsWalk
/-
C33: capability registration. C34: walking the capability list.
-/
namespace Pcie
open Spec CapList

/-! ### C33 -/

/-- After any calls, exactly those capabilities are in the list that were registered and not removed since. -/
theorem C33_registered {s : CapList} (h : New s) (ops : List CapOp) (c : Nat) : c ∈ (after s ops).list ↔ Registered ops c :=
  mem_registered h ops c

/-- A capability registered at an explicit offset is put there, after any calls. -/
theorem C33_explicit {s : CapList} (h : New s) (ops : List CapOp) (c v : Nat) (hv : v ≠ 0) :
    ((after s (ops ++ [.register c (some v)])).objs c).offset = some v := by
  have hi := after_weak h ops
  have := (inv_register (.inl rfl) hi c (some v) (Nat.one_dvd _)).2.2.1 v rfl hv
  simp only [after, List.foldl_append, List.foldl_cons, List.foldl_nil] at this ⊢
  simp only [CapList.off] at this
  change ((register _ c (some v)).objs c).offset = some v
  cases ho : ((register (List.foldl CapOp.run s ops) c (some v)).objs c).offset with
  | none => rw [ho] at this; simp at this; exact absurd this.symm hv
  | some w => rw [ho] at this; simp at this; rw [this]

/-- If no two capabilities share a register, an access to a register reaches the one capability that occupies it; registers
that no capability occupies read zero. -/
theorem C33_reaches {s : CapList} (h : NoShare s) :
    (∀ c r, Occupies s c r → s.findByReg r = some c) ∧ (∀ r, (∀ c, ¬ Occupies s c r) → s.read r = 0 ∧ s.readExt r = 0) := by
  refine ⟨fun c r hc => find_of_noShare h hc.1 hc.2.1 hc.2.2, fun r hr => ?_⟩
  have : s.findByReg r = none := by
    rw [findByReg, List.find?_eq_none]
    intro c hc
    simpa using fun h1 => Nat.not_lt.1 fun h2 => hr c ⟨hc, h1, h2⟩
  simp [CapList.read, readExt, this]

/-- No two capabilities share a register after any calls whatsoever, if the start of the list, the lengths and the explicit
offsets are multiples of some g > 1. Missing (and false, see below): the same for arbitrary lengths and offsets. -/
theorem C33_disjoint_partial {s : CapList} (h : New s) {g : Nat} (hg : 1 < g) (hs : g ∣ s.start) (hl : ∀ k, g ∣ (s.objs k).length)
    (ops : List CapOp) (ho : Aligned g ops) : NoShare (after s ops) :=
  noShare_of (after_inv (g := g) (δ := 0) (.inr hg) ops (inv_new h g 0 ⟨hs, hl⟩) ho)

/-- If the calls leave the offsets to the list and there are no removals, and every capability has at least two registers,
the registered capabilities fill the registers from the start of the list without gaps and without sharing any. -/
theorem C33_automatic_partial {s : CapList} (h : New s) (hl : ∀ k, 2 ≤ (s.objs k).length) (ops : List CapOp) (ho : Automatic ops) :
    ∃ T, s.start ≤ T ∧ NoShare (after s ops) ∧ ∀ r, (∃ c, Occupies (after s ops) c r) ↔ s.start ≤ r ∧ r < T := by
  obtain ⟨T, h1, h2, h3⟩ := cover_after ops (inv_new h 1 0 ⟨Nat.one_dvd _, fun _ => Nat.one_dvd _⟩) (cover_new h) hl ho
  refine ⟨T, by rw [← h3]; exact h2.le, noShare_of h1, fun r => ⟨?_, ?_⟩⟩
  · rintro ⟨c, hc, hc1, hc2⟩
    have := h2.within c hc
    rw [h3] at this; omega
  · rintro ⟨h4, h5⟩
    obtain ⟨c, hc, hc1⟩ := h2.full r (by rw [h3]; exact h4) h5
    exact ⟨c, hc, hc1⟩

/-- For arbitrary lengths, offsets and calls, two capabilities share at most one register. -/
theorem C33_share_one_partial {s : CapList} (h : New s) (ops : List CapOp) : ShareOne (after s ops) :=
  shareOne_of (after_weak h ops)

/-- A list with capabilities of length 6, or 1 for odd numbers. -/
def exCapList : CapList := { objs := fun k => { capId := k + 1, length := if k % 2 = 0 then 6 else 1 } }

theorem exCapList_new : New exCapList :=
  ⟨rfl, fun _ => rfl, fun k => by simp only [exCapList]; split <;> decide, by decide⟩

/-- Two capabilities can share a register: the automatic placement accepts a place that ends on the first register of another
capability, (i) below a capability with an explicit offset, and (ii) for capabilities with one register, without any explicit
offset. -/
theorem C33_violated :
    (∃ s ops, New s ∧ ¬ NoShare (after s ops) ∧ ops = [.register 0 (some 0x15), .register 2 none]) ∧
    (∃ s ops, New s ∧ ¬ NoShare (after s ops) ∧ ops = [.register 1 none, .register 3 none]) := by
  refine ⟨⟨exCapList, _, exCapList_new, ?_, rfl⟩, ⟨exCapList, _, exCapList_new, ?_, rfl⟩⟩
  · intro h
    have := h 0 2 0x15 (by unfold Occupies; decide) (by unfold Occupies; decide)
    exact absurd this (by decide)
  · intro h
    have := h 1 3 0x10 (by unfold Occupies; decide) (by unfold Occupies; decide)
    exact absurd this (by decide)

/-- The hypotheses of the partial theorems can be met: three capabilities, one of them moved to an explicit offset that is in use. -/
def exCapsEven : CapList := { objs := fun k => { capId := k + 1, length := if k % 2 = 0 then 6 else 2 } }
theorem exCapsEven_new : New exCapsEven :=
  ⟨rfl, fun _ => rfl, fun k => by simp only [exCapsEven]; split <;> decide, by decide⟩
def exCapsOps : List CapOp := [.register 0 none, .register 1 none, .register 2 none, .register 3 (some 0x12), .deregister 1]

example : 1 < 2 ∧ 2 ∣ exCapsEven.start ∧ (∀ k, 2 ∣ (exCapsEven.objs k).length) ∧ Aligned 2 exCapsOps ∧
    (after exCapsEven exCapsOps).list = [3, 2, 0] ∧ ((after exCapsEven exCapsOps).list.map (after exCapsEven exCapsOps).off) = [0x12, 0x18, 0x1e] := by
  refine ⟨by decide, by decide, fun k => ?_, ?_, by decide +kernel, by decide +kernel⟩
  · simp only [exCapsEven]; split <;> decide
  · intro c v h; simp [exCapsOps] at h; rw [h.2]; decide

example : (∀ k, 2 ≤ (exCapsEven.objs k).length) ∧ Automatic [.register 0 none, .register 1 none, .register 0 none] := by
  refine ⟨fun k => ?_, ?_⟩
  · simp only [exCapsEven]; split <;> decide
  · intro op h; simp at h; rcases h with h | h | h <;> exact ⟨_, h⟩

/-- Automatic placement does not keep to the part of the configuration space that is for capabilities (registers 0x10 to 0x3f; the attribute `end` is not used): the
fourth capability with sixteen registers is placed at register 0x40, where the extended capabilities are, and the host does not find it. -/
theorem C33_range_violated : ∃ (f : FnCaps) (ops : List CapOp), f.ptr = 0 ∧ New f.caps ∧ Automatic ops ∧ Registered ops 3 ∧ (after f.caps ops).off 3 = 0x40 ∧
    walk (ops.foldl FnCaps.run f).caps.read 10 (ops.foldl FnCaps.run f).first = some [(1, 0x40), (2, 0x80), (3, 0xc0)] := by
  refine ⟨{ caps := { objs := fun k => { capId := k + 1, length := 16 } } }, [.register 0 none, .register 1 none, .register 2 none, .register 3 none], rfl,
    ⟨rfl, fun _ => rfl, fun _ => by simp, by decide⟩, ?_, by simp [Registered], by decide +kernel, by decide +kernel⟩
  intro op h; simp at h; rcases h with h | h | h | h <;> exact ⟨_, h⟩

/-! ### C34 -/

/-- A function as it is created has no capabilities and a pointer of zero. -/
structure NewFn (f : FnCaps) : Prop where
  caps : New f.caps
  next : ∀ k, (f.caps.objs k).next = 0
  ptr : f.ptr = 0

/-- After any registrations that do not make two capabilities share a register and that keep all offsets within the
configuration space, the walk of the host, which starts at the capabilities pointer of the function, ends and yields the ID
and the address of every registered capability, once each, in the order of the addresses.
Missing (and false, see below): removals. -/
theorem C34_walk_partial {f : FnCaps} (h : NewFn f) (ops : List CapOp) (ho : RegisterOnly ops) (hs : NoShare (after f.caps ops))
    (hend : ∀ c, Registered ops c → (after f.caps ops).off c ≤ 0x3f) :
    ∃ seen, Complete (after f.caps ops) ops seen ∧ ∀ fuel ≥ seen.length,
      walk (ops.foldl FnCaps.run f).caps.read fuel (ops.foldl FnCaps.run f).first =
        some (seen.map fun c => ((f.caps.objs c).capId &&& 0xff, (after f.caps ops).off c * 4)) := by
  have hi := after_weak h.caps ops
  have hc := complete_of h.caps ops hs
  refine ⟨(after f.caps ops).list, hc, fun fuel hf => ?_⟩
  have hp := run_ptr ops f (by rw [h.ptr, h.caps.empty]; rfl) ho
  rw [run_caps] at hp
  have hclean : Clean (after f.caps ops) :=
    clean_after ops (inv_new h.caps 1 1 ⟨Nat.one_dvd _, fun _ => Nat.one_dvd _⟩) (fun _ => h.next) ho
  have hch := chained_of_clean (built_after ops (build_nil h.caps.empty)) hi.nodup hclean
  have hoff : ∀ c ∈ (after f.caps ops).list, 1 ≤ (after f.caps ops).off c ∧ (after f.caps ops).off c < 64 :=
    fun c hm => ⟨hi.pos c hm, by have := hend c ((hc.all c).1 hm); omega⟩
  have hfirst : (ops.foldl FnCaps.run f).first = ptrTo (after f.caps ops) (after f.caps ops).list := by
    obtain ⟨n, hn, hn64⟩ := ptrTo_lt (N := 64) (by decide) hoff
    rw [FnCaps.first, hp, hn]
    exact (by decide +kernel : ∀ n < 64, n * 4 &&& 0xff &&& 0xfc = n * 4) n hn64
  rw [run_caps, hfirst]
  rw [walk_chained _ (fun c hm => find_of_noShare hs hm (Nat.le_refl _) (by have := hi.len c; omega)) hoff hch hf]
  congr 1
  apply List.map_congr_left
  intro c _
  rw [((keep_after ops f.caps).2 c).1]

/-- The same for the extended capabilities: the walk starts at register 0x40. A capability there is necessary (the first
automatic placement has it), and the IDs must not be zero. -/
theorem C34_ext_walk_partial {s : CapList} (h : New s) (hn : ∀ k, (s.objs k).next = 0) (ops : List CapOp) (ho : RegisterOnly ops)
    (hs : NoShare (after s ops)) (hend : ∀ c, Registered ops c → 0x40 ≤ (after s ops).off c ∧ (after s ops).off c ≤ 0x3ff)
    (hfst : ∃ c, Registered ops c ∧ (after s ops).off c = 0x40) (hid : ∀ k, (s.objs k).capId &&& 0xffff ≠ 0) :
    ∃ seen, Complete (after s ops) ops seen ∧ ∀ fuel ≥ seen.length,
      walkExt (after s ops).readExt fuel 0x100 = some (seen.map fun c => ((s.objs c).capId &&& 0xffff, (after s ops).off c * 4)) := by
  have hi := after_weak h ops
  have hc := complete_of h ops hs
  refine ⟨(after s ops).list, hc, fun fuel hf => ?_⟩
  have hclean : Clean (after s ops) := clean_after ops (inv_new h 1 1 ⟨Nat.one_dvd _, fun _ => Nat.one_dvd _⟩) (fun _ => hn) ho
  have hch := chained_of_clean (built_after ops (build_nil h.empty)) hi.nodup hclean
  have hoff : ∀ c ∈ (after s ops).list, 1 ≤ (after s ops).off c ∧ (after s ops).off c < 1024 :=
    fun c hm => ⟨hi.pos c hm, by have := hend c ((hc.all c).1 hm); omega⟩
  have hfirst : 0x100 = ptrTo (after s ops) (after s ops).list := by
    obtain ⟨c, hr, hoc⟩ := hfst
    have hm := (hc.all c).2 hr
    have hord := hc.order
    cases hl : (after s ops).list with
    | nil => rw [hl] at hm; simp at hm
    | cons a l =>
      rw [hl] at hm hord
      have ha := (hend a ((hc.all a).1 (by simp [hl]))).1
      rcases List.mem_cons.1 hm with e | e
      · subst e; simp only [ptrTo, hoc]
      · have := (List.pairwise_cons.1 hord).1 c e
        omega
  rw [hfirst, walkExt_chained _ (fun c hm => find_of_noShare hs hm (Nat.le_refl _) (by have := hi.len c; omega)) hoff
    (fun c _ => by rw [((keep_after ops s).2 c).1]; exact hid c) hch hf]
  congr 1
  apply List.map_congr_left
  intro c _
  rw [((keep_after ops s).2 c).1]

/-- With removals: as long as at least two capabilities remain registered, the walk that starts at the first of them is
complete. -/
theorem C34_pointers_partial {s : CapList} (h : New s) (ops : List CapOp) (hs : NoShare (after s ops))
    (hend : ∀ c, Registered ops c → (after s ops).off c ≤ 0x3f) {a b : Nat} (hab : a ≠ b) (ha : Registered ops a) (hb : Registered ops b) :
    ∃ first rest, Complete (after s ops) ops (first :: rest) ∧ ∀ fuel ≥ rest.length + 1,
      walk (after s ops).read fuel ((after s ops).off first * 4) =
        some ((first :: rest).map fun c => ((s.objs c).capId &&& 0xff, (after s ops).off c * 4)) := by
  have hi := after_weak h ops
  have hc := complete_of h ops hs
  have hma := (hc.all a).2 ha
  have hmb := (hc.all b).2 hb
  have hch := built_chained (built_after ops (build_nil h.empty)) hi.nodup (by
    match hl : (after s ops).list with
    | [] => rw [hl] at hma; simp at hma
    | [x] => rw [hl] at hma hmb; simp at hma hmb; exact absurd (hma.trans hmb.symm) hab
    | _ :: _ :: _ => simp)
  have hoff : ∀ c ∈ (after s ops).list, 1 ≤ (after s ops).off c ∧ (after s ops).off c < 64 :=
    fun c hm => ⟨hi.pos c hm, by have := hend c ((hc.all c).1 hm); omega⟩
  have key := fun fuel hf => walk_chained (fuel := fuel) _
    (fun c hm => find_of_noShare hs hm (Nat.le_refl _) (by have := hi.len c; omega)) hoff hch hf
  cases hl : (after s ops).list with
  | nil => rw [hl] at hma; simp at hma
  | cons x l =>
    rw [hl] at hc key
    refine ⟨x, l, hc, fun fuel hf => ?_⟩
    have := key fuel hf
    rw [show ptrTo (after s ops) (x :: l) = (after s ops).off x * 4 from rfl] at this
    rw [this]
    congr 1
    apply List.map_congr_left
    intro c _
    rw [((keep_after ops s).2 c).1]

/-- A function with capabilities of length 2. -/
def exFnCaps : FnCaps := { caps := { objs := fun k => { capId := k + 1, length := 2 } } }
theorem exFnCaps_new : NewFn exFnCaps := ⟨⟨rfl, fun _ => rfl, fun _ => by simp [exFnCaps], by decide⟩, fun _ => rfl, rfl⟩

/-- Removals break the walk, in three ways. (i) Two capabilities are registered and the first is removed: the capabilities
pointer still leads to its place, where the walk finds nothing and ends, and the remaining capability is not found. (ii) Two
capabilities are registered and the second is removed: the first still points to it, and the walk reports a capability that
does not exist. (iii) If the first capability is then moved to the place of the second, it points to itself, and the walk does
not end. -/
theorem C34_violated :
    (∃ f ops, NewFn f ∧ ops = [.register 0 none, .register 1 none, .deregister 0] ∧
      NoShare (after f.caps ops) ∧ Registered ops 1 ∧
      walk (ops.foldl FnCaps.run f).caps.read 10 (ops.foldl FnCaps.run f).first = some [(0, 0x40)]) ∧
    (∃ f ops, NewFn f ∧ ops = [.register 0 none, .register 1 none, .deregister 1] ∧
      (after f.caps ops).list = [0] ∧
      walk (ops.foldl FnCaps.run f).caps.read 10 (ops.foldl FnCaps.run f).first = some [(1, 0x40), (0, 0x48)]) ∧
    (∃ f ops, NewFn f ∧ ops = [.register 0 (some 0x10), .register 1 (some 0x20), .deregister 1, .register 0 (some 0x20)] ∧
      (after f.caps ops).list = [0] ∧
      ∀ fuel, walk (ops.foldl FnCaps.run f).caps.read fuel (ops.foldl FnCaps.run f).first = none) := by
  refine ⟨⟨exFnCaps, _, exFnCaps_new, rfl, ?_, ?_, by decide +kernel⟩, ⟨exFnCaps, _, exFnCaps_new, rfl, by decide +kernel, by decide +kernel⟩,
    ⟨exFnCaps, _, exFnCaps_new, rfl, by decide +kernel, ?_⟩⟩
  · intro a b r ha hb
    have e : (after exFnCaps.caps [.register 0 none, .register 1 none, .deregister 0]).list = [1] := by decide +kernel
    have h1 := ha.1
    have h2 := hb.1
    rw [e] at h1 h2
    simp at h1 h2
    rw [h1, h2]
  · simp [Registered]
  · intro fuel
    induction fuel with
    | zero => decide +kernel
    | succ fuel ih =>
      rw [walk_step _ _ _ (by decide +kernel)]
      have e1 : ∀ x y, x = y → walk ([CapOp.register 0 (some 0x10), .register 1 (some 0x20), .deregister 1, .register 0 (some 0x20)].foldl FnCaps.run exFnCaps).caps.read fuel x =
        walk ([CapOp.register 0 (some 0x10), .register 1 (some 0x20), .deregister 1, .register 0 (some 0x20)].foldl FnCaps.run exFnCaps).caps.read fuel y := by
        intro x y h; rw [h]
      rw [e1 _ _ (by decide +kernel : _ = FnCaps.first ([CapOp.register 0 (some 0x10), .register 1 (some 0x20), .deregister 1, .register 0 (some 0x20)].foldl FnCaps.run exFnCaps)), ih]
      rfl

/-- The hypotheses can be met: registrations with a capability that has to make way. -/
example : RegisterOnly [.register 0 none, .register 1 none, .register 2 (some 0x14)] ∧
    NoShare (after exFnCaps.caps [.register 0 none, .register 1 none, .register 2 (some 0x14)]) ∧
    (∀ c ∈ (after exFnCaps.caps [.register 0 none, .register 1 none, .register 2 (some 0x14)]).list,
      (after exFnCaps.caps [.register 0 none, .register 1 none, .register 2 (some 0x14)]).off c ≤ 0x3f) := by
  refine ⟨?_, ?_, by decide +kernel⟩
  · intro op h; simp at h; rcases h with h | h | h <;> exact ⟨_, _, h⟩
  · refine C33_disjoint_partial exFnCaps_new.caps (g := 2) (by decide) (by decide) (fun _ => by simp [exFnCaps]) _ ?_
    intro c v h; simp at h; rw [h.2]; decide

/-- And for extended capabilities. -/
def exExtCaps : CapList := { start := 0x40, objs := fun k => { capId := k % 2 + 1, length := 2 } }
example : New exExtCaps ∧ (∀ k, (exExtCaps.objs k).next = 0) ∧ (∀ k, (exExtCaps.objs k).capId &&& 0xffff ≠ 0) ∧
    (after exExtCaps [.register 0 none, .register 1 none]).off 0 = 0x40 ∧ (after exExtCaps [.register 0 none, .register 1 none]).off 1 = 0x42 ∧
    walkExt (after exExtCaps [.register 0 none, .register 1 none]).readExt 10 0x100 = some [(1, 0x100), (2, 0x108)] := by
  refine ⟨⟨rfl, fun _ => rfl, fun _ => by simp [exExtCaps], by decide⟩, fun _ => rfl, fun k => ?_, by decide +kernel, by decide +kernel, by decide +kernel⟩
  simp only [exExtCaps]
  rcases Nat.mod_two_eq_zero_or_one k with h | h <;> rw [h] <;> decide

end Pcie
