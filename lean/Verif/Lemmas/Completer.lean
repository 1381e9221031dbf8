/-
Helper lemmas about the completers.
-/
import Verif.Lemmas.Arith
import Verif.Lemmas.Be
import Verif.Model.Completer
import Verif.Spec.Memory
namespace Pcie

theorem and_one_shl_ne (m k : Nat) : (m &&& (1 <<< k) ≠ 0) ↔ m.testBit k = true := by
  constructor
  · intro h
    cases hb : m.testBit k with
    | true => rfl
    | false =>
      exfalso; apply h
      apply Nat.eq_of_testBit_eq; intro i
      rw [Nat.testBit_and, Nat.one_shiftLeft, Nat.testBit_two_pow, Nat.zero_testBit]
      by_cases hi : k = i
      · subst hi; rw [hb]; rfl
      · simp [hi]
  · intro hb h
    have := congrArg (fun x => x.testBit k) h
    simp [Nat.testBit_and, Nat.one_shiftLeft, hb, Nat.testBit_two_pow_self] at this

def Scan.Inv (E : Nat → Prop) (s : Scan) : Prop :=
  (∀ o, o < s.offset → (E o ↔ (∃ r ∈ s.runs, r.1 ≤ o ∧ o < r.2) ∨ (∃ st, s.start = some st ∧ st ≤ o))) ∧
  (∀ r ∈ s.runs, r.1 < r.2 ∧ r.2 ≤ s.offset) ∧ (∀ st, s.start = some st → st ≤ s.offset)

theorem Scan.lane_inv {E : Nat → Prop} {s : Scan} {mask k : Nat} (h : s.Inv E)
    (hE : E s.offset ↔ mask.testBit k = true) : (s.lane mask k).Inv E ∧ (s.lane mask k).offset = s.offset + 1 := by
  obtain ⟨h1, h2, h3⟩ := h
  obtain ⟨start, offset, runs⟩ := s
  simp only at h1 h2 h3 hE
  unfold Scan.lane
  by_cases hb : mask.testBit k = true
  · have hm := (and_one_shl_ne mask k).2 hb
    simp only [hm, if_true, ne_eq, not_false_eq_true]
    cases start with
    | none =>
      refine ⟨⟨?_, ?_, ?_⟩, rfl⟩
      · intro o ho
        simp only at ho ⊢
        by_cases hlt : o < offset
        · rw [h1 o hlt]; simp only [reduceCtorEq, false_and, exists_false, or_false, Option.some.injEq]
          constructor
          · exact Or.inl
          · rintro (h | ⟨st, rfl, h⟩)
            · exact h
            · omega
        · have : o = offset := by omega
          subst this
          simp only [hE, hb, true_iff]
          exact Or.inr ⟨o, rfl, Nat.le_refl _⟩
      · intro r hr; have := h2 r hr; simp only at this ⊢; omega
      · intro st hst; simp only [Option.some.injEq] at hst; simp only; omega
    | some st =>
      refine ⟨⟨?_, ?_, ?_⟩, rfl⟩
      · intro o ho
        simp only at ho ⊢
        by_cases hlt : o < offset
        · exact h1 o hlt
        · have : o = offset := by omega
          subst this
          simp only [hE, hb, true_iff]
          exact Or.inr ⟨st, rfl, h3 st rfl⟩
      · intro r hr; have := h2 r hr; simp only at this ⊢; omega
      · intro st' hst; simp only at hst ⊢; have := h3 st' hst; omega
  · have hm : ¬ (mask &&& (1 <<< k) ≠ 0) := fun h => hb ((and_one_shl_ne mask k).1 h)
    rw [if_neg hm]
    refine ⟨⟨?_, ?_, ?_⟩, rfl⟩
    · intro o ho
      simp only [reduceCtorEq, false_and, exists_false, or_false] at ho ⊢
      cases start with
      | none =>
        by_cases hlt : o < offset
        · rw [h1 o hlt]; simp
        · have : o = offset := by omega
          subst this
          simp only [hE, hb]
          constructor
          · intro h; cases h
          · rintro ⟨r, hr, h5, h6⟩; have := h2 r hr; omega
      | some st =>
        have h4 := h3 st rfl
        by_cases hlt : o < offset
        · rw [h1 o hlt]
          simp only [Option.some.injEq]
          split
          · simp only [List.mem_append, List.mem_singleton]
            constructor
            · rintro (⟨r, hr, hh⟩ | ⟨st', rfl, hh⟩)
              · exact ⟨r, Or.inl hr, hh⟩
              · exact ⟨(st, offset), Or.inr rfl, hh, hlt⟩
            · rintro ⟨r, hr | rfl, hh⟩
              · exact Or.inl ⟨r, hr, hh⟩
              · exact Or.inr ⟨st, rfl, hh.1⟩
          · rename_i hst
            constructor
            · rintro (hh | ⟨st', rfl, hh⟩)
              · exact hh
              · omega
            · exact Or.inl
        · have : o = offset := by omega
          subst this
          simp only [hE, hb]
          constructor
          · intro h; cases h
          · split
            · simp only [List.mem_append, List.mem_singleton]
              rintro ⟨r, hr | rfl, h5, h6⟩
              · have := h2 r hr; omega
              · simp only at h6; omega
            · rintro ⟨r, hr, h5, h6⟩; have := h2 r hr; omega
    · intro r hr
      simp only at hr ⊢
      cases start with
      | none => have := h2 r hr; omega
      | some st =>
        have h4 := h3 st rfl
        simp only at hr
        split at hr
        · simp only [List.mem_append, List.mem_singleton] at hr
          rcases hr with hr | rfl
          · have := h2 r hr; omega
          · simp only; omega
        · have := h2 r hr; omega
    · intro st hst; simp at hst

theorem Scan.dword_inv {E : Nat → Prop} {s : Scan} {mask : Nat} (h : s.Inv E)
    (hE : ∀ k, k < 4 → (E (s.offset + k) ↔ mask.testBit k = true)) :
    (s.dword mask).Inv E ∧ (s.dword mask).offset = s.offset + 4 := by
  unfold Scan.dword
  rw [show List.range 4 = [0, 1, 2, 3] from rfl]
  simp only [List.foldl]
  obtain ⟨i0, o0⟩ := Scan.lane_inv (mask := mask) (k := 0) h (hE 0 (by omega))
  obtain ⟨i1, o1⟩ := Scan.lane_inv (mask := mask) (k := 1) i0 (by rw [o0]; exact hE 1 (by omega))
  obtain ⟨i2, o2⟩ := Scan.lane_inv (mask := mask) (k := 2) i1 (by rw [o1, o0]; exact hE 2 (by omega))
  obtain ⟨i3, o3⟩ := Scan.lane_inv (mask := mask) (k := 3) i2 (by rw [o2, o1, o0]; exact hE 3 (by omega))
  exact ⟨i3, by rw [o3, o2, o1, o0]⟩

theorem Scan.finish_inv {E : Nat → Prop} {s : Scan} (h : s.Inv E) :
    (∀ o, o < s.offset → (E o ↔ ∃ r ∈ s.finish, r.1 ≤ o ∧ o < r.2)) ∧
    (∀ r ∈ s.finish, r.1 < r.2 ∧ r.2 ≤ s.offset) := by
  obtain ⟨h1, h2, h3⟩ := h
  obtain ⟨start, offset, runs⟩ := s
  simp only at h1 h2 h3
  unfold Scan.finish
  cases start with
  | none => exact ⟨fun o ho => by rw [h1 o ho]; simp, h2⟩
  | some st =>
    have h4 := h3 st rfl
    simp only
    split
    · refine ⟨fun o ho => ?_, fun r hr => ?_⟩
      · rw [h1 o ho]
        simp only [List.mem_append, List.mem_singleton, Option.some.injEq]
        constructor
        · rintro (⟨r, hr, hh⟩ | ⟨st', rfl, hh⟩)
          · exact ⟨r, Or.inl hr, hh⟩
          · exact ⟨(st, offset), Or.inr rfl, hh, ho⟩
        · rintro ⟨r, hr | rfl, hh⟩
          · exact Or.inl ⟨r, hr, hh⟩
          · exact Or.inr ⟨st, rfl, hh.1⟩
      · simp only [List.mem_append, List.mem_singleton] at hr
        rcases hr with hr | rfl
        · exact h2 r hr
        · simp only; omega
    · refine ⟨fun o ho => ?_, h2⟩
      rw [h1 o ho]
      simp only [Option.some.injEq]
      constructor
      · rintro (hh | ⟨st', rfl, hh⟩)
        · exact hh
        · omega
      · exact Or.inl

theorem Scan.init_inv (E : Nat → Prop) : ({} : Scan).Inv E := by
  refine ⟨fun o ho => ?_, fun r hr => ?_, fun st hst => ?_⟩
  · simp at ho
  · simp at hr
  · simp at hst

/-- The runs of a memory write are exactly the enabled bytes. -/
theorem memRuns_spec (t : Tlp) (hl : 1 ≤ t.length) :
    (∀ o, (∃ r ∈ memRuns t, r.1 ≤ o ∧ o < r.2) ↔ Spec.byteEnabled t (t.address + o)) ∧
    (∀ r ∈ memRuns t, r.1 < r.2 ∧ r.2 ≤ 4 * t.length) := by
  have hen : ∀ o, Spec.byteEnabled t (t.address + o) ↔ o / 4 < t.length ∧
      (if o / 4 = 0 then t.first_be.testBit (o % 4) = true
        else if o / 4 = t.length - 1 then t.last_be.testBit (o % 4) = true else True) := by
    intro o
    simp only [Spec.byteEnabled, Nat.add_sub_cancel_left, Nat.le_add_right, true_and]
  have hinv : ∃ s : Scan, memRuns t = s.finish ∧ s.Inv (fun o => Spec.byteEnabled t (t.address + o)) ∧
      s.offset = 4 * t.length := by
    obtain ⟨i1, o1⟩ := Scan.dword_inv (mask := t.first_be) (Scan.init_inv (fun o => Spec.byteEnabled t (t.address + o)))
      (by
        intro k hk
        simp only [Nat.zero_add]
        rw [hen, if_pos (by omega), show k % 4 = k by omega]
        exact ⟨fun h => h.2, fun h => ⟨by omega, h⟩⟩)
    simp only [Nat.zero_add] at o1
    unfold memRuns
    simp only
    generalize Scan.dword t.first_be {} = s at i1 o1
    by_cases h2 : t.length > 2
    · rw [if_pos h2, if_pos (by omega)]
      have i2 : Scan.Inv (fun o => Spec.byteEnabled t (t.address + o))
          { s with start := some (s.start.getD s.offset), offset := s.offset + (t.length - 2) * 4 } := by
        obtain ⟨a1, a2, a3⟩ := i1
        refine ⟨?_, ?_, ?_⟩
        · intro o ho
          simp only at ho ⊢
          by_cases hlt : o < s.offset
          · refine Iff.trans (a1 o hlt) ?_
            cases hs : s.start with
            | none =>
              simp only [Option.getD_none, reduceCtorEq, false_and, exists_false, or_false, Option.some.injEq]
              constructor
              · exact Or.inl
              · rintro (h | ⟨st, rfl, h⟩)
                · exact h
                · omega
            | some st => simp
          · constructor
            · intro _
              cases hs : s.start with
              | none => exact Or.inr ⟨s.offset, rfl, by omega⟩
              | some st => have := a3 st hs; exact Or.inr ⟨st, rfl, by omega⟩
            · intro _
              rw [hen, if_neg (by omega), if_neg (by omega)]
              exact ⟨by omega, trivial⟩
        · intro r hr; have := a2 r hr; simp only; omega
        · intro st hst
          simp only at hst ⊢
          cases hs : s.start with
          | none => simp [hs] at hst; omega
          | some st' => have := a3 st' hs; simp [hs] at hst; omega
      obtain ⟨i3, o3⟩ := Scan.dword_inv (mask := t.last_be) i2 (by
        intro k hk
        simp only
        rw [o1, hen, if_neg (by omega), if_pos (by omega), show (4 + (t.length - 2) * 4 + k) % 4 = k by omega]
        exact ⟨fun h => h.2, fun h => ⟨by omega, h⟩⟩)
      exact ⟨_, rfl, i3, by rw [o3]; simp only; omega⟩
    · rw [if_neg h2]
      by_cases h1 : t.length > 1
      · rw [if_pos h1]
        obtain ⟨i3, o3⟩ := Scan.dword_inv (mask := t.last_be) i1 (by
          intro k hk
          rw [o1, hen, if_neg (by omega), if_pos (by omega), show (4 + k) % 4 = k by omega]
          exact ⟨fun h => h.2, fun h => ⟨by omega, h⟩⟩)
        exact ⟨_, rfl, i3, by rw [o3]; omega⟩
      · rw [if_neg h1]
        exact ⟨_, rfl, i1, by omega⟩
  obtain ⟨s, hs, hi, ho⟩ := hinv
  obtain ⟨f1, f2⟩ := Scan.finish_inv hi
  rw [hs]
  rw [ho] at f1 f2
  refine ⟨fun o => ?_, f2⟩
  by_cases hlt : o < 4 * t.length
  · exact (f1 o hlt).symm
  · constructor
    · rintro ⟨r, hr, h5, h6⟩; have := f2 r hr; omega
    · rw [hen]; omega

/-- The runs of a one-dword I/O access are exactly the enabled bytes. -/
theorem ioRuns_spec (t : Tlp) (hl : t.length = 1) :
    (∀ o, (∃ r ∈ ioRuns t, r.1 ≤ o ∧ o < r.2) ↔ Spec.byteEnabled t (t.address + o)) ∧
    (∀ r ∈ ioRuns t, r.1 < r.2 ∧ r.2 ≤ 4) := by
  have h := memRuns_spec t (by omega)
  have : memRuns t = ioRuns t := by
    unfold memRuns ioRuns
    simp only [hl, show ¬ (1 > 2) by omega, show ¬ (1 > 1) by omega, if_false]
  rw [this, hl] at h
  exact h

theorem slice_length (data : List UInt8) (a b : Nat) (h : b ≤ data.length) : (slice data a b).length = b - a := by
  unfold slice; rw [List.length_drop, List.length_take]; omega

theorem slice_getD (data : List UInt8) (a b i : Nat) (h : i + a < b) :
    (slice data a b).getD i 0 = data.getD (a + i) 0 := by
  unfold slice
  rw [List.getD_eq_getElem?_getD, List.getElem?_drop, List.getElem?_take, if_pos (by omega),
    ← List.getD_eq_getElem?_getD]

theorem slice_getElem (data : List UInt8) (a b i : Nat) (h : i < (slice data a b).length) :
    (slice data a b)[i] = data[a + i]'(by unfold slice at h; rw [List.length_drop, List.length_take] at h; omega) := by
  simp only [slice, List.getElem_drop, List.getElem_take]

/-- Writing runs of `data` at `base`: the memory afterwards. -/
def writeRuns (base : Nat) (data : List UInt8) (runs : List (Nat × Nat)) (m : Mem) : Mem :=
  runs.foldl (fun m r => m.write (base + r.1) (slice data r.1 r.2)) m

theorem writeRuns_spec (base : Nat) (data : List UInt8) (runs : List (Nat × Nat))
    (hr : ∀ r ∈ runs, r.1 < r.2 ∧ r.2 ≤ data.length) (m : Mem) (a : Nat) :
    writeRuns base data runs m a =
      if base ≤ a ∧ (∃ r ∈ runs, r.1 ≤ a - base ∧ a - base < r.2) then data.getD (a - base) 0 else m a := by
  induction runs generalizing m with
  | nil => simp [writeRuns]
  | cons r rest ih =>
    have h1 := hr r (List.mem_cons_self ..)
    have ih := ih (fun r h => hr r (List.mem_cons_of_mem _ h)) (m.write (base + r.1) (slice data r.1 r.2))
    have : writeRuns base data (r :: rest) m = writeRuns base data rest (m.write (base + r.1) (slice data r.1 r.2)) := rfl
    rw [this, ih]
    by_cases hc : base ≤ a ∧ ∃ r ∈ rest, r.1 ≤ a - base ∧ a - base < r.2
    · rw [if_pos hc]
      obtain ⟨hb, q, hq, hh⟩ := hc
      rw [if_pos ⟨hb, q, List.mem_cons_of_mem _ hq, hh⟩]
    · rw [if_neg hc]
      unfold Mem.write
      rw [slice_length _ _ _ h1.2]
      by_cases hw : base + r.1 ≤ a ∧ a < base + r.1 + (r.2 - r.1)
      · rw [if_pos hw, if_pos ⟨by omega, r, List.mem_cons_self .., by omega, by omega⟩, slice_getD _ _ _ _ (by omega)]
        congr 1; omega
      · rw [if_neg hw, if_neg]
        rintro ⟨hb, q, hq, hh⟩
        rcases List.mem_cons.1 hq with rfl | hq
        · omega
        · exact hc ⟨hb, q, hq, hh⟩

theorem rc_applyRuns (base : Nat) (data : List UInt8) (runs : List (Nat × Nat)) (s : AddrSpace)
    (hr : ∀ r ∈ runs, r.1 < r.2 ∧ r.2 ≤ data.length)
    (hok : ∀ r ∈ runs, s.writeOk (base + r.1) (r.2 - r.1) = true) :
    Rc.applyRuns base data runs s = ({ s with mem := writeRuns base data runs s.mem }, true) := by
  induction runs generalizing s with
  | nil => rfl
  | cons r rest ih =>
    have h1 := hr r (List.mem_cons_self ..)
    have h2 := hok r (List.mem_cons_self ..)
    unfold Rc.applyRuns
    unfold AddrSpace.write
    rw [slice_length _ _ _ h1.2, h2]
    simp only [if_true]
    exact ih { s with mem := s.mem.write (base + r.1) (slice data r.1 r.2) }
      (fun r h => hr r (List.mem_cons_of_mem _ h)) (fun r h => hok r (List.mem_cons_of_mem _ h))

theorem ep_applyRuns (region base : Nat) (data : List UInt8) (runs : List (Nat × Nat)) (e : MemEp) (b : Buf)
    (hb : e.regions[region]? = some (some b))
    (hr : ∀ r ∈ runs, r.1 < r.2 ∧ r.2 ≤ data.length)
    (hok : ∀ r ∈ runs, base + r.2 ≤ b.size) :
    MemEp.applyRuns region base data runs e =
      .ok { e with regions := e.regions.set region (some { b with mem := writeRuns base data runs b.mem }) } := by
  induction runs generalizing e b with
  | nil =>
    unfold MemEp.applyRuns
    congr 1
    obtain ⟨bars, regions, p, id, mps⟩ := e
    simp only at hb ⊢
    congr 1
    have hlt : region < regions.length := by
      by_cases h : region < regions.length
      · exact h
      · rw [List.getElem?_eq_none_iff.2 (by omega)] at hb; cases hb
    rw [List.getElem?_eq_getElem hlt] at hb
    have : regions[region] = some b := Option.some.inj hb
    symm
    show List.set regions region (some b) = regions
    rw [← this, List.set_getElem_self]
  | cons r rest ih =>
    have h1 := hr r (List.mem_cons_self ..)
    have h2 := hok r (List.mem_cons_self ..)
    unfold MemEp.applyRuns
    simp only [MemEp.writeRegion, hb, Buf.write, slice_length _ _ _ h1.2, bind, Except.bind]
    rw [if_pos (by omega)]
    simp only
    have hlt : region < e.regions.length := by
      by_cases h : region < e.regions.length
      · exact h
      · rw [List.getElem?_eq_none_iff.2 (by omega)] at hb; cases hb
    rw [ih _ { b with mem := b.mem.write (base + r.1) (slice data r.1 r.2) } (by simp [hlt])
      (fun r h => hr r (List.mem_cons_of_mem _ h)) (fun r h => hok r (List.mem_cons_of_mem _ h))]
    simp only [List.set_set]
    rfl

end Pcie
