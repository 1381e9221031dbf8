/- The regions of a memory endpoint. -/
import Verif.Spec.Regions
import Verif.Props.Bar
import Mathlib.Data.Nat.Find
namespace Pcie
open Spec

theorem sizeExp_exists (size lo : Nat) : ∃ k, SizeExp size lo k := by
  have h : ∃ k, lo ≤ k ∧ size ≤ 2 ^ k := ⟨lo + size, by omega, by
    have h1 : lo + size < 2 ^ (lo + size) := Nat.lt_two_pow_self
    omega⟩
  refine ⟨Nat.find h, (Nat.find_spec h).2, (Nat.find_spec h).1, fun j h1 h2 => Nat.find_min' h ⟨h1, h2⟩⟩

theorem sizeExp_le {size lo k n : Nat} (h : SizeExp size lo k) (hs : size ≤ 2 ^ n) (hl : lo ≤ n) : k ≤ n := h.2.2 n hl hs

theorem sizeExp_unique {size lo k k' : Nat} (h : SizeExp size lo k) (h' : SizeExp size lo k') : k = k' :=
  Nat.le_antisymm (h.2.2 _ h'.2.1 h'.1) (h'.2.2 _ h.2.1 h.1)

theorem granted_bound {used : Nat} : ∀ {cs : List AddCall} {i : Nat} {c : AddCall}, (i, c) ∈ granted used cs → used ≤ i ∧ i + c.width ≤ 6 := by
  intro cs
  induction cs generalizing used with
  | nil => intro i c h; exact nomatch h
  | cons a cs ih =>
    intro i c h
    rw [granted] at h
    split at h
    · rcases List.mem_cons.1 h with h | h
      · cases h; omega
      · have := ih h; omega
    · exact ih h

theorem granted_snoc {used : Nat} {cs : List AddCall} {c : AddCall} :
    granted used (cs ++ [c]) = granted used cs ++ (if registersUsed used cs + c.width ≤ 6 then [(registersUsed used cs, c)] else []) := by
  induction cs generalizing used with
  | nil => simp [granted, registersUsed]
  | cons a cs ih =>
    simp only [List.cons_append, granted, registersUsed]
    split
    · rw [ih]
      simp only [registersUsed, List.map_cons, List.sum_cons, List.cons_append, Nat.add_assoc]
    · rw [ih]
      rfl

theorem used_snoc {used : Nat} {cs : List AddCall} {c : AddCall} :
    registersUsed used (cs ++ [c]) = registersUsed used cs + if registersUsed used cs + c.width ≤ 6 then c.width else 0 := by
  rw [registersUsed, granted_snoc]
  split <;> simp [registersUsed, Nat.add_assoc]

theorem granted_below {used : Nat} {cs : List AddCall} {i : Nat} {c : AddCall} (h : (i, c) ∈ granted used cs) :
    i + c.width ≤ registersUsed used cs := by
  induction cs generalizing used with
  | nil => exact nomatch h
  | cons a cs ih =>
    rw [granted] at h
    rw [registersUsed, granted]
    split at h
    · rename_i hw
      rw [if_pos hw]
      simp only [List.map_cons, List.sum_cons]
      rcases List.mem_cons.1 h with h | h
      · cases h; omega
      · have := ih h; unfold registersUsed at this; omega
    · rename_i hw
      rw [if_neg hw]
      exact ih h

/-- What holds after the calls. -/
structure RegionsAre (e : MemEp) (cs : List AddCall) : Prop where
  ptr : e.barPtr = registersUsed 0 cs
  len : e.bars.length = 6
  rlen : e.regions.length = 6
  lay : ∃ ws, Layout 0 e.bars ws ∧ ∀ w, w ∈ ws ↔ ∃ i c, (i, c) ∈ granted 0 cs ∧ IsWindowOf w i c
  pref : ∀ i c, (i, c) ∈ granted 0 cs → (e.bars.getD i {}).val.testBit 3 = (c.prefetch && !c.io)
  mem : ∀ i c, (i, c) ∈ granted 0 cs → e.regions[i]? = some (some ⟨c.size, fun _ => 0⟩)
  rest : ∀ i, i < 6 → (∀ c, (i, c) ∉ granted 0 cs) → e.regions[i]? = some none

theorem configureBar_io (bars : List BarReg) (idx size : Nat) (ext prefetch : Bool) (h : ¬ (idx ≥ bars.length ∨ (ext ∧ idx + 1 ≥ bars.length))) :
    configureBar bars idx size ext prefetch true = configureBar bars idx size false prefetch true := by
  unfold configureBar
  have h' : ¬ (idx ≥ bars.length ∨ (false = true ∧ idx + 1 ≥ bars.length)) :=
    fun h' => h (.inl (h'.resolve_right fun x => by cases x.1))
  simp only [h, h', if_false, if_true]

theorem configureBar_regs {bars bars' : List BarReg} {idx size : Nat} {ext prefetch io : Bool}
    (h : configureBar bars idx size ext prefetch io = .ok bars') :
    bars'.length = bars.length ∧ (bars'.getD idx {}).val.testBit 3 = (prefetch && !io) ∧ ∀ j, j < idx → bars'.getD j {} = bars.getD j {} := by
  unfold configureBar at h
  simp only at h
  split at h
  · cases h
  · rename_i hr
    have hi : idx < bars.length := by
      refine Nat.lt_of_not_le fun h => hr (.inl h)
    cases io
    · cases ext <;> simp only [Bool.false_eq_true, if_false, if_true, Except.ok.injEq] at h <;> subst h
      · refine ⟨by simp, ?_, fun j hj => ?_⟩
        · rw [List.getD_eq_getElem?_getD, List.getElem?_set_self hi]
          simp only [Option.getD_some]; cases prefetch <;> decide
        · rw [List.getD_eq_getElem?_getD, List.getElem?_set_ne (by omega), List.getD_eq_getElem?_getD]
      · refine ⟨by simp, ?_, fun j hj => ?_⟩
        · rw [List.getD_eq_getElem?_getD, List.getElem?_set_ne (by omega), List.getElem?_set_self hi]
          simp only [Option.getD_some]; cases prefetch <;> decide
        · rw [List.getD_eq_getElem?_getD, List.getElem?_set_ne (by omega), List.getElem?_set_ne (by omega), List.getD_eq_getElem?_getD]
    · simp only [if_true, Except.ok.injEq] at h
      subst h
      refine ⟨by simp, ?_, fun j hj => ?_⟩
      · rw [List.getD_eq_getElem?_getD, List.getElem?_set_self hi]
        simp only [Option.getD_some]; cases prefetch <;> decide
      · rw [List.getD_eq_getElem?_getD, List.getElem?_set_ne (by omega), List.getD_eq_getElem?_getD]

theorem regionsAre_nil : RegionsAre {} [] := by
  refine ⟨rfl, rfl, rfl, ⟨[], ?_, ?_⟩, (fun i c h => nomatch h), (fun i c h => nomatch h), fun i hi _ => ?_⟩
  · exact .absent _ _ _ _ rfl (.absent _ _ _ _ rfl (.absent _ _ _ _ rfl (.absent _ _ _ _ rfl (.absent _ _ _ _ rfl (.absent _ _ _ _ rfl (.nil _))))))
  · intro w
    refine ⟨(fun h => nomatch h), ?_⟩
    rintro ⟨i, c, h, -⟩
    exact nomatch h
  · show (List.replicate 6 (none : Option Buf))[i]? = _
    rw [List.getElem?_replicate, if_pos hi]

/-- Whether the call fails. -/
theorem addRegion_error {e : MemEp} {cs : List AddCall} (h : RegionsAre e cs) (c : AddCall) (hw : 6 < registersUsed 0 cs + c.width) :
    c.run e = .error "No more BARs available" := by
  unfold AddCall.run MemEp.addRegion
  rw [if_pos]
  rw [h.ptr]
  unfold AddCall.width at hw
  cases hx : c.ext <;> simp only [hx, Bool.false_eq_true, if_false, if_true] at hw
  · exact .inl (by omega)
  · by_cases h5 : registersUsed 0 cs > 5
    · exact .inl h5
    · exact .inr ⟨rfl, by omega⟩

theorem addRegion_ok {e : MemEp} {cs : List AddCall} (h : RegionsAre e cs) (c : AddCall) (hc : c.Ok) (hw : registersUsed 0 cs + c.width ≤ 6) :
    ∃ e', c.run e = .ok e' ∧ RegionsAre e' (cs ++ [c]) ∧ e'.id = e.id ∧ e'.mps = e.mps := by
  obtain ⟨ws, hl, hm⟩ := h.lay
  have hw' : registersUsed 0 cs + (if c.ext then 2 else 1) ≤ 6 := hw
  have hbar : ¬ (e.barPtr ≥ e.bars.length ∨ (c.ext ∧ e.barPtr + 1 ≥ e.bars.length)) := by
    rw [h.len, h.ptr]
    rintro (h | ⟨h, h'⟩)
    · split at hw' <;> omega
    · rw [if_pos h] at hw'; omega
  obtain ⟨k, hk⟩ := sizeExp_exists c.size (if c.io then 2 else 4)
  have hun : ∀ j, registersUsed 0 cs ≤ j → Unused ws j := by
    intro j hj v hv
    obtain ⟨i, c', hg, h1, h2, h3, h4⟩ := (hm v).1 hv
    have := granted_below hg
    unfold AddCall.width at this
    rw [h1]
    refine ⟨by split at this <;> omega, fun hwide => ?_⟩
    rw [hwide] at h3
    have hx : c'.ext = true := by
      cases hx : c'.ext
      · rw [hx] at h3; cases h3
      · rfl
    rw [hx, if_pos rfl] at this
    omega
  have hcfg : ∃ bars' ws', configureBar e.bars e.barPtr c.size c.ext c.prefetch c.io = .ok bars' ∧ Layout 0 bars' ws' ∧
      ∀ v, v ∈ ws' ↔ v ∈ ws ∨ v = ⟨e.barPtr, c.io, c.ext && !c.io, 0, k⟩ := by
    cases hio : c.io
    · rw [hio] at hk
      obtain ⟨bars', ws', q1, q2, q3⟩ := C28_configure e.bars ws e.barPtr c.size k c.ext c.prefetch false hl hk
        (by
          have hc := hc.2
          rw [hio] at hc
          cases hx : c.ext <;> simp only [hx, Bool.false_eq_true, false_and, and_self, if_false, if_true] at hc ⊢
          · have := sizeExp_le hk hc (by simp); omega
          · have := sizeExp_le hk hc (by simp); omega)
        (by simp)
        ⟨by rw [h.len, h.ptr]; split at hw' <;> omega, hun _ (Nat.le_of_eq h.ptr.symm)⟩
        (fun hx => ⟨by rw [h.len, h.ptr]; rw [if_pos hx] at hw'; omega, hun _ (by rw [h.ptr]; omega)⟩)
      exact ⟨bars', ws', q1, q2, fun v => by simpa using q3 v⟩
    · rw [hio] at hk
      obtain ⟨bars', ws', q1, q2, q3⟩ := C28_configure e.bars ws e.barPtr c.size k false c.prefetch true hl hk
        (by
          have hc := hc.2
          rw [hio] at hc
          simp only [Bool.true_eq_false, and_false, if_false] at hc
          have := sizeExp_le hk hc (by simp)
          simp only [Bool.false_eq_true, if_false]
          omega)
        (by simp)
        ⟨by rw [h.len, h.ptr]; split at hw' <;> omega, hun _ (Nat.le_of_eq h.ptr.symm)⟩
        (by simp)
      exact ⟨bars', ws', by rw [configureBar_io _ _ _ _ _ hbar]; exact q1, q2, fun v => by simpa using q3 v⟩
  obtain ⟨bars', ws', q1, q2, q3⟩ := hcfg
  obtain ⟨r1, r2, r3⟩ := configureBar_regs q1
  have hptr : e.barPtr < 6 := by rw [h.ptr]; split at hw' <;> omega
  have hg : granted 0 (cs ++ [c]) = granted 0 cs ++ [(e.barPtr, c)] := by rw [granted_snoc, if_pos hw, h.ptr]
  refine ⟨{ e with bars := bars', regions := e.regions.set e.barPtr (some ⟨c.size, fun _ => 0⟩), barPtr := e.barPtr + (if c.ext then 2 else 1) },
    ?_, ⟨?_, ?_, ?_, ?_, ?_, ?_, ?_⟩, rfl, rfl⟩
  · unfold AddCall.run MemEp.addRegion
    rw [if_neg, q1]
    · rfl
    · rw [h.ptr]
      rintro (h | ⟨h, h'⟩)
      · split at hw' <;> omega
      · rw [if_pos h] at hw'; omega
  · show e.barPtr + c.width = _
    rw [used_snoc, if_pos hw, h.ptr]
  · show bars'.length = 6
    rw [r1, h.len]
  · simp [h.rlen]
  · refine ⟨ws', q2, fun w => ?_⟩
    rw [q3, hm, hg]
    constructor
    · rintro (⟨i, c', h1, h2⟩ | rfl)
      · exact ⟨i, c', List.mem_append_left _ h1, h2⟩
      · exact ⟨e.barPtr, c, by simp, rfl, rfl, rfl, rfl, hk⟩
    · rintro ⟨i, c', h1, h2⟩
      rcases List.mem_append.1 h1 with h1 | h1
      · exact .inl ⟨i, c', h1, h2⟩
      · rw [List.mem_singleton] at h1
        cases h1
        obtain ⟨a1, a2, a3, a4, a5⟩ := h2
        obtain ⟨wi, wio, ww, wb, wk⟩ := w
        simp only at a1 a2 a3 a4 a5
        rw [a1, a2, a3, a4, sizeExp_unique a5 hk]
        exact .inr rfl
  · intro i c' h1
    rw [hg] at h1
    show (bars'.getD i {}).val.testBit 3 = _
    rcases List.mem_append.1 h1 with h1 | h1
    · have := granted_below h1
      rw [r3 i (by rw [h.ptr]; unfold AddCall.width at this; split at this <;> omega)]
      exact h.pref i c' h1
    · rw [List.mem_singleton] at h1
      cases h1
      exact r2
  · intro i c' h1
    rw [hg] at h1
    rcases List.mem_append.1 h1 with h1 | h1
    · have := granted_below h1
      rw [List.getElem?_set_ne (by rw [h.ptr]; unfold AddCall.width at this; split at this <;> omega)]
      exact h.mem i c' h1
    · rw [List.mem_singleton] at h1
      cases h1
      rw [List.getElem?_set_self (by rw [h.rlen]; exact hptr)]
  · intro i hi hno
    rw [hg] at hno
    have hne : e.barPtr ≠ i := by
      rintro rfl
      exact hno c (by simp)
    rw [List.getElem?_set_ne hne]
    exact h.rest i hi fun c' h1 => hno c' (List.mem_append_left _ h1)

theorem regionsAre_after {e : MemEp} {cs : List AddCall} (h : RegionsAre e cs) (c : AddCall) (hc : c.Ok) :
    RegionsAre (AddCall.after e c) (cs ++ [c]) := by
  rw [AddCall.after]
  by_cases hw : registersUsed 0 cs + c.width ≤ 6
  · obtain ⟨e', h1, h2, -⟩ := addRegion_ok h c hc hw
    rw [h1]
    exact h2
  · rw [addRegion_error h c (by omega)]
    have e1 : granted 0 (cs ++ [c]) = granted 0 cs := by rw [granted_snoc, if_neg hw, List.append_nil]
    have e2 : registersUsed 0 (cs ++ [c]) = registersUsed 0 cs := by rw [used_snoc, if_neg hw]; rfl
    exact ⟨by rw [e2]; exact h.ptr, h.len, h.rlen, by rw [e1]; exact h.lay, by rw [e1]; exact h.pref, by rw [e1]; exact h.mem,
      by rw [e1]; exact h.rest⟩

theorem regionsAre_all {cs : List AddCall} (hc : ∀ c ∈ cs, c.Ok) : RegionsAre (cs.foldl AddCall.after {}) cs := by
  have key : ∀ (cs cs' : List AddCall) (e : MemEp), RegionsAre e cs' → (∀ c ∈ cs, c.Ok) → RegionsAre (cs.foldl AddCall.after e) (cs' ++ cs) := by
    intro cs
    induction cs with
    | nil => intro cs' e h _; rw [List.append_nil]; exact h
    | cons c cs ih =>
      intro cs' e h hc
      have := ih (cs' ++ [c]) _ (regionsAre_after h c (hc c List.mem_cons_self)) (fun x hx => hc x (List.mem_cons_of_mem _ hx))
      rw [List.append_assoc] at this
      exact this
  exact key cs [] {} regionsAre_nil hc

end Pcie
