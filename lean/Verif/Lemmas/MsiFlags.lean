import Verif.Lemmas.MsiSys
/-
Lemmas for C36: what the host knows about the capabilities agrees with their registers.
-/
namespace Pcie
open Spec

theorem msiSetEnable_on (f : IrqFn) (c : MsiCap) : ∃ c', f.msiSetEnable c true = ({ f with msi := some c', msiEnabled := true }, c') ∧ c'.enable = true := by
  have hb : ((c.read 0).getD 0 >>> 16).testBit 0 = c.enable := by rw [Nat.testBit_shiftRight]; exact msi_bit16 c
  have hn : ((c.read 0).getD 0 >>> 16 ||| 1).testBit 0 = true := by rw [Nat.testBit_or]; simp
  simp only [IrqFn.msiSetEnable, if_true]
  refine ⟨_, rfl, ?_⟩
  split
  · simp only [MsiCap.write, if_true]
    rw [if_pos (by decide)]
    simp only [decide_eq_true_eq, bit_shl16, hn]
  · rename_i h
    have h : (c.read 0).getD 0 >>> 16 ||| 1 = (c.read 0).getD 0 >>> 16 := Classical.byContradiction h
    rw [h, hb] at hn
    exact hn

theorem msixSetEnable_on (f : IrqFn) (c : MsixCap) : ∃ c', f.msixSetEnable c true = ({ f with msix := some c', msixEnabled := true }, c') ∧ c'.enable = true := by
  have hb : ((c.read 0).getD 0 >>> 16).testBit 15 = c.enable := by rw [Nat.testBit_shiftRight]; exact msix_bit31 c
  have hn : ((c.read 0).getD 0 >>> 16 ||| 0x8000).testBit 15 = true := by
    rw [Nat.testBit_or, show (0x8000 : Nat).testBit 15 = true from by decide]; simp
  simp only [IrqFn.msixSetEnable, if_true]
  refine ⟨_, rfl, ?_⟩
  split
  · simp only [MsixCap.write, if_true]
    rw [if_pos (by decide)]
    simp only [decide_eq_true_eq, bit_shl31, hn]
  · rename_i h
    have h : (c.read 0).getD 0 >>> 16 ||| 0x8000 = (c.read 0).getD 0 >>> 16 := Classical.byContradiction h
    rw [h, hb] at hn
    exact hn

/-- The flags of the host agree with the capabilities, and at most one is set. -/
structure IrqFlags (f : IrqFn) : Prop where
  msi : f.msiEnabled = match f.msi with | some c => c.enable | none => false
  msix : f.msixEnabled = match f.msix with | some c => c.enable | none => false
  one : ¬ (f.msiEnabled = true ∧ f.msixEnabled = true)

/-- What enabling MSI does: nothing, or MSI is enabled. -/
theorem enableMsi_flags {r r' : MsiRegion} {f f' : IrqFn} {lo hi : Nat} (ho : IrqFlags f) (h : f.enableMsi r lo hi = .ok (r', f')) :
    IrqFlags f' ∧ f'.msixEnabled = f.msixEnabled ∧ f'.msix = f.msix ∧ (f'.msi = none ↔ f.msi = none) ∧
      ((∃ c, f.msi = some c ∧ f.msixEnabled = false ∧ lo ≤ hi ∧ lo ≤ 2 ^ (c.mmc &&& 7)) → f'.msiEnabled = true) := by
  simp only [IrqFn.enableMsi] at h
  cases hc : f.msi with
  | none => rw [hc] at h; cases h; exact ⟨ho, rfl, rfl, by simp [hc], by rintro ⟨c, h, _⟩; cases h⟩
  | some c =>
    rw [hc] at h
    simp only [msi_mmc, Nat.one_shiftLeft] at h
    split at h
    · rename_i hx; cases h; exact ⟨ho, rfl, rfl, by simp [hc], by rintro ⟨c, _, h, _⟩; rw [h] at hx; cases hx⟩
    · rename_i hx
      split at h
      · cases h; exact ⟨ho, rfl, rfl, by simp [hc], by rintro ⟨c, _, _, h, _⟩; omega⟩
      · split at h
        · rename_i hm; cases h; exact ⟨ho, rfl, rfl, by simp [hc], fun _ => hm⟩
        · split at h
          · cases h; exact ⟨ho, rfl, rfl, by simp [hc], by rintro ⟨c', h, _, _, h'⟩; cases h; omega⟩
          · obtain ⟨c1, v, rest, _, _, _, _, f2, hf, _, hx2, _, hx3⟩ := msiInit_inv h
            obtain ⟨c2, e1, e2⟩ := msiSetEnable_on f2 (msiSetup c1 v)
            rw [e1] at hf
            subst hf
            refine ⟨⟨by simp only [e2], ?_, ?_⟩, hx3, hx2, by simp, fun _ => rfl⟩
            · simp only [hx2, hx3]; exact ho.msix
            · simp only [hx3]; exact fun h => hx h.2

theorem enableMsix_flags {r r' : MsiRegion} {f f' : IrqFn} {lo hi : Nat} (ho : IrqFlags f) (h : f.enableMsix r lo hi = .ok (r', f')) :
    IrqFlags f' ∧ f'.msiEnabled = f.msiEnabled ∧ f'.msi = f.msi ∧
      ((∃ c, f.msix = some c ∧ f.msiEnabled = false ∧ lo ≤ hi ∧ lo ≤ c.tableSize % 2048 + 1) → f'.msixEnabled = true) ∧
      ((f.msix = none ∨ ∃ c, f.msix = some c ∧ c.tableSize % 2048 + 1 < lo) → f' = f) := by
  simp only [IrqFn.enableMsix] at h
  cases hc : f.msix with
  | none => rw [hc] at h; cases h; exact ⟨ho, rfl, rfl, (by rintro ⟨c, h, _⟩; cases h), fun _ => rfl⟩
  | some c =>
    rw [hc] at h
    simp only [msix_size] at h
    split at h
    · rename_i hx; cases h; exact ⟨ho, rfl, rfl, (by rintro ⟨c, _, h, _⟩; rw [h] at hx; cases hx), fun _ => rfl⟩
    · rename_i hx
      split at h
      · cases h; exact ⟨ho, rfl, rfl, (by rintro ⟨c, _, _, h, _⟩; omega), fun _ => rfl⟩
      · split at h
        · rename_i hm; cases h; exact ⟨ho, rfl, rfl, fun _ => hm, fun _ => rfl⟩
        · split at h
          · cases h; exact ⟨ho, rfl, rfl, (by rintro ⟨c', h, _, _, h'⟩; cases h; omega), fun _ => rfl⟩
          · rename_i hl
            obtain ⟨c1, vecs, mem, _, _, _, _, f2, hf, _, hx2, _, hx3⟩ := msixInit_inv h
            obtain ⟨c2, e1, e2⟩ := msixSetEnable_on f2 (c1.write 0 ((c1.read 0).getD 0 ||| 1 <<< 31) 0xf)
            rw [e1] at hf
            subst hf
            refine ⟨⟨?_, by simp only [e2], ?_⟩, hx3, hx2, fun _ => rfl, ?_⟩
            · simp only [hx2, hx3]; exact ho.msi
            · simp only [hx3]; exact fun h => hx h.1
            · rintro (h | ⟨c', h, h'⟩)
              · cases h
              · cases h; omega

theorem disableMsi_flags {f : IrqFn} (ho : IrqFlags f) : IrqFlags f.disableMsi ∧ f.disableMsi.msiEnabled = false ∧ f.disableMsi.msixEnabled = f.msixEnabled := by
  simp only [IrqFn.disableMsi]
  cases hc : f.msi with
  | none => exact ⟨ho, by rw [ho.msi, hc], rfl⟩
  | some c =>
    simp only
    split
    · rename_i h; exact ⟨ho, by simpa using h, rfl⟩
    · obtain ⟨c1, e1, e2, _⟩ := msiSetEnable_false f c
      rw [e1]
      exact ⟨⟨by simp only [e2], ho.msix, by simp⟩, rfl, rfl⟩

theorem disableMsix_flags {f : IrqFn} (ho : IrqFlags f) : IrqFlags f.disableMsix ∧ f.disableMsix.msixEnabled = false ∧ f.disableMsix.msiEnabled = f.msiEnabled := by
  simp only [IrqFn.disableMsix]
  cases hc : f.msix with
  | none => exact ⟨ho, by rw [ho.msix, hc], rfl⟩
  | some c =>
    simp only
    split
    · rename_i h; exact ⟨ho, by simpa using h, rfl⟩
    · obtain ⟨c1, e1, e2, _⟩ := msixSetEnable_false f c
      rw [e1]
      exact ⟨⟨ho.msi, by simp only [e2], by simp⟩, rfl, rfl⟩

theorem allocIrq_flags {r r' : MsiRegion} {f f' : IrqFn} {lo hi : Nat} (ho : IrqFlags f) (h : f.allocIrq r lo hi = .ok (r', f')) :
    IrqFlags f' ∧
    ((∃ c, f.msix = some c ∧ f.msiEnabled = false ∧ lo ≤ hi ∧ 0 < hi ∧ lo ≤ c.tableSize % 2048 + 1) → f'.msixEnabled = true) ∧
    ((f.msix = none ∨ ∃ c, f.msix = some c ∧ c.tableSize % 2048 + 1 < lo) → (∃ c, f.msi = some c ∧ f.msixEnabled = false ∧ lo ≤ hi ∧ lo ≤ 2 ^ (c.mmc &&& 7)) → f'.msiEnabled = true) := by
  simp only [IrqFn.allocIrq] at h
  cases h1 : f.enableMsix r lo hi with
  | error e => rw [h1, error_bind] at h; cases h
  | ok p =>
    obtain ⟨r1, f1⟩ := p
    rw [h1, ok_bind] at h
    obtain ⟨a1, a2, a3, a4, a5⟩ := enableMsix_flags ho h1
    simp only at h
    split at h
    · rename_i hx
      cases h
      refine ⟨a1, fun ⟨c, b1, b2, b3, b4, b5⟩ => a4 ⟨c, b1, b2, b3, b5⟩, ?_⟩
      intro hn ⟨c, b1, b2, _⟩
      rw [a5 hn, b2] at hx
      simp at hx
    · obtain ⟨d1, d2, d3, d4, d5⟩ := enableMsi_flags a1 h
      refine ⟨d1, fun ⟨c, b1, b2, b3, b4, b5⟩ => ?_, ?_⟩
      · rw [d2]; exact a4 ⟨c, b1, b2, b3, b5⟩
      · intro hn ⟨c, b1, b2, b3, b4⟩
        have e := a5 hn
        subst e
        exact d5 ⟨c, b1, b2, b3, b4⟩

theorem run_flags {s s' : IrqSys} {op : IrqOp} (h : ∀ f, IrqFlags (s.fns f)) (hr : s.run op = .ok s') : ∀ f, IrqFlags (s'.fns f) := by
  have key : ∀ g r x, IrqFlags x → ∀ f, IrqFlags ((s.setFn g (r, x)).fns f) := by
    intro g r x hx f
    simp only [IrqSys.setFn]
    split
    · exact hx
    · exact h f
  cases op with
  | alloc num => cases hr; exact h
  | enableMsi g lo hi =>
    simp only [IrqSys.run] at hr
    cases h1 : (s.fns g).enableMsi s.region lo hi with
    | error e => rw [h1, error_bind] at hr; cases hr
    | ok p => rw [h1, ok_bind] at hr; cases hr; exact key g p.1 p.2 (enableMsi_flags (h g) h1).1
  | enableMsix g lo hi =>
    simp only [IrqSys.run] at hr
    cases h1 : (s.fns g).enableMsix s.region lo hi with
    | error e => rw [h1, error_bind] at hr; cases hr
    | ok p => rw [h1, ok_bind] at hr; cases hr; exact key g p.1 p.2 (enableMsix_flags (h g) h1).1
  | allocIrq g lo hi =>
    simp only [IrqSys.run] at hr
    cases h1 : (s.fns g).allocIrq s.region lo hi with
    | error e => rw [h1, error_bind] at hr; cases hr
    | ok p => rw [h1, ok_bind] at hr; cases hr; exact key g p.1 p.2 (allocIrq_flags (h g) h1).1
  | freeIrq g => cases hr; exact key g _ _ (disableMsix_flags (disableMsi_flags (h g)).1).1
  | request g nr x =>
    simp only [IrqSys.run] at hr
    split at hr
    · cases hr
    · cases hr; exact h

theorem all_flags (ops : List IrqOp) : ∀ {s s' : IrqSys}, (∀ f, IrqFlags (s.fns f)) → ops.foldlM IrqSys.run s = .ok s' → ∀ f, IrqFlags (s'.fns f) := by
  induction ops with
  | nil => intro s s' h hr; cases hr; exact h
  | cons op ops ih =>
    intro s s' h hr
    rw [List.foldlM_cons] at hr
    cases h1 : s.run op with
    | error e => rw [h1, error_bind] at hr; cases hr
    | ok s1 => rw [h1, ok_bind] at hr; exact ih (run_flags h h1) hr

theorem new_flags {s : IrqSys} (h : NewSys s) : ∀ f, IrqFlags (s.fns f) := by
  intro f
  obtain ⟨_, h2, h3⟩ := h.fns f
  refine ⟨?_, ?_, by rw [h2]; simp⟩
  · rw [h2]; cases hc : (s.fns f).msi with
    | none => rfl
    | some c => exact (h.msi f c hc).1.symm
  · rw [h3]; cases hc : (s.fns f).msix with
    | none => rfl
    | some c => exact (h.msix f c hc).symm

end Pcie
