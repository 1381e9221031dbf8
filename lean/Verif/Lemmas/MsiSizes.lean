/-
Helper lemmas: setting up interrupts does not change what the capabilities say about themselves.
-/
import Verif.Model.Msi
import Verif.Lemmas.Msi
namespace Pcie

theorem msi_write_mmc (c : MsiCap) (reg d m : Nat) : (c.write reg d m).mmc = c.mmc := by
  unfold MsiCap.write
  repeat' split
  all_goals rfl

theorem msix_write_sizes (c : MsixCap) (reg d m : Nat) :
    (c.write reg d m).tableSize = c.tableSize ∧ (c.write reg d m).tableBir = c.tableBir ∧ (c.write reg d m).tableOffset = c.tableOffset := by
  unfold MsixCap.write
  repeat' split
  all_goals exact ⟨rfl, rfl, rfl⟩

/-- The sizes of the MSI and MSI-X capabilities, and where the MSI-X table is. -/
def IrqFn.sizes (f : IrqFn) : Option Nat × Option (Nat × Nat × Nat) :=
  (f.msi.map MsiCap.mmc, f.msix.map fun c => (c.tableSize, c.tableBir, c.tableOffset))

namespace IrqFn

theorem msiSetEnable_mmc (f : IrqFn) (c : MsiCap) (e : Bool) : (f.msiSetEnable c e).2.mmc = c.mmc := by
  unfold msiSetEnable
  simp only
  generalize (if e = true then (c.read 0).getD 0 >>> 16 ||| 1 else andNot ((c.read 0).getD 0 >>> 16) 1) = v
  split
  · exact msi_write_mmc _ _ _ _
  · rfl

theorem msixSetEnable_size (f : IrqFn) (c : MsixCap) (e : Bool) : (f.msixSetEnable c e).2.tableSize = c.tableSize ∧
    (f.msixSetEnable c e).2.tableBir = c.tableBir ∧ (f.msixSetEnable c e).2.tableOffset = c.tableOffset := by
  unfold msixSetEnable
  simp only
  generalize (if e = true then (c.read 0).getD 0 >>> 16 ||| 0x8000 else andNot ((c.read 0).getD 0 >>> 16) 0x8000) = v
  split
  · exact msix_write_sizes _ _ _ _
  · exact ⟨rfl, rfl, rfl⟩

theorem msiInit_sizes {r r' : MsiRegion} {f f' : IrqFn} {c : MsiCap} (hc : f.msi = some c) (h : msiInit r f c = .ok (r', f')) : f'.sizes = f.sizes := by
  unfold msiInit at h
  simp only at h
  have h1 := msiSetEnable_mmc f c false
  have h2 : (f.msiSetEnable c false).1.msix = f.msix := rfl
  generalize f.msiSetEnable c false = q at *
  obtain ⟨f1, c1⟩ := q
  simp only at *
  generalize (if f1.vecs = [] then r.alloc 32 else (f1.vecs, r)) = av at h
  obtain ⟨vecs, r1⟩ := av
  simp only at h
  cases vecs with
  | nil => cases h
  | cons v rest =>
    simp only at h
    cases hd : dword v.data with
    | error e => rw [hd] at h; cases h
    | ok d =>
      rw [hd] at h
      simp only [ok_bind] at h
      generalize hc2 : (if (c1.read 0).getD 0 >>> 23 &&& 1 ≠ 0 then
        ((c1.write 1 (v.addr &&& 0xfffffffc) 0xf).write 2 (v.addr >>> 32 &&& 0xffffffff) 0xf).write 3 d 0xf
        else (c1.write 1 (v.addr &&& 0xfffffffc) 0xf).write 2 d 0xf) = c2 at h
      have m2 : c2.mmc = c1.mmc := by
        rw [← hc2]; split <;> simp only [msi_write_mmc]
      cases h
      have e := msiSetEnable_mmc { f1 with msiEnabled := true, vecs := v :: rest }
        (c2.write 0 (andNot ((c1.read 0).getD 0 ||| 1 <<< 16) (7 <<< 20) ||| ((c1.read 0).getD 0 >>> 17 &&& 7) <<< 20) 0xf) true
      rw [msi_write_mmc, m2, h1] at e
      unfold sizes
      rw [hc]
      exact Prod.ext (congrArg some e) (congrArg (Option.map _) h2)

theorem msixInit_sizes {r r' : MsiRegion} {f f' : IrqFn} {c : MsixCap} (hc : f.msix = some c) (h : msixInit r f c = .ok (r', f')) : f'.sizes = f.sizes := by
  unfold msixInit at h
  simp only at h
  have h1 := msixSetEnable_size f c false
  have h2 : (f.msixSetEnable c false).1.msi = f.msi := rfl
  generalize f.msixSetEnable c false = q at *
  obtain ⟨f1, c1⟩ := q
  simp only at *
  generalize (if f1.vecs = [] then r.alloc (((c1.read 0).getD 0 >>> 16 &&& 0x7ff) + 1) else (f1.vecs, r)) = av at h
  obtain ⟨vecs, r1⟩ := av
  simp only at h
  cases ht : tableLoop vecs ((c1.read 1).getD 0 &&& 7) (andNot ((c1.read 1).getD 0) 7) 0 (((c1.read 0).getD 0 >>> 16 &&& 0x7ff) + 1) f1.mem with
  | error e => rw [ht] at h; cases h
  | ok mem =>
    rw [ht] at h
    simp only [ok_bind] at h
    cases h
    have e := msixSetEnable_size { f1 with msixEnabled := true, vecs, mem } (c1.write 0 ((c1.read 0).getD 0 ||| 1 <<< 31) 0xf) true
    obtain ⟨w1, w2, w3⟩ := msix_write_sizes c1 0 ((c1.read 0).getD 0 ||| 1 <<< 31) 0xf
    rw [w1, w2, w3, h1.1, h1.2.1, h1.2.2] at e
    unfold sizes
    rw [hc]
    exact Prod.ext (congrArg (Option.map _) h2) (congrArg some (Prod.ext e.1 (Prod.ext e.2.1 e.2.2)))

theorem enableMsi_sizes {r r' : MsiRegion} {f f' : IrqFn} {lo hi : Nat} (h : enableMsi r f lo hi = .ok (r', f')) : f'.sizes = f.sizes := by
  unfold enableMsi at h
  cases hc : f.msi with
  | none => rw [hc] at h; cases h; rfl
  | some c =>
    rw [hc] at h
    simp only at h
    repeat' split at h
    all_goals first
      | exact msiInit_sizes hc h
      | (cases h; rfl)

theorem enableMsix_sizes {r r' : MsiRegion} {f f' : IrqFn} {lo hi : Nat} (h : enableMsix r f lo hi = .ok (r', f')) : f'.sizes = f.sizes := by
  unfold enableMsix at h
  cases hc : f.msix with
  | none => rw [hc] at h; cases h; rfl
  | some c =>
    rw [hc] at h
    simp only at h
    repeat' split at h
    all_goals first
      | exact msixInit_sizes hc h
      | (cases h; rfl)

theorem allocIrq_sizes {r r' : MsiRegion} {f f' : IrqFn} {lo hi : Nat} (h : allocIrq r f lo hi = .ok (r', f')) : f'.sizes = f.sizes := by
  unfold allocIrq at h
  cases h1 : enableMsix r f lo hi with
  | error e => rw [h1] at h; cases h
  | ok q =>
    obtain ⟨r1, f1⟩ := q
    rw [h1] at h
    simp only [ok_bind] at h
    split at h
    · cases h; exact enableMsix_sizes h1
    · exact (enableMsi_sizes h).trans (enableMsix_sizes h1)

theorem disableMsi_sizes (f : IrqFn) : f.disableMsi.sizes = f.sizes := by
  unfold disableMsi
  cases hc : f.msi with
  | none => rfl
  | some c =>
    simp only
    split
    · rfl
    · unfold sizes
      rw [hc]
      exact Prod.ext (congrArg some (msiSetEnable_mmc f c false)) rfl

theorem disableMsix_sizes (f : IrqFn) : f.disableMsix.sizes = f.sizes := by
  unfold disableMsix
  cases hc : f.msix with
  | none => rfl
  | some c =>
    simp only
    split
    · rfl
    · obtain ⟨a, b, d⟩ := msixSetEnable_size f c false
      unfold sizes
      rw [hc]
      exact Prod.ext rfl (congrArg some (Prod.ext a (Prod.ext b d)))

end IrqFn

theorem run_sizes {s s' : IrqSys} {op : IrqOp} (hr : s.run op = .ok s') (f : Nat) : (s'.fns f).sizes = (s.fns f).sizes := by
  have key : ∀ g r x, x.sizes = (s.fns g).sizes → ((s.setFn g (r, x)).fns f).sizes = (s.fns f).sizes := by
    intro g r x hx
    simp only [IrqSys.setFn]
    split
    · next e => subst e; exact hx
    · rfl
  cases op with
  | alloc num => cases hr; rfl
  | enableMsi g lo hi =>
    simp only [IrqSys.run] at hr
    cases h1 : (s.fns g).enableMsi s.region lo hi with
    | error e => rw [h1] at hr; cases hr
    | ok p => rw [h1] at hr; cases hr; exact key g p.1 p.2 (IrqFn.enableMsi_sizes h1)
  | enableMsix g lo hi =>
    simp only [IrqSys.run] at hr
    cases h1 : (s.fns g).enableMsix s.region lo hi with
    | error e => rw [h1] at hr; cases hr
    | ok p => rw [h1] at hr; cases hr; exact key g p.1 p.2 (IrqFn.enableMsix_sizes h1)
  | allocIrq g lo hi =>
    simp only [IrqSys.run] at hr
    cases h1 : (s.fns g).allocIrq s.region lo hi with
    | error e => rw [h1] at hr; cases hr
    | ok p => rw [h1] at hr; cases hr; exact key g p.1 p.2 (IrqFn.allocIrq_sizes h1)
  | freeIrq g => cases hr; exact key g _ _ ((IrqFn.disableMsix_sizes _).trans (IrqFn.disableMsi_sizes _))
  | request g nr x =>
    simp only [IrqSys.run] at hr
    split at hr
    · cases hr
    · cases hr; rfl

theorem runs_sizes (ops : List IrqOp) : ∀ {s s' : IrqSys}, ops.foldlM IrqSys.run s = .ok s' → ∀ f, (s'.fns f).sizes = (s.fns f).sizes := by
  induction ops with
  | nil => intro s s' h f; cases h; rfl
  | cons op r ih =>
    intro s s' h f
    rw [List.foldlM_cons] at h
    cases h1 : s.run op with
    | error e => rw [h1] at h; cases h
    | ok s1 => rw [h1] at h; exact (ih h f).trans (run_sizes h1 f)

end Pcie
