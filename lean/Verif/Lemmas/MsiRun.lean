import Verif.Lemmas.Msi
namespace Pcie
open Spec

/-! ### One function -/

/-- Entry `k` of the MSI-X table is set up for a vector, and not masked. -/
def Entry (mem : Nat → Nat → Nat) (c : MsixCap) (k : Nat) (v : MsiVec) : Prop :=
  mem (c.tableBir &&& 7) ((c.tableOffset &&& 0xfffffff8) + k * 16) = v.addr &&& 0xfffffffc ∧
  mem (c.tableBir &&& 7) ((c.tableOffset &&& 0xfffffff8) + k * 16 + 4) = v.addr >>> 32 &&& 0xffffffff ∧
  mem (c.tableBir &&& 7) ((c.tableOffset &&& 0xfffffff8) + k * 16 + 8) = v.data &&& 0xffffffff ∧
  mem (c.tableBir &&& 7) ((c.tableOffset &&& 0xfffffff8) + k * 16 + 12) = 0

structure FnOk (f : IrqFn) : Prop where
  msi : ∀ c, f.msi = some c → c.addr < 2 ^ (if c.cap64 then 64 else 32) ∧
    (c.enable = true → ∃ v rest, f.vecs = v :: rest ∧ MsiFor c v)
  msix : ∀ c, f.msix = some c → c.enable = true → ∀ k < c.tableSize % 2048 + 1, ∃ v, f.vecs[k]? = some v ∧ Entry f.mem c k v

/-- What a call does with the vectors of a function. -/
structure FnStep (r : MsiRegion) (f : IrqFn) (r' : MsiRegion) (f' : IrqFn) : Prop where
  static : f'.msix.map (·.tableSize) = f.msix.map (·.tableSize)
  vecs : (r' = r ∧ f'.vecs = f.vecs) ∨ (f.vecs = [] ∧ ∃ num, r' = (r.alloc num).2 ∧ f'.vecs = (r.alloc num).1 ∧
    (num = 32 ∨ ∃ c, f.msix = some c ∧ num = c.tableSize % 2048 + 1))

theorem FnStep.same {r : MsiRegion} {f f' : IrqFn} (h1 : f'.msix.map (·.tableSize) = f.msix.map (·.tableSize)) (h2 : f'.vecs = f.vecs) :
    FnStep r f r f' := ⟨h1, .inl ⟨rfl, h2⟩⟩

theorem alloc_ne_nil {num : Nat} (h : 0 < num) (r : MsiRegion) : (r.alloc num).1 ≠ [] := by
  rw [alloc_vecs]; intro e
  rw [List.map_eq_nil_iff, List.range_eq_nil] at e; omega

theorem FnStep.trans {r r' r'' : MsiRegion} {f f' f'' : IrqFn} (h : FnStep r f r' f') (h' : FnStep r' f' r'' f'') : FnStep r f r'' f'' := by
  refine ⟨h'.static.trans h.static, ?_⟩
  rcases h.vecs with ⟨e1, e2⟩ | ⟨e1, num, e2, e3, e4⟩
  · subst e1
    rcases h'.vecs with ⟨d1, d2⟩ | ⟨d1, num, d2, d3, d4⟩
    · exact .inl ⟨d1, d2.trans e2⟩
    · refine .inr ⟨e2 ▸ d1, num, d2, d3, ?_⟩
      rcases d4 with d4 | ⟨c, hc, d4⟩
      · exact .inl d4
      · have := h.static
        rw [hc] at this
        cases hf : f.msix with
        | none => rw [hf] at this; simp at this
        | some c0 => rw [hf] at this; simp at this; exact .inr ⟨c0, rfl, by rw [← this]; exact d4⟩
  · have hne : f'.vecs ≠ [] := by
      rw [e3]
      apply alloc_ne_nil
      rcases e4 with e4 | ⟨c, _, e4⟩ <;> omega
    rcases h'.vecs with ⟨d1, d2⟩ | ⟨d1, _⟩
    · exact .inr ⟨e1, num, d1.trans e2, d2.trans e3, e4⟩
    · exact absurd d1 hne

/-- All vectors of the function have the address of the region. -/
def AtBase (r : MsiRegion) (f : IrqFn) : Prop := ∀ v ∈ f.vecs, v.addr = r.base

theorem FnStep.base {r r' : MsiRegion} {f f' : IrqFn} (h : FnStep r f r' f') : r'.base = r.base := by
  rcases h.vecs with ⟨e, _⟩ | ⟨_, num, e, _⟩
  · rw [e]
  · rw [e, alloc_base]

theorem FnStep.atBase {r r' : MsiRegion} {f f' : IrqFn} (h : FnStep r f r' f') (hb : AtBase r f) : AtBase r' f' := by
  intro v hv
  rw [h.base]
  rcases h.vecs with ⟨_, e⟩ | ⟨_, num, _, e, _⟩
  · rw [e] at hv; exact hb v hv
  · rw [e, alloc_vecs] at hv
    obtain ⟨i, _, hi⟩ := List.mem_map.1 hv
    rw [← hi]

/-- The new vectors of a function after an allocation on demand. -/
theorem demand {r : MsiRegion} {f : IrqFn} {num : Nat} {vecs : List MsiVec} {r' : MsiRegion}
    (h : (if f.vecs = [] then r.alloc num else (f.vecs, r)) = (vecs, r')) :
    (r' = r ∧ vecs = f.vecs) ∨ (f.vecs = [] ∧ r' = (r.alloc num).2 ∧ vecs = (r.alloc num).1) := by
  split at h
  · rename_i h0
    exact .inr ⟨h0, by rw [h], by rw [h]⟩
  · cases h; exact .inl ⟨rfl, rfl⟩

theorem msiInit_inv {r r' : MsiRegion} {f f' : IrqFn} {c : MsiCap} (h : IrqFn.msiInit r f c = .ok (r', f')) :
    ∃ c1 v rest, c1.enable = false ∧ SameMsi c c1 ∧ (if f.vecs = [] then r.alloc 32 else (f.vecs, r)) = (v :: rest, r') ∧ v.data < 2 ^ 32 ∧
      ∃ f2 : IrqFn, f' = (f2.msiSetEnable (msiSetup c1 v) true).1 ∧ f2.vecs = v :: rest ∧ f2.msix = f.msix ∧ f2.mem = f.mem ∧
        f2.msixEnabled = f.msixEnabled := by
  obtain ⟨c1, e1, e2, e3⟩ := msiSetEnable_false f c
  simp only [IrqFn.msiInit, e1] at h
  generalize hd : (if f.vecs = [] then r.alloc 32 else (f.vecs, r)) = p at h
  obtain ⟨vecs, r1⟩ := p
  cases vecs with
  | nil => cases h
  | cons v rest =>
    by_cases hlt : v.data < 2 ^ 32
    · simp only [IrqFn.dword, if_pos hlt, ok_bind] at h
      have h := Except.ok.inj h
      have hr : r1 = r' := congrArg Prod.fst h
      have hf := congrArg Prod.snd h
      subst hr
      exact ⟨c1, v, rest, e2, e3, rfl, hlt, _, hf.symm, rfl, rfl, rfl, rfl⟩
    · simp only [IrqFn.dword, if_neg hlt, error_bind] at h; cases h

theorem msiInit_ok {r r' : MsiRegion} {f f' : IrqFn} {c : MsiCap} (hc : f.msi = some c) (hlt : r.base < 2 ^ 32) (h4 : r.base % 4 = 0)
    (hb : AtBase r f) (ho : FnOk f) (h : IrqFn.msiInit r f c = .ok (r', f')) (hx : ∀ x, f.msix = some x → x.enable = true → f.vecs ≠ []) :
    FnStep r f r' f' ∧ FnOk f' := by
  obtain ⟨c1, v, rest, e2, e3, hd, hdl, f2, hf, hv2, hx2, hm2, _⟩ := msiInit_inv h
  have hva : v.addr = r.base := by
    rcases demand hd with ⟨_, d2⟩ | ⟨_, d1, d2⟩
    · exact hb v (by rw [← d2]; simp)
    · rw [alloc_vecs] at d2
      have : v ∈ (List.range 32).map (fun i => (⟨r.base, r.limit + i, r.nextId + i⟩ : MsiVec)) := by rw [← d2]; simp
      obtain ⟨i, _, hi⟩ := List.mem_map.1 this
      rw [← hi]
  have ha : c1.addr = c.addr := by have := congrArg MsiCap.addr e3; exact this
  have h64 : c1.cap64 = c.cap64 := by have := congrArg MsiCap.cap64 e3; exact this
  obtain ⟨s1, s2, s3, s4, s5⟩ := msiSetup_spec (c := c1) (v := v) (by rw [hva]; exact hlt) (by rw [hva]; exact h4) hdl
    (by rw [ha, h64]; exact (ho.msi c hc).1)
  rw [msiSetEnable_true f2 s1] at hf
  subst hf
  refine ⟨⟨by simp [hx2], ?_⟩, ⟨?_, ?_⟩⟩
  · rcases demand hd with ⟨d1, d2⟩ | ⟨d0, d1, d2⟩
    · exact .inl ⟨d1, by simpa [hv2] using d2⟩
    · exact .inr ⟨d0, 32, d1, by simpa [hv2] using d2, .inl rfl⟩
  · intro c' hc'
    simp only [Option.some.injEq] at hc'
    subst hc'
    refine ⟨?_, fun _ => ⟨v, rest, hv2, s2⟩⟩
    rw [s2.addr, hva]
    split <;> omega
  · intro x hxx hxe k hk
    simp only [hx2] at hxx
    have hne := hx x hxx hxe
    obtain ⟨w, hw, hw2⟩ := ho.msix x hxx hxe k hk
    refine ⟨w, ?_, by simpa [hm2] using hw2⟩
    rcases demand hd with ⟨_, d2⟩ | ⟨d0, _⟩
    · simp only [hv2, d2]; exact hw
    · exact absurd d0 hne

theorem enableMsi_ok {r r' : MsiRegion} {f f' : IrqFn} {lo hi : Nat} (hlt : r.base < 2 ^ 32) (h4 : r.base % 4 = 0)
    (hb : AtBase r f) (ho : FnOk f) (h : f.enableMsi r lo hi = .ok (r', f')) : FnStep r f r' f' ∧ FnOk f' := by
  have triv : (Except.ok (r, f) : Py _) = .ok (r', f') → FnStep r f r' f' ∧ FnOk f' := by
    intro h; cases h; exact ⟨.same rfl rfl, ho⟩
  simp only [IrqFn.enableMsi] at h
  cases hc : f.msi with
  | none => rw [hc] at h; exact triv h
  | some c =>
    rw [hc] at h
    simp only at h
    split at h
    · exact triv h
    · split at h
      · exact triv h
      · split at h
        · exact triv h
        · split at h
          · exact triv h
          · refine msiInit_ok hc hlt h4 hb ho h ?_
            intro x hx hxe hn
            obtain ⟨v, hv, _⟩ := ho.msix x hx hxe 0 (by omega)
            rw [hn] at hv; simp at hv

theorem disableMsi_ok (r : MsiRegion) {f : IrqFn} (ho : FnOk f) : FnStep r f r f.disableMsi ∧ FnOk f.disableMsi := by
  simp only [IrqFn.disableMsi]
  cases hc : f.msi with
  | none => exact ⟨.same rfl rfl, ho⟩
  | some c =>
    simp only
    split
    · exact ⟨.same rfl rfl, ho⟩
    · obtain ⟨c1, e1, e2, e3⟩ := msiSetEnable_false f c
      rw [e1]
      refine ⟨.same rfl rfl, ⟨?_, ho.msix⟩⟩
      intro c' hc'
      simp only [Option.some.injEq] at hc'
      subst hc'
      have ha : c1.addr = c.addr := by have := congrArg MsiCap.addr e3; exact this
      have h64 : c1.cap64 = c.cap64 := by have := congrArg MsiCap.cap64 e3; exact this
      rw [ha, h64, e2]
      exact ⟨(ho.msi c hc).1, by simp⟩

/-! ### MSI-X -/

theorem msix_read0 (c : MsixCap) : (c.read 0).getD 0 = c.control &&& 0xffff0000 ||| c.head &&& 0xffff := rfl

theorem msix_bit31 (c : MsixCap) : ((c.read 0).getD 0).testBit 31 = c.enable := by
  simp only [msix_read0, MsixCap.control, Nat.testBit_or, tb_ffff0000, tb_bool, tb_7ff, tb_ffff0]
  simp

theorem msix_size (c : MsixCap) : (c.read 0).getD 0 >>> 16 &&& 0x7ff = c.tableSize % 2048 := by
  apply Nat.eq_of_testBit_eq
  intro i
  rw [show (2048 : Nat) = 2 ^ 11 from rfl, Nat.testBit_mod_two_pow]
  simp only [tb_7ff0, Nat.testBit_shiftRight, msix_read0, MsixCap.control, Nat.testBit_or, tb_ffff0000, tb_bool, tb_7ff, tb_ffff0]
  by_cases hi : i < 11
  · have h1 : i ≠ 14 := by omega
    have h2 : i ≠ 15 := by omega
    have h3 : ¬ 16 + i = 30 := by omega
    have h4 : ¬ 16 + i = 31 := by omega
    have h5 : 16 + i < 32 := by omega
    have h6 : 16 + i < 27 := by omega
    simp [hi, h3, h4, h5, h6]
  · simp [hi]

/-- Everything but the mask and enable bits is the same. -/
def SameMsix (c c' : MsixCap) : Prop := { c' with enable := false, functionMask := false } = { c with enable := false, functionMask := false }

theorem bit_shl31 (x : Nat) : (x <<< 16 &&& 1 <<< 31 ≠ 0) ↔ x.testBit 15 = true := by
  rw [and_ne_bit, Nat.testBit_shiftLeft]; simp

theorem msixSetEnable_false (f : IrqFn) (c : MsixCap) : ∃ c', f.msixSetEnable c false = ({ f with msix := some c', msixEnabled := false }, c') ∧
    c'.enable = false ∧ SameMsix c c' := by
  have hb : ((c.read 0).getD 0 >>> 16).testBit 15 = c.enable := by rw [Nat.testBit_shiftRight]; exact msix_bit31 c
  have hn : (andNot ((c.read 0).getD 0 >>> 16) 0x8000).testBit 15 = false := by
    rw [tb_andNot, show (0x8000 : Nat).testBit 15 = true from by decide]; simp
  simp only [IrqFn.msixSetEnable, Bool.false_eq_true, if_false]
  refine ⟨_, rfl, ?_, ?_⟩
  · split
    · simp only [MsixCap.write, if_true]
      rw [if_pos (by decide)]
      simp only [decide_eq_false_iff_not, bit_shl31, hn]
      simp
    · rename_i h
      have h : andNot ((c.read 0).getD 0 >>> 16) 0x8000 = (c.read 0).getD 0 >>> 16 := by
        by_contra hc; exact h hc
      rw [h, hb] at hn
      exact hn
  · split
    · simp only [MsixCap.write, if_true]
      rw [if_pos (by decide)]
      rfl
    · rfl

theorem msixSetEnable_true (f : IrqFn) {c : MsixCap} (hc : c.enable = true) :
    f.msixSetEnable c true = ({ f with msix := some c, msixEnabled := true }, c) := by
  have hb : ((c.read 0).getD 0 >>> 16).testBit 15 = true := by rw [Nat.testBit_shiftRight]; rw [← hc]; exact msix_bit31 c
  have e : (c.read 0).getD 0 >>> 16 ||| 0x8000 = (c.read 0).getD 0 >>> 16 := by
    apply Nat.eq_of_testBit_eq
    intro i
    rw [Nat.testBit_or]
    by_cases hi : i = 15
    · subst hi; rw [hb]; simp
    · have : (0x8000 : Nat).testBit i = false := by
        rw [show (0x8000 : Nat) = 2 ^ 15 from rfl, Nat.testBit_two_pow]; simp; omega
      simp [this]
  simp only [IrqFn.msixSetEnable, if_true]
  rw [e]
  simp

theorem msix_table (c : MsixCap) : (c.read 1).getD 0 &&& 7 = c.tableBir &&& 7 ∧ andNot ((c.read 1).getD 0) 7 = c.tableOffset &&& 0xfffffff8 := by
  have hr : (c.read 1).getD 0 = c.tableBir &&& 0x7 ||| c.tableOffset &&& 0xfffffff8 := rfl
  have ht : ∀ i, (c.tableOffset &&& 0xfffffff8).testBit i = (decide (3 ≤ i) && decide (i < 32) && c.tableOffset.testBit i) :=
    fun i => tb_top c.tableOffset 32 3 i (by omega)
  have h7 : ∀ i, (7 : Nat).testBit i = decide (i < 3) := fun i => Nat.testBit_two_pow_sub_one 3 i
  constructor
  · apply Nat.eq_of_testBit_eq
    intro i
    rw [hr, tb_70, Nat.testBit_or, tb_70, ht]
    by_cases hi : i < 3
    · have : ¬ 3 ≤ i := by omega
      simp [hi, this]
    · simp [hi]
  · apply Nat.eq_of_testBit_eq
    intro i
    rw [tb_andNot, hr, Nat.testBit_or, tb_70, ht, h7]
    by_cases hi : i < 3
    · have : ¬ 3 ≤ i := by omega
      simp [hi, this]
    · simp [hi]

theorem tableLoop_spec (vecs : List MsiVec) (bar off : Nat) (k : Nat) : ∀ (i : Nat) (mem mem' : Nat → Nat → Nat),
    IrqFn.tableLoop vecs bar off i k mem = .ok mem' →
    (∀ j, i ≤ j → j < i + k → ∃ v, vecs[j]? = some v ∧ mem' bar (off + j * 16) = v.addr &&& 0xfffffffc ∧
      mem' bar (off + j * 16 + 4) = v.addr >>> 32 &&& 0xffffffff ∧ mem' bar (off + j * 16 + 8) = v.data &&& 0xffffffff ∧
      mem' bar (off + j * 16 + 12) = 0) ∧
    ∀ b a, (a < off + i * 16) → mem' b a = mem b a := by
  induction k with
  | zero => intro i mem mem' h; cases h; exact ⟨fun j h1 h2 => absurd h2 (by omega), fun _ _ _ => rfl⟩
  | succ k ih =>
    intro i mem mem' h
    rw [IrqFn.tableLoop] at h
    cases hv : vecs[i]? with
    | none => rw [hv] at h; cases h
    | some v =>
      rw [hv] at h
      obtain ⟨h1, h2⟩ := ih _ _ _ h
      refine ⟨?_, ?_⟩
      · intro j hj1 hj2
        by_cases hj : j = i
        · subst hj
          refine ⟨v, hv, ?_, ?_, ?_, ?_⟩
          · rw [h2 _ _ (by omega)]
            simp only [IrqFn.store, true_and, Nat.add_zero]
            rw [if_neg (by omega), if_neg (by omega), if_neg (by omega), if_pos trivial]
          · rw [h2 _ _ (by omega)]
            simp only [IrqFn.store, true_and, Nat.add_zero]
            rw [if_neg (by omega), if_neg (by omega), if_pos trivial]
          · rw [h2 _ _ (by omega)]
            simp only [IrqFn.store, true_and, Nat.add_zero]
            rw [if_neg (by omega), if_pos trivial]
          · rw [h2 _ _ (by omega)]
            simp only [IrqFn.store, true_and]
            rw [if_pos trivial]
        · exact h1 j (by omega) (by omega)
      · intro b a ha
        rw [h2 _ _ (by omega)]
        simp only [IrqFn.store, Nat.add_zero]
        rw [if_neg (by omega), if_neg (by omega), if_neg (by omega), if_neg (by omega)]

theorem msixInit_inv {r r' : MsiRegion} {f f' : IrqFn} {c : MsixCap} (h : IrqFn.msixInit r f c = .ok (r', f')) :
    ∃ c1 vecs mem, c1.enable = false ∧ SameMsix c c1 ∧ (if f.vecs = [] then r.alloc (c.tableSize % 2048 + 1) else (f.vecs, r)) = (vecs, r') ∧
      IrqFn.tableLoop vecs (c.tableBir &&& 7) (c.tableOffset &&& 0xfffffff8) 0 (c.tableSize % 2048 + 1) f.mem = .ok mem ∧
      ∃ f2 : IrqFn, f' = (f2.msixSetEnable (c1.write 0 ((c1.read 0).getD 0 ||| 1 <<< 31) 0xf) true).1 ∧
        f2.vecs = vecs ∧ f2.msi = f.msi ∧ f2.mem = mem ∧ f2.msiEnabled = f.msiEnabled := by
  obtain ⟨c1, e1, e2, e3⟩ := msixSetEnable_false f c
  have t1 : c1.tableSize = c.tableSize := by have := congrArg MsixCap.tableSize e3; exact this
  have t2 : c1.tableBir = c.tableBir := by have := congrArg MsixCap.tableBir e3; exact this
  have t3 : c1.tableOffset = c.tableOffset := by have := congrArg MsixCap.tableOffset e3; exact this
  simp only [IrqFn.msixInit, e1, msix_size, (msix_table c1).1, (msix_table c1).2, t1, t2, t3] at h
  generalize hd : (if f.vecs = [] then r.alloc (c.tableSize % 2048 + 1) else (f.vecs, r)) = p at h
  obtain ⟨vecs, r1⟩ := p
  simp only at h
  cases hl : IrqFn.tableLoop vecs (c.tableBir &&& 7) (c.tableOffset &&& 0xfffffff8) 0 (c.tableSize % 2048 + 1) f.mem with
  | error e => rw [hl, error_bind] at h; cases h
  | ok mem =>
    rw [hl, ok_bind] at h
    have h := Except.ok.inj h
    have hr : r1 = r' := congrArg Prod.fst h
    have hf := congrArg Prod.snd h
    subst hr
    exact ⟨c1, vecs, mem, e2, e3, rfl, hl, _, hf.symm, rfl, rfl, rfl, rfl⟩

theorem msixInit_ok {r r' : MsiRegion} {f f' : IrqFn} {c : MsixCap} (hc : f.msix = some c)
    (ho : FnOk f) (h : IrqFn.msixInit r f c = .ok (r', f')) : FnStep r f r' f' ∧ FnOk f' := by
  obtain ⟨c1, vecs, mem, e2, e3, hd, hl, f2, hf, hv2, hx2, hm2, _⟩ := msixInit_inv h
  have hw : (c1.write 0 ((c1.read 0).getD 0 ||| 1 <<< 31) 0xf).enable = true := by
    simp only [MsixCap.write, if_true]
    rw [if_pos (by decide)]
    simp only [decide_eq_true_eq, and_ne_bit, Nat.testBit_or]
    rw [show (1 <<< 31 : Nat).testBit 31 = true from by decide]; simp
  have hsame : SameMsix c (c1.write 0 ((c1.read 0).getD 0 ||| 1 <<< 31) 0xf) := by
    simp only [MsixCap.write, if_true]
    rw [if_pos (by decide)]
    exact e3
  generalize c1.write 0 ((c1.read 0).getD 0 ||| 1 <<< 31) 0xf = c2 at hw hsame hf
  rw [msixSetEnable_true f2 hw] at hf
  subst hf
  have t1 : c2.tableSize = c.tableSize := by have := congrArg MsixCap.tableSize hsame; exact this
  have t2 : c2.tableBir = c.tableBir := by have := congrArg MsixCap.tableBir hsame; exact this
  have t3 : c2.tableOffset = c.tableOffset := by have := congrArg MsixCap.tableOffset hsame; exact this
  refine ⟨⟨by simp [hc, t1], ?_⟩, ⟨?_, ?_⟩⟩
  · rcases demand hd with ⟨d1, d2⟩ | ⟨d0, d1, d2⟩
    · exact .inl ⟨d1, by simpa [hv2] using d2⟩
    · exact .inr ⟨d0, _, d1, by simpa [hv2] using d2, .inr ⟨c, hc, rfl⟩⟩
  · intro c' hc'
    simp only [hx2] at hc'
    refine ⟨(ho.msi c' hc').1, fun he => ?_⟩
    obtain ⟨v, rest, hv, hm⟩ := (ho.msi c' hc').2 he
    refine ⟨v, rest, ?_, hm⟩
    rcases demand hd with ⟨_, d2⟩ | ⟨d0, _⟩
    · simp only [hv2, d2]; exact hv
    · rw [d0] at hv; simp at hv
  · intro x hxx _ k hk
    simp only [Option.some.injEq] at hxx
    subst hxx
    obtain ⟨h1, _⟩ := tableLoop_spec _ _ _ _ _ _ _ hl
    obtain ⟨v, hv, hv1⟩ := h1 k (by omega) (by rw [t1] at hk; omega)
    refine ⟨v, by simpa [hv2] using hv, ?_⟩
    simp only [Entry, hm2, t2, t3]
    exact hv1

theorem enableMsix_ok {r r' : MsiRegion} {f f' : IrqFn} {lo hi : Nat} (ho : FnOk f) (h : f.enableMsix r lo hi = .ok (r', f')) :
    FnStep r f r' f' ∧ FnOk f' := by
  have triv : (Except.ok (r, f) : Py _) = .ok (r', f') → FnStep r f r' f' ∧ FnOk f' := by
    intro h; cases h; exact ⟨.same rfl rfl, ho⟩
  simp only [IrqFn.enableMsix] at h
  cases hc : f.msix with
  | none => rw [hc] at h; exact triv h
  | some c =>
    rw [hc] at h
    simp only at h
    split at h
    · exact triv h
    · split at h
      · exact triv h
      · split at h
        · exact triv h
        · split at h
          · exact triv h
          · exact msixInit_ok hc ho h

theorem disableMsix_ok (r : MsiRegion) {f : IrqFn} (ho : FnOk f) : FnStep r f r f.disableMsix ∧ FnOk f.disableMsix := by
  simp only [IrqFn.disableMsix]
  cases hc : f.msix with
  | none => exact ⟨.same rfl rfl, ho⟩
  | some c =>
    simp only
    split
    · exact ⟨.same rfl rfl, ho⟩
    · obtain ⟨c1, e1, e2, e3⟩ := msixSetEnable_false f c
      rw [e1]
      have t1 : c1.tableSize = c.tableSize := by have := congrArg MsixCap.tableSize e3; exact this
      refine ⟨.same (by simp [hc, t1]) rfl, ⟨ho.msi, ?_⟩⟩
      intro c' hc'
      simp only [Option.some.injEq] at hc'
      subst hc'
      rw [e2]; simp

theorem allocIrq_ok {r r' : MsiRegion} {f f' : IrqFn} {lo hi : Nat} (hlt : r.base < 2 ^ 32) (h4 : r.base % 4 = 0)
    (hb : AtBase r f) (ho : FnOk f) (h : f.allocIrq r lo hi = .ok (r', f')) : FnStep r f r' f' ∧ FnOk f' := by
  simp only [IrqFn.allocIrq] at h
  cases h1 : f.enableMsix r lo hi with
  | error e => rw [h1, error_bind] at h; cases h
  | ok p =>
    obtain ⟨r1, f1⟩ := p
    rw [h1, ok_bind] at h
    obtain ⟨s1, o1⟩ := enableMsix_ok ho h1
    simp only at h
    split at h
    · cases h; exact ⟨s1, o1⟩
    · obtain ⟨s2, o2⟩ := enableMsi_ok (by rw [s1.base]; exact hlt) (by rw [s1.base]; exact h4) (s1.atBase hb) o1 h
      exact ⟨s1.trans s2, o2⟩

end Pcie
