import Verif.Spec.Msi
import Verif.Lemmas.Config
import Verif.Lemmas.EnumBridge
import Verif.Lemmas.Field
namespace Pcie
open Spec

/-! ### Allocation -/

theorem allocLoop_spec (num : Nat) : ∀ r : MsiRegion,
    (MsiRegion.allocLoop num r).1 = (List.range num).map (fun i => ⟨r.base, r.limit + i, r.nextId + i⟩) ∧
    (MsiRegion.allocLoop num r).2.base = r.base ∧ (MsiRegion.allocLoop num r).2.limit = r.limit + num ∧
    (MsiRegion.allocLoop num r).2.nextId = r.nextId + num ∧
    ∀ d, (MsiRegion.allocLoop num r).2.vectors d = if r.limit ≤ d ∧ d < r.limit + num then some (r.nextId + (d - r.limit)) else r.vectors d := by
  induction num with
  | zero => intro r; refine ⟨rfl, rfl, rfl, rfl, fun d => ?_⟩; rw [if_neg (by omega)]; rfl
  | succ num ih =>
    intro r
    simp only [MsiRegion.allocLoop]
    obtain ⟨h1, h2, h3, h4, h5⟩ := ih { r with
      vectors := fun d => if d = r.limit then some r.nextId else r.vectors d, limit := r.limit + 1, nextId := r.nextId + 1 }
    refine ⟨?_, h2, ?_, ?_, ?_⟩
    · rw [h1, List.range_succ_eq_map]
      simp only [List.map_cons, List.map_map, Nat.add_zero]
      congr 1
      apply List.map_congr_left
      intro i _
      simp only [Function.comp, Nat.succ_eq_add_one, MsiVec.mk.injEq, true_and]
      omega
    · rw [h3]; simp only; omega
    · rw [h4]; simp only; omega
    · intro d
      rw [h5]
      simp only
      by_cases hd : d = r.limit
      · subst hd
        rw [if_neg (by omega), if_pos rfl, if_pos (by omega)]; simp
      · rw [if_neg hd]
        by_cases hd2 : r.limit ≤ d ∧ d < r.limit + (num + 1)
        · rw [if_pos hd2, if_pos (by omega)]; congr 1; omega
        · rw [if_neg hd2, if_neg (by omega)]

theorem alloc_vecs (num : Nat) (r : MsiRegion) :
    (r.alloc num).1 = (List.range num).map (fun i => ⟨r.base, r.limit + i, r.nextId + i⟩) := (allocLoop_spec num r).1
theorem alloc_base (num : Nat) (r : MsiRegion) : (r.alloc num).2.base = r.base := (allocLoop_spec num r).2.1
theorem alloc_limit (num : Nat) (r : MsiRegion) : (r.alloc num).2.limit = r.limit + num + (r.limit + num) % 32 := by
  show (MsiRegion.allocLoop num r).2.limit + (MsiRegion.allocLoop num r).2.limit % 32 = _
  rw [(allocLoop_spec num r).2.2.1]
theorem alloc_nextId (num : Nat) (r : MsiRegion) : (r.alloc num).2.nextId = r.nextId + num := (allocLoop_spec num r).2.2.2.1
theorem alloc_vectors (num : Nat) (r : MsiRegion) (d : Nat) : (r.alloc num).2.vectors d =
    if r.limit ≤ d ∧ d < r.limit + num then some (r.nextId + (d - r.limit)) else r.vectors d := (allocLoop_spec num r).2.2.2.2 d

theorem alloc_get {num n : Nat} {r : MsiRegion} {v : MsiVec} (h : (r.alloc num).1[n]? = some v) :
    n < num ∧ v = ⟨r.base, r.limit + n, r.nextId + n⟩ := by
  rw [alloc_vecs, List.getElem?_map] at h
  by_cases hn : n < num
  · rw [List.getElem?_range hn] at h
    exact ⟨hn, (Option.some.inj h).symm⟩
  · rw [List.getElem?_eq_none (by simpa using hn)] at h; simp at h

/-! ### The MSI capability -/

theorem msi_read0 (c : MsiCap) : (c.read 0).getD 0 = c.control &&& 0xffff0000 ||| c.head &&& 0xffff := rfl

theorem tb_7 (x k i : Nat) : ((x &&& 0x7) <<< k).testBit i = (decide (k ≤ i) && decide (i < k + 3) && x.testBit (i - k)) :=
  tb_field x 3 k i
theorem tb_70 (x i : Nat) : (x &&& 0x7).testBit i = (decide (i < 3) && x.testBit i) := tb_field0 x 3 i
theorem tb_7ff (x k i : Nat) : ((x &&& 0x7ff) <<< k).testBit i = (decide (k ≤ i) && decide (i < k + 11) && x.testBit (i - k)) :=
  tb_field x 11 k i
theorem tb_7ff0 (x i : Nat) : (x &&& 0x7ff).testBit i = (decide (i < 11) && x.testBit i) := tb_field0 x 11 i

theorem tb_andNot (a b i : Nat) : (andNot a b).testBit i = (a.testBit i && !b.testBit i) := by
  simp only [andNot, Nat.testBit_xor, Nat.testBit_and]
  cases a.testBit i <;> cases b.testBit i <;> rfl

theorem msi_bit16 (c : MsiCap) : ((c.read 0).getD 0).testBit 16 = c.enable := by
  simp only [msi_read0, MsiCap.control, Nat.testBit_or, tb_ffff0000, tb_bool, tb_7, tb_ffff0]
  simp

theorem msi_mmc (c : MsiCap) : (c.read 0).getD 0 >>> 17 &&& 7 = c.mmc &&& 7 := by
  apply Nat.eq_of_testBit_eq
  intro i
  simp only [tb_70, Nat.testBit_shiftRight, msi_read0, MsiCap.control, Nat.testBit_or, tb_ffff0000, tb_bool, tb_7, tb_ffff0]
  by_cases hi : i < 3
  · have : i = 0 ∨ i = 1 ∨ i = 2 := by omega
    rcases this with h | h | h <;> subst h <;> simp
  · simp [hi]

theorem msi_bit23 (c : MsiCap) : ((c.read 0).getD 0 >>> 23 &&& 1 ≠ 0) ↔ c.cap64 = true := by
  rw [show ((c.read 0).getD 0 >>> 23 &&& 1 ≠ 0) ↔ ((c.read 0).getD 0 >>> 23).testBit 0 = true from m_and1 _, Nat.testBit_shiftRight]
  simp only [msi_read0, MsiCap.control, Nat.testBit_or, tb_ffff0000, tb_bool, tb_7, tb_ffff0]
  simp

/-- Everything but the enable bits and the number of messages enabled is the same. -/
def SameMsi (c c' : MsiCap) : Prop := { c' with enable := false, mme := 0, extEnable := false } = { c with enable := false, mme := 0, extEnable := false }

theorem bit_shl16 (x : Nat) : (x <<< 16 &&& 1 <<< 16 ≠ 0) ↔ x.testBit 0 = true := by
  rw [and_ne_bit, Nat.testBit_shiftLeft]; simp

theorem msiSetEnable_false (f : IrqFn) (c : MsiCap) : ∃ c', f.msiSetEnable c false = ({ f with msi := some c', msiEnabled := false }, c') ∧
    c'.enable = false ∧ SameMsi c c' := by
  have hb : ((c.read 0).getD 0 >>> 16).testBit 0 = c.enable := by rw [Nat.testBit_shiftRight]; exact msi_bit16 c
  have hn : (andNot ((c.read 0).getD 0 >>> 16) 1).testBit 0 = false := by rw [tb_andNot]; simp
  simp only [IrqFn.msiSetEnable, Bool.false_eq_true, if_false]
  refine ⟨_, rfl, ?_, ?_⟩
  · split
    · simp only [MsiCap.write, if_true]
      rw [if_pos (by decide)]
      simp only [decide_eq_false_iff_not, bit_shl16, hn]
      simp
    · rename_i h
      have h : andNot ((c.read 0).getD 0 >>> 16) 1 = (c.read 0).getD 0 >>> 16 := by
        by_contra hc; exact h hc
      rw [h, hb] at hn
      exact hn
  · split
    · simp only [MsiCap.write, if_true]
      rw [if_pos (by decide)]
      rfl
    · rfl

theorem msiSetEnable_true (f : IrqFn) {c : MsiCap} (hc : c.enable = true) :
    f.msiSetEnable c true = ({ f with msi := some c, msiEnabled := true }, c) := by
  have hb : ((c.read 0).getD 0 >>> 16).testBit 0 = true := by rw [Nat.testBit_shiftRight]; rw [← hc]; exact msi_bit16 c
  have e : (c.read 0).getD 0 >>> 16 ||| 1 = (c.read 0).getD 0 >>> 16 := by
    apply Nat.eq_of_testBit_eq
    intro i
    rw [Nat.testBit_or]
    by_cases hi : i = 0
    · subst hi; rw [hb]; simp
    · have : (1 : Nat).testBit i = false := tb_big 1 i 1 (by omega) (by omega)
      simp [this]
  simp only [IrqFn.msiSetEnable, if_true]
  rw [e]
  simp

theorem bmu_full (old new : Nat) (h : new < 2 ^ 32) (ho : old < 2 ^ 32) : byteMaskUpdate old 0xf new = new := by
  apply Nat.eq_of_testBit_eq
  intro i
  rw [bmu_none]
  by_cases hi : i < 32
  · have : (0xf : Nat).testBit (i / 8) = true := by
      have := Nat.testBit_two_pow_sub_one 4 (i / 8)
      rw [show (0xf : Nat) = 2 ^ 4 - 1 from rfl, this]; simp; omega
    rw [if_pos this]
  · rw [tb_big new i 32 h (by omega), tb_big old i 32 ho (by omega)]; simp

/-- A capability is set up for a vector. -/
structure MsiFor (c : MsiCap) (v : MsiVec) : Prop where
  addr : c.addr = v.addr
  mme : c.mme = c.mmc &&& 7
  data : c.data = if c.extCap then v.data else v.data % 2 ^ 16
  ext : c.extCap = true → c.extEnable = true
  lt : v.data < 2 ^ 32

/-- The writes of `msi_capability_init`. -/
def msiSetup (c : MsiCap) (v : MsiVec) : MsiCap :=
  let ctrl := (c.read 0).getD 0
  let is64 := ctrl >>> 23 &&& 1
  let mmcap := ctrl >>> 17 &&& 7
  let c := c.write 1 (v.addr &&& 0xfffffffc) 0xf
  let c := if is64 ≠ 0 then (c.write 2 (v.addr >>> 32 &&& 0xffffffff) 0xf).write 3 v.data 0xf else c.write 2 v.data 0xf
  let ctrl := ctrl ||| 1 <<< 16
  let ctrl := andNot ctrl (7 <<< 20) ||| mmcap <<< 20
  c.write 0 ctrl 0xf

theorem bmu_upper (old : Nat) (ho : old < 2 ^ 64) : byteMaskUpdate old 0xf0 0 = old % 2 ^ 32 := by
  apply Nat.eq_of_testBit_eq
  intro i
  rw [bmu_none, Nat.testBit_mod_two_pow, Nat.zero_testBit]
  have hm : (0xf0 : Nat).testBit (i / 8) = (decide (4 ≤ i / 8) && decide (i / 8 < 8)) := c_top 8 4 (i / 8) (by omega)
  rw [hm]
  by_cases h1 : i < 32
  · rw [if_neg (by simp; omega)]; simp [h1]
  · by_cases h2 : i < 64
    · rw [if_pos (by simp; omega)]; simp [h1]
    · rw [if_neg (by simp; omega), tb_big old i 64 ho (by omega)]; simp

theorem bmu_low32 (old new : Nat) (h : new < 2 ^ 32) : byteMaskUpdate old 0xf new % 2 ^ 32 = new := by
  apply Nat.eq_of_testBit_eq
  intro i
  rw [Nat.testBit_mod_two_pow, bmu_none]
  by_cases hi : i < 32
  · have : (0xf : Nat).testBit (i / 8) = true := by
      have := Nat.testBit_two_pow_sub_one 4 (i / 8)
      rw [show (0xf : Nat) = 2 ^ 4 - 1 from rfl, this]; simp; omega
    rw [if_pos this]; simp [hi]
  · rw [tb_big new i 32 h (by omega)]; simp [hi]

theorem bmu_low16 (old new : Nat) : byteMaskUpdate old (0xf &&& 0x3) new &&& 0xffff = new % 2 ^ 16 := by
  apply Nat.eq_of_testBit_eq
  intro i
  rw [tb_ffff0, Nat.testBit_mod_two_pow, bmu_none]
  by_cases hi : i < 16
  · have : (0xf &&& 0x3 : Nat).testBit (i / 8) = true := by
      have := Nat.testBit_two_pow_sub_one 2 (i / 8)
      rw [show (0xf &&& 0x3 : Nat) = 2 ^ 2 - 1 from rfl, this]; simp; omega
    rw [if_pos this]
  · simp [hi]

theorem bmu_data32 (old new : Nat) (h : new < 2 ^ 32) : byteMaskUpdate old 0xf new &&& 0xffffffff = new := by
  rw [show (0xffffffff : Nat) = 2 ^ 32 - 1 from rfl, Nat.and_two_pow_sub_one_eq_mod]; exact bmu_low32 old new h

theorem bmu_lt64 (old new : Nat) (h : new < 2 ^ 32) (ho : old < 2 ^ 64) : byteMaskUpdate old 0xf new < 2 ^ 64 := by
  apply Nat.lt_pow_two_of_testBit
  intro i hi
  rw [bmu_none, tb_big new i 32 h (by omega), tb_big old i 64 ho hi]; simp

theorem addr_mask {a : Nat} (h : a < 2 ^ 32) (h4 : a % 4 = 0) : a &&& 0xfffffffc = a := by
  rw [and_sfffffffc, Nat.shiftLeft_eq, Nat.shiftRight_eq_div_pow]; omega

/-- Bits of the control word that is written last. -/
theorem ctrl_bits (x m : Nat) (hm : m < 8) :
    ((andNot (x ||| 1 <<< 16) (7 <<< 20) ||| m <<< 20) &&& 1 <<< 16 ≠ 0) ∧ (andNot (x ||| 1 <<< 16) (7 <<< 20) ||| m <<< 20) >>> 20 &&& 7 = m := by
  constructor
  · rw [and_ne_bit, Nat.testBit_or, tb_andNot, Nat.testBit_or]
    have h1 : (1 <<< 16 : Nat).testBit 16 = true := by decide
    have h2 : (7 <<< 20 : Nat).testBit 16 = false := by decide
    rw [h1, h2]; simp
  · apply Nat.eq_of_testBit_eq
    intro i
    rw [tb_70, Nat.testBit_shiftRight, Nat.testBit_or, tb_andNot]
    by_cases hi : i < 3
    · have h2 : (7 <<< 20 : Nat).testBit (20 + i) = true := by
        have : i = 0 ∨ i = 1 ∨ i = 2 := by omega
        rcases this with h | h | h <;> subst h <;> decide
      rw [h2, Nat.testBit_shiftLeft]; simp [hi]
    · rw [tb_big m i 3 (by omega) (by omega)]; simp [hi]

theorem msiSetup_spec {c : MsiCap} {v : MsiVec} (ha : v.addr < 2 ^ 32) (h4 : v.addr % 4 = 0) (hd : v.data < 2 ^ 32)
    (hc : c.addr < 2 ^ (if c.cap64 then 64 else 32)) : (msiSetup c v).enable = true ∧ MsiFor (msiSetup c v) v ∧
      (msiSetup c v).mmc = c.mmc ∧ (msiSetup c v).cap64 = c.cap64 ∧ (msiSetup c v).extCap = c.extCap := by
  have hmm := msi_mmc c
  have hm8 : (c.read 0).getD 0 >>> 17 &&& 7 < 8 := by
    rw [show (7 : Nat) = 2 ^ 3 - 1 from rfl, Nat.and_two_pow_sub_one_eq_mod]; omega
  obtain ⟨k1, k2⟩ := ctrl_bits ((c.read 0).getD 0) _ hm8
  have hup : v.addr >>> 32 &&& 0xffffffff = 0 := by
    rw [Nat.shiftRight_eq_div_pow, Nat.div_eq_of_lt ha]; rfl
  have e2 : (0xf <<< 4 : Nat) = 0xf0 := rfl
  unfold msiSetup
  simp only [msi_bit23]
  generalize (c.read 0).getD 0 = x at *
  cases h64 : c.cap64
  · rw [h64] at hc
    simp only [Bool.false_eq_true, if_false] at hc
    rw [if_neg (by simp)]
    have w1 : c.write 1 (v.addr &&& 0xfffffffc) 0xf = { c with addr := v.addr } := by
      simp only [MsiCap.write, Nat.one_ne_zero, if_false, if_true, addr_mask ha h4, bmu_full c.addr v.addr ha hc]
    have w2 : ({ c with addr := v.addr } : MsiCap).write 2 v.data 0xf =
        { c with addr := v.addr, data := if c.extCap then v.data else v.data % 2 ^ 16 } := by
      simp only [MsiCap.write, h64, bmu_data32 _ _ hd, bmu_low16]
      cases c.extCap <;> simp
    rw [w1, w2]
    simp only [MsiCap.write, if_true]
    rw [if_pos (by decide)]
    refine ⟨by simpa using k1, ⟨rfl, by rw [← hmm]; exact k2, rfl, ?_, hd⟩, rfl, h64, rfl⟩
    intro he
    simp only at he
    simp only [he, if_true]; simpa using k1
  · rw [h64] at hc
    simp only [if_true] at hc
    rw [if_pos rfl]
    have w1 : c.write 1 (v.addr &&& 0xfffffffc) 0xf = { c with addr := byteMaskUpdate c.addr 0xf v.addr } := by
      simp only [MsiCap.write, Nat.one_ne_zero, if_false, if_true, addr_mask ha h4]
    have w2 : ({ c with addr := byteMaskUpdate c.addr 0xf v.addr } : MsiCap).write 2 (v.addr >>> 32 &&& 0xffffffff) 0xf = { c with addr := v.addr } := by
      simp only [MsiCap.write, h64, hup, e2, Nat.zero_shiftLeft]
      rw [bmu_upper _ (bmu_lt64 _ _ ha hc), bmu_low32 _ _ ha]
      simp
    have w3 : ({ c with addr := v.addr } : MsiCap).write 3 v.data 0xf =
        { c with addr := v.addr, data := if c.extCap then v.data else v.data % 2 ^ 16 } := by
      simp only [MsiCap.write, h64, bmu_data32 _ _ hd, bmu_low16]
      cases c.extCap <;> simp
    rw [w1, w2, w3]
    simp only [MsiCap.write, if_true]
    rw [if_pos (by decide)]
    refine ⟨by simpa using k1, ⟨rfl, by rw [← hmm]; exact k2, rfl, ?_, hd⟩, rfl, h64, rfl⟩
    intro he
    simp only at he
    simp only [he, if_true]; simpa using k1

end Pcie
