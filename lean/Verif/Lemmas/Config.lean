/-
Helper lemmas: configuration registers, bit by bit.
-/
import Verif.Model.Config
import Verif.Spec.Config
import Verif.Lemmas.Bar
import Mathlib.Tactic.IntervalCases
namespace Pcie
open Spec

theorem tb_big (x i w : Nat) (h : x < 2 ^ w) (hi : w ≤ i) : x.testBit i = false :=
  Nat.testBit_lt_two_pow (Nat.lt_of_lt_of_le h (Nat.pow_le_pow_right (by omega) hi))

theorem tb_bool (b : Bool) (k i : Nat) : (b.toNat <<< k).testBit i = (b && decide (i = k)) := by
  rw [Nat.testBit_shiftLeft]
  cases b
  · simp
  · by_cases h : i = k
    · subst h; simp
    · by_cases h2 : k ≤ i
      · have h3 : (1 : Nat).testBit (i - k) = false := tb_big 1 (i - k) 1 (by omega) (by omega)
        simp [h, h3]
      · simp [h]; omega

theorem bitSet_eq (d k : Nat) : bitSet d k = d.testBit k := by
  unfold bitSet
  have h := and_bit_ne d k
  rw [Nat.testBit_eq_decide_div_mod_eq]
  by_cases hh : d / 2 ^ k % 2 = 1
  · simp only [hh, decide_true]; simpa using h.2 hh
  · have := mt h.1 hh; simp only [hh, decide_false]; simpa using this

theorem and_ne_bit (m k : Nat) : (m &&& 1 <<< k ≠ 0) ↔ m.testBit k = true := by
  rw [and_bit_ne, Nat.testBit_eq_decide_div_mod_eq]; simp

theorem m_and1 (m : Nat) : (m &&& 1 ≠ 0) ↔ m.testBit 0 = true := and_ne_bit m 0
theorem m_and2 (m : Nat) : (m &&& 2 ≠ 0) ↔ m.testBit 1 = true := and_ne_bit m 1
theorem m_and4 (m : Nat) : (m &&& 4 ≠ 0) ↔ m.testBit 2 = true := and_ne_bit m 2
theorem m_and8 (m : Nat) : (m &&& 8 ≠ 0) ↔ m.testBit 3 = true := and_ne_bit m 3

theorem mask_big (m i : Nat) (h : m < 16) (hi : 32 ≤ i) : m.testBit (i / 8) = false :=
  tb_big m (i / 8) 4 h (by omega)

theorem bmu_some (old mask new b i : Nat) : (byteMaskUpdate old mask new (some b)).testBit i =
    if mask.testBit (i / 8) = true ∧ b.testBit i = true then new.testBit i else old.testBit i := by
  rw [C02_byte_mask_update]; simp

theorem bmu_none (old mask new i : Nat) : (byteMaskUpdate old mask new none).testBit i =
    if mask.testBit (i / 8) = true then new.testBit i else old.testBit i := by
  rw [C02_byte_mask_update]; simp

theorem tb_field (x w k i : Nat) : ((x &&& (2 ^ w - 1)) <<< k).testBit i =
    (decide (k ≤ i) && decide (i < k + w) && x.testBit (i - k)) := by
  rw [Nat.testBit_shiftLeft, and_mask_eq, Nat.testBit_mod_two_pow]
  by_cases h : k ≤ i
  · have e : (i - k < w) = (i < k + w) := by simp; omega
    simp only [h, decide_true, Bool.true_and, e]
  · simp [h]

theorem tb_field0 (x w i : Nat) : (x &&& (2 ^ w - 1)).testBit i = (decide (i < w) && x.testBit i) := by
  rw [and_mask_eq, Nat.testBit_mod_two_pow]

theorem tb_ffff0 (x i : Nat) : (x &&& 0xffff).testBit i = (decide (i < 16) && x.testBit i) := tb_field0 x 16 i
theorem tb_ff0 (x i : Nat) : (x &&& 0xff).testBit i = (decide (i < 8) && x.testBit i) := tb_field0 x 8 i
theorem tb_f0 (x i : Nat) : (x &&& 0xf).testBit i = (decide (i < 4) && x.testBit i) := tb_field0 x 4 i
theorem tb_ff32 (x i : Nat) : (x &&& 0xffffffff).testBit i = (decide (i < 32) && x.testBit i) := tb_field0 x 32 i
theorem tb_f (x k i : Nat) : ((x &&& 0xf) <<< k).testBit i = (decide (k ≤ i) && decide (i < k + 4) && x.testBit (i - k)) :=
  tb_field x 4 k i
theorem tb_7f (x k i : Nat) : ((x &&& 0x7f) <<< k).testBit i = (decide (k ≤ i) && decide (i < k + 7) && x.testBit (i - k)) :=
  tb_field x 7 k i
theorem tb_ff (x k i : Nat) : ((x &&& 0xff) <<< k).testBit i = (decide (k ≤ i) && decide (i < k + 8) && x.testBit (i - k)) :=
  tb_field x 8 k i
theorem tb_ffff (x k i : Nat) : ((x &&& 0xffff) <<< k).testBit i =
    (decide (k ≤ i) && decide (i < k + 16) && x.testBit (i - k)) := tb_field x 16 k i
theorem tb_ffffff (x k i : Nat) : ((x &&& 0xffffff) <<< k).testBit i =
    (decide (k ≤ i) && decide (i < k + 24) && x.testBit (i - k)) := tb_field x 24 k i

theorem tb_top (x W k i : Nat) (h : k ≤ W) : (x &&& (2 ^ W - 2 ^ k)).testBit i =
    (decide (k ≤ i) && decide (i < W) && x.testBit i) := by
  rw [Nat.testBit_and, himask_eq W k h, ← Nat.shiftLeft_eq, Nat.testBit_shiftLeft, Nat.testBit_two_pow_sub_one]
  by_cases hk : k ≤ i
  · have e : (i - k < W - k) = (i < W) := by simp; omega
    simp only [hk, decide_true, Bool.true_and, e, Bool.and_comm]
  · simp [hk]

theorem tb_rom (x i : Nat) : (x &&& 0xfffff800).testBit i = (decide (11 ≤ i) && decide (i < 32) && x.testBit i) :=
  tb_top x 32 11 i (by omega)
theorem tb_f000 (x i : Nat) : (x &&& 0xf000).testBit i = (decide (12 ≤ i) && decide (i < 16) && x.testBit i) :=
  tb_top x 16 12 i (by omega)
theorem tb_fff0 (x i : Nat) : (x &&& 0xfff00000).testBit i = (decide (20 ≤ i) && decide (i < 32) && x.testBit i) :=
  tb_top x 32 20 i (by omega)
theorem tb_ffff0000 (x i : Nat) : (x &&& 0xffff0000).testBit i = (decide (16 ≤ i) && decide (i < 32) && x.testBit i) :=
  tb_top x 32 16 i (by omega)

theorem c_top (W k i : Nat) (h : k ≤ W) : (2 ^ W - 2 ^ k).testBit i = (decide (k ≤ i) && decide (i < W)) := by
  rw [himask_eq W k h, ← Nat.shiftLeft_eq, Nat.testBit_shiftLeft, Nat.testBit_two_pow_sub_one]
  by_cases hk : k ≤ i
  · have e : (i - k < W - k) = (i < W) := by simp; omega
    simp only [hk, decide_true, Bool.true_and, e]
  · simp [hk]
theorem c_f000 (i : Nat) : (0xf000 : Nat).testBit i = (decide (12 ≤ i) && decide (i < 16)) := c_top 16 12 i (by omega)
theorem c_fff0 (i : Nat) : (0xfff00000 : Nat).testBit i = (decide (20 ≤ i) && decide (i < 32)) := c_top 32 20 i (by omega)
theorem c_fff (i : Nat) : (0xfff : Nat).testBit i = decide (i < 12) := Nat.testBit_two_pow_sub_one 12 i
theorem c_fffff (i : Nat) : (0xfffff : Nat).testBit i = decide (i < 20) := Nat.testBit_two_pow_sub_one 20 i
theorem c_2 (i : Nat) : (2 : Nat).testBit i = (decide (1 ≤ i) && decide (i < 2)) := c_top 2 1 i (by omega)

/-- Splits a statement about bit `i` of a 32-bit register into the 32 bits and the bits above. -/
macro "regbits" i:ident hm:ident "[" ls:Lean.Parser.Tactic.simpLemma,* "]" : tactic => `(tactic|(
  by_cases hi : 32 ≤ $i
  · rw [mask_big _ $i $hm hi]
    have hk : ∀ k < 32, decide ($i = k) = false := by intro k hk; simp; omega
    have hk2 : ∀ k < 33, decide ($i < k) = false := by intro k hk; simp; omega
    simp [hk, hk2]
  · have hi' : $i < 32 := by omega
    interval_cases $i <;> (try simp only [$ls,*]) <;>
      simp [-Nat.testBit_zero, -Nat.testBit_and, tb_ff0] <;>
      (try (split <;> simp_all [-Nat.testBit_zero, -Nat.testBit_and, tb_ff0, Bool.and_comm])) <;>
      (try simp_all)))

section
variable {σ : Type} (ops : CapOps σ)

theorem common_cmd (f : Common σ) (data mask : Nat) (hm : mask < 16) :
    Written cmdRw statusW1c (f.read ops 1) ((f.write ops 1 data mask).read ops 1) data mask := by
  intro i
  simp only [Common.write, if_true, Common.writeCmd, m_and1, m_and2, m_and8]
  simp only [Common.read, Nat.testBit_or, tb_bool, bitSet_eq, Nat.one_ne_zero, if_true, if_false]
  regbits i hm [cmdRw, statusW1c]

theorem common_misc (f : Common σ) (data mask : Nat) (hm : mask < 16) (i : Nat) (h30 : i ≠ 30) :
    ((f.write ops 3 data mask).read ops 3).testBit i =
      if mask.testBit (i / 8) ∧ i < 8 then data.testBit i else (f.read ops 3).testBit i := by
  have e : f.write ops 3 data mask = f.writeMisc data mask := rfl
  rw [e]
  simp only [Common.writeMisc, Common.read, m_and1, m_and4, Nat.reduceEqDiff, if_true, if_false, Nat.testBit_or, tb_bool,
    tb_ff, tb_ff0, tb_7f, tb_f, bitSet_eq, OfNat.ofNat_ne_zero]
  regbits i hm [Nat.one_ne_zero]

theorem common_int (f : Common σ) (data mask : Nat) (hm : mask < 16) (i : Nat) :
    ((f.writeInt data mask).intLine &&& 0xff ||| ((f.writeInt data mask).intPin &&& 0xff) <<< 8).testBit i =
      if mask.testBit (i / 8) ∧ i < 8 then data.testBit i else
        (f.intLine &&& 0xff ||| (f.intPin &&& 0xff) <<< 8).testBit i := by
  simp only [Common.writeInt, m_and1, Nat.testBit_or, tb_ff, tb_ff0]
  regbits i hm [Nat.one_ne_zero]

theorem common_rom (f : Common σ) (data mask : Nat) (hm : mask < 16) (i : Nat) :
    ((f.writeRom data mask).readRom).testBit i =
      if mask.testBit (i / 8) ∧ (i = 0 ∨ (11 ≤ i ∧ i < 32 ∧ f.romMask.testBit i)) then data.testBit i
      else (f.readRom).testBit i := by
  have e : ∀ b : Bool, b.toNat = b.toNat <<< 0 := fun b => rfl
  simp only [Common.writeRom, Common.readRom]
  rw [e, e f.romEnable]
  simp only [m_and1, Nat.testBit_or, tb_rom, tb_bool, bmu_some, bitSet_eq]
  regbits i hm [Nat.one_ne_zero]

theorem readBar_write (bars : List BarReg) (n data mask i : Nat) (hm : mask < 16) :
    (readBar (writeBar bars n data mask) n).testBit i =
      if mask.testBit (i / 8) ∧ (bars.getD n {}).mask.testBit i then data.testBit i else (readBar bars n).testBit i := by
  unfold readBar writeBar
  cases h : bars[n]? with
  | none =>
    have : bars.getD n {} = {} := by rw [List.getD_eq_getElem?_getD, h]; rfl
    simp only [this]; simp
  | some b =>
    have hlt : n < bars.length := by
      rcases Nat.lt_or_ge n bars.length with h' | h'
      · exact h'
      · rw [List.getElem?_eq_none h'] at h; simp at h
    have e : bars.getD n {} = b := by rw [List.getD_eq_getElem?_getD, h]; rfl
    have e2 : (bars.set n { b with val := byteMaskUpdate b.val mask data (some b.mask) }).getD n {} =
        { b with val := byteMaskUpdate b.val mask data (some b.mask) } := by
      rw [List.getD_eq_getElem?_getD, List.getElem?_set_self hlt]; rfl
    simp only [e, e2, tb_ff32, bmu_some]
    by_cases hi : i < 32
    · simp only [hi, decide_true, Bool.true_and]
    · rw [mask_big mask i hm (by omega)]; simp

theorem getD_writeBar_ne (bars : List BarReg) (n j data mask : Nat) (h : j ≠ n) :
    (writeBar bars n data mask).getD j {} = bars.getD j {} := by
  unfold writeBar
  cases bars[n]? with
  | none => rfl
  | some b => simp only [List.getD_eq_getElem?_getD, List.getElem?_set_ne (Ne.symm h)]

theorem val_writeBar (bars : List BarReg) (n data mask i : Nat) :
    ((writeBar bars n data mask).getD n {}).val.testBit i =
      if mask.testBit (i / 8) ∧ (bars.getD n {}).mask.testBit i then data.testBit i else (bars.getD n {}).val.testBit i := by
  unfold writeBar
  cases h : bars[n]? with
  | none =>
    have : bars.getD n {} = {} := by rw [List.getD_eq_getElem?_getD, h]; rfl
    simp only [this]; simp
  | some b =>
    have hlt : n < bars.length := by
      rcases Nat.lt_or_ge n bars.length with h' | h'
      · exact h'
      · rw [List.getElem?_eq_none h'] at h; simp at h
    have e : bars.getD n {} = b := by rw [List.getD_eq_getElem?_getD, h]; rfl
    have e2 : (bars.set n { b with val := byteMaskUpdate b.val mask data (some b.mask) }).getD n {} =
        { b with val := byteMaskUpdate b.val mask data (some b.mask) } := by
      rw [List.getD_eq_getElem?_getD, List.getElem?_set_self hlt]; rfl
    simp only [e, e2, bmu_some]

theorem written_of_if {rw' : Nat → Bool} {old new data mask : Nat} {p : Nat → Prop} [DecidablePred p]
    (hp : ∀ i, rw' i = decide (p i))
    (h : ∀ i, new.testBit i = if mask.testBit (i / 8) ∧ p i then data.testBit i else old.testBit i) :
    Written rw' noBits old new data mask := by
  intro i
  rw [h i, hp i]
  by_cases h1 : mask.testBit (i / 8) = true <;> by_cases h2 : p i <;> simp [h1, h2, noBits]

theorem written_refl (old data mask : Nat) : Written noBits noBits old old data mask := by
  intro i; simp [noBits]

/-- Bus number register of a bridge. -/
theorem br_bus (f : Br σ) (data mask : Nat) (hm : mask < 16) :
    Written (fun i => i < 24) noBits (f.read ops 6) ((f.write ops 6 data mask).read ops 6) data mask := by
  intro i
  have e : f.write ops 6 data mask = f.writeBus data mask := rfl
  have r : ∀ f : Br σ, f.read ops 6 =
    (f.priBus &&& 0xff ||| (f.secBus &&& 0xff) <<< 8 ||| (f.subBus &&& 0xff) <<< 16 ||| (f.secLat &&& 0xff) <<< 24) :=
    fun _ => rfl
  rw [e, r, r]
  simp only [Br.writeBus, m_and1, m_and2, m_and4, Nat.testBit_or, tb_ff, tb_ff0]
  regbits i hm [noBits]

theorem br_io (f : Br σ) (data mask : Nat) (hm : mask < 16) :
    Written (brRw (fun _ => 0) 0 7) statusW1c (f.read ops 7) ((f.write ops 7 data mask).read ops 7) data mask := by
  intro i
  have e : f.write ops 7 data mask = f.writeIo data mask := rfl
  have r : ∀ f : Br σ, f.read ops 7 =
    (f.ioCap &&& 0xf ||| (f.ioBase &&& 0xf000) >>> 8 ||| (f.ioCap &&& 0xf) <<< 8 ||| f.ioLimit &&& 0xf000 |||
      f.secMasterParity.toNat <<< 24 ||| f.secSigTargetAbort.toNat <<< 27 ||| f.secRcvTargetAbort.toNat <<< 28 |||
      f.secRcvMasterAbort.toNat <<< 29 ||| f.secRcvSysErr.toNat <<< 30 ||| f.secDetParity.toNat <<< 31) :=
    fun _ => rfl
  rw [e, r, r]
  simp only [Br.writeIo, m_and1, m_and2, m_and8, Nat.testBit_or, tb_f, tb_f0, tb_bool, bitSet_eq, tb_f000, Nat.testBit_shiftRight]
  by_cases hi : 32 ≤ i
  · rw [mask_big _ i hm hi]
    have hk : ∀ k < 32, decide (i = k) = false := by intro k hk; simp; omega
    have hk2 : ∀ k < 33, decide (i < k) = false := by intro k hk; simp; omega
    have hk3 : decide (8 + i < 16) = false := by simp; omega
    simp [hk, hk2, hk3]
  · have hi' : i < 32 := by omega
    interval_cases i <;> simp [-Nat.testBit_zero, brRw, statusW1c] <;>
      (try (split <;> simp_all [-Nat.testBit_zero, bmu_some, Bool.and_comm, c_f000, c_fff, c_2]))


theorem br_mem (base limit c data mask : Nat) (hm : mask < 16) (hc : c = 0 ∨ c = 0x00010001) (i : Nat) :
    ((byteMaskUpdate base ((mask &&& 3) <<< 2) (data <<< 16) (some 0xfff00000) &&& 0xfff00000) >>> 16 |||
      (byteMaskUpdate limit (mask &&& 0xc) data (some 0xfff00000) ||| 0xfffff) &&& 0xfff00000 ||| c).testBit i =
    if mask.testBit (i / 8) ∧ ((4 ≤ i ∧ i < 16) ∨ (20 ≤ i ∧ i < 32)) then data.testBit i
    else ((base &&& 0xfff00000) >>> 16 ||| limit &&& 0xfff00000 ||| c).testBit i := by
  have hc' : ∀ j, 4 ≤ j → j ≠ 16 → c.testBit j = false := by
    rcases hc with rfl | rfl
    · simp
    · intro j h1 h2
      by_cases h : j < 17
      · interval_cases j <;> first | rfl | omega
      · exact tb_big _ j 17 (by decide) (by omega)
  simp only [Nat.testBit_or, tb_fff0, Nat.testBit_shiftRight]
  by_cases hi : 32 ≤ i
  · rw [mask_big _ i hm hi]
    have hk2 : ∀ k < 33, decide (i < k) = false := by intro k hk; simp; omega
    have hk3 : decide (16 + i < 32) = false := by simp; omega
    simp [hk2, hk3]
  · have hi' : i < 32 := by omega
    have m3 : ∀ j, ((mask &&& 3) <<< 2).testBit j = (decide (2 ≤ j) && decide (j < 4) && mask.testBit (j - 2)) :=
      fun j => tb_field mask 2 2 j
    have mc : ∀ j, (mask &&& 0xc).testBit j = (decide (2 ≤ j) && decide (j < 4) && mask.testBit j) :=
      fun j => tb_top mask 4 2 j (by omega)
    interval_cases i <;> simp [-Nat.testBit_zero, -Nat.testBit_and, bmu_some, m3, mc, hc', c_fff0, c_fffff]

theorem br_ioUpper (base limit data mask : Nat) (hm : mask < 16) (i : Nat) :
    ((byteMaskUpdate base ((mask &&& 3) <<< 2) (data <<< 16) none &&& 0xffff0000) >>> 16 |||
      byteMaskUpdate limit (mask &&& 0xc) data none &&& 0xffff0000).testBit i =
    if mask.testBit (i / 8) ∧ i < 32 then data.testBit i
    else ((base &&& 0xffff0000) >>> 16 ||| limit &&& 0xffff0000).testBit i := by
  simp only [Nat.testBit_or, tb_ffff0000, Nat.testBit_shiftRight]
  by_cases hi : 32 ≤ i
  · rw [mask_big _ i hm hi]
    have hk2 : ∀ k < 33, decide (i < k) = false := by intro k hk; simp; omega
    have hk3 : decide (16 + i < 32) = false := by simp; omega
    simp [hk2, hk3]
  · have hi' : i < 32 := by omega
    have m3 : ∀ j, ((mask &&& 3) <<< 2).testBit j = (decide (2 ≤ j) && decide (j < 4) && mask.testBit (j - 2)) :=
      fun j => tb_field mask 2 2 j
    have mc : ∀ j, (mask &&& 0xc).testBit j = (decide (2 ≤ j) && decide (j < 4) && mask.testBit j) :=
      fun j => tb_top mask 4 2 j (by omega)
    interval_cases i <;> simp [-Nat.testBit_zero, -Nat.testBit_and, bmu_none, m3, mc]

theorem br_upper (x data mask : Nat) (i : Nat) :
    (byteMaskUpdate x (mask <<< 4) (data <<< 32) none >>> 32 &&& 0xffffffff).testBit i =
    if mask.testBit (i / 8) ∧ i < 32 then data.testBit i else (x >>> 32 &&& 0xffffffff).testBit i := by
  simp only [tb_ff32, Nat.testBit_shiftRight, bmu_none, Nat.testBit_shiftLeft]
  by_cases hi : i < 32
  · have e1 : (32 + i) / 8 - 4 = i / 8 := by omega
    have e2 : (32 + i) / 8 ≥ 4 := by omega
    simp [hi, e1, e2]
  · simp [hi]

theorem br_ctl (f : Br σ) (data mask : Nat) (hm : mask < 16) :
    Written (brRw (fun n => (f.bars.getD n {}).mask) f.romMask 15) (brW1c 15)
      (f.read ops 15) ((f.write ops 15 data mask).read ops 15) data mask := by
  intro i
  have r : ∀ f : Br σ, f.read ops 15 = (f.intLine &&& 0xff ||| (f.intPin &&& 0xff) <<< 8 |||
      f.brParityResp.toNat <<< 16 ||| f.brSerr.toNat <<< 17 ||| f.secReset.toNat <<< 22) := fun _ => rfl
  rw [r, r]
  simp only [Br.write, Nat.reduceEqDiff, if_true, if_false, Common.writeInt, m_and1, m_and4, Nat.testBit_or, tb_ff, tb_ff0,
    tb_bool, bitSet_eq]
  regbits i hm [brRw, brW1c]

/-- The bits a register update outside the register's bits leaves alone. -/
theorem bmu_keep (x m d b i : Nat) (h : ¬ (m.testBit (i / 8) = true ∧ b.testBit i = true)) :
    (byteMaskUpdate x m d (some b)).testBit i = x.testBit i := by rw [bmu_some, if_neg h]

theorem bmu_keep' (x m d i : Nat) (h : ¬ (m.testBit (i / 8) = true)) :
    (byteMaskUpdate x m d none).testBit i = x.testBit i := by rw [bmu_none, if_neg h]

theorem pref_hi (x m d : Nat) : byteMaskUpdate x m d (some 0xfff00000) >>> 32 &&& 0xffffffff = x >>> 32 &&& 0xffffffff := by
  apply Nat.eq_of_testBit_eq
  intro i
  rw [tb_ff32, tb_ff32, Nat.testBit_shiftRight, Nat.testBit_shiftRight, bmu_keep]
  rw [c_fff0]; simp

theorem preflim_hi (x m d : Nat) :
    (byteMaskUpdate x m d (some 0xfff00000) ||| 0xfffff) >>> 32 &&& 0xffffffff = x >>> 32 &&& 0xffffffff := by
  apply Nat.eq_of_testBit_eq
  intro i
  rw [tb_ff32, tb_ff32, Nat.testBit_shiftRight, Nat.testBit_shiftRight, Nat.testBit_or, bmu_keep, c_fffff]
  · have : ¬ (32 + i < 20) := by omega
    simp [this]
  · rw [c_fff0]; simp

theorem pref_lo (x m d : Nat) : byteMaskUpdate x (m <<< 4) d none &&& 0xfff00000 = x &&& 0xfff00000 := by
  apply Nat.eq_of_testBit_eq
  intro i
  rw [tb_fff0, tb_fff0]
  by_cases h : i < 32
  · rw [bmu_keep']
    rw [Nat.testBit_shiftLeft]; simp; omega
  · simp [h]

theorem io_hi (x m d : Nat) : byteMaskUpdate x m d (some 0xf000) &&& 0xffff0000 = x &&& 0xffff0000 := by
  apply Nat.eq_of_testBit_eq
  intro i
  rw [tb_ffff0000, tb_ffff0000]
  by_cases h : 16 ≤ i
  · rw [bmu_keep]
    rw [c_f000]; simp; omega
  · simp [h]

theorem iolim_hi (x m d : Nat) : (byteMaskUpdate x m d (some 0xf000) ||| 0xfff) &&& 0xffff0000 = x &&& 0xffff0000 := by
  apply Nat.eq_of_testBit_eq
  intro i
  rw [tb_ffff0000, tb_ffff0000]
  by_cases h : 16 ≤ i
  · rw [Nat.testBit_or, bmu_keep, c_fff]
    · have : ¬ (i < 12) := by omega
      simp [this]
    · rw [c_f000]; simp; omega
  · simp [h]

theorem io_lo3 (x m d : Nat) : byteMaskUpdate x ((m &&& 3) <<< 2) d none &&& 0xf000 = x &&& 0xf000 := by
  apply Nat.eq_of_testBit_eq
  intro i
  rw [tb_f000, tb_f000]
  by_cases h : i < 16
  · rw [bmu_keep']
    have m3 := tb_field m 2 2 (i / 8)
    have : ¬ (2 ≤ i / 8) := by omega
    simp only [Nat.reducePow, Nat.reduceSub] at m3
    rw [m3]; simp [this]
  · simp [h]

theorem io_loc (x m d : Nat) : byteMaskUpdate x (m &&& 0xc) d none &&& 0xf000 = x &&& 0xf000 := by
  apply Nat.eq_of_testBit_eq
  intro i
  rw [tb_f000, tb_f000]
  by_cases h : i < 16
  · rw [bmu_keep']
    have m3 := tb_top m 4 2 (i / 8) (by omega)
    have : ¬ (2 ≤ i / 8) := by omega
    simp only [Nat.reducePow, Nat.reduceSub] at m3
    rw [m3]; simp [this]
  · simp [h]

end
end Pcie
