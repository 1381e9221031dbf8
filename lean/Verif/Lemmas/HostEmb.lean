/- The host's programs for one function, on endpoints and bridges. -/
import Verif.Lemmas.HostFn
import Verif.Props.Utils
import Verif.Spec.Fabric
namespace Pcie
open Spec Phys
variable {σ : Type}

/-- What identifies a function: registers that the host only reads. -/
def Common.ident (f : Common σ) : Nat × Nat × Nat × Nat × Nat × Bool :=
  (f.vendorId, f.deviceId, f.revisionId, f.classCode, f.headerLayout, f.multifunction)

/-- Likewise, for an endpoint. -/
def Ep.ident (f : Ep σ) : (Nat × Nat × Nat × Nat × Nat × Bool) × Nat × Nat := (f.toCommon.ident, f.subsysVendor, f.subsysId)

/-- The registers of an endpoint that `read_bars` and `assign_bars` access. -/
def EpReg (r : Nat) : Prop := r = 1 ∨ (4 ≤ r ∧ r ≤ 9) ∨ r = 12
/-- The registers of a bridge that `read_bars`, `assign_bars` and `setup_bridge` access. -/
def BrReg (r : Nat) : Prop := r = 1 ∨ r = 4 ∨ r = 5 ∨ (7 ≤ r ∧ r ≤ 12) ∨ r = 14

theorem bit_lt (b : Bool) (k : Nat) (h : k < 32) : b.toNat <<< k < 2 ^ 32 := by
  rw [Nat.shiftLeft_eq]
  have h1 : b.toNat ≤ 1 := Bool.toNat_le b
  have h2 : (2 : Nat) ^ k < 2 ^ 32 := Nat.pow_lt_pow_right (by decide) h
  calc b.toNat * 2 ^ k ≤ 1 * 2 ^ k := Nat.mul_le_mul_right _ h1
    _ < 2 ^ 32 := by omega

theorem and_lt32 (a m : Nat) (h : m < 2 ^ 32) : a &&& m < 2 ^ 32 := Nat.lt_of_le_of_lt Nat.and_le_right h

theorem cmd_lt (ops : CapOps σ) (c : Common σ) : c.read ops 1 < 2 ^ 32 := by
  simp only [Common.read, show ¬ ((1 : Nat) = 0) by decide, if_false, if_true]
  repeat' (first | exact bit_lt _ _ (by decide) | apply Nat.or_lt_two_pow)

theorem rom_lt (c : Common σ) : c.readRom < 2 ^ 32 := by
  unfold Common.readRom
  refine Nat.or_lt_two_pow ?_ (and_lt32 _ _ (by decide))
  have : c.romEnable.toNat ≤ 1 := Bool.toNat_le _
  omega

theorem mask_update_lt {old mask new : Nat} (ho : old < 2 ^ 32) (hm : mask ≤ 15) (b : Option Nat) : byteMaskUpdate old mask new b < 2 ^ 32 := by
  apply Nat.lt_pow_two_of_testBit
  intro i hi
  rw [C02_byte_mask_update]
  have h1 : mask.testBit (i / 8) = false :=
    Nat.testBit_lt_two_pow (Nat.lt_of_lt_of_le (show mask < 2 ^ 4 by omega) (Nat.pow_le_pow_right (by omega) (by omega)))
  have h2 : old.testBit i = false := Nat.testBit_lt_two_pow (Nat.lt_of_lt_of_le ho (Nat.pow_le_pow_right (by omega) hi))
  simp [h1, h2]

/-- The BAR registers are dwords. -/
def BarsLt (bars : List BarReg) : Prop := ∀ r ∈ bars, r.val < 2 ^ 32

theorem writeBar_lt {bars : List BarReg} (h : BarsLt bars) (k data m : Nat) (hm : m ≤ 15) : BarsLt (writeBar bars k data m) := by
  unfold writeBar
  cases hb : bars[k]? with
  | none => exact h
  | some b =>
    intro r hr
    rcases List.mem_or_eq_of_mem_set hr with hr | rfl
    · exact h r hr
    · exact mask_update_lt (old := b.val) (h b (List.mem_of_getElem? hb)) hm (some b.mask)

theorem getD_lt {bars : List BarReg} (h : BarsLt bars) (k : Nat) : (bars.getD k {}).val < 2 ^ 32 := by
  rw [List.getD_eq_getElem?_getD]
  cases hb : bars[k]? with
  | none => decide
  | some b => exact h b (List.mem_of_getElem? hb)

theorem emb_ep (ops : CapOps σ) (v : (Nat × Nat × Nat × Nat × Nat × Bool) × Nat × Nat) :
    Emb ops (Ep.regs ops) Fn.ep (fun f => f.ident = v) EpReg where
  read := fun s r => rfl
  write := fun s r v m => rfl
  lt := by
    rintro s r - (rfl | ⟨h1, h2⟩ | rfl)
    · exact cmd_lt ops _
    · simp only [Ep.regs, Ep.read, h1, h2, and_self, if_true, readBar]
      exact and_lt32 _ _ (by decide)
    · exact rom_lt _
  keep := by
    rintro s r d m hs (rfl | ⟨h1, h2⟩ | rfl) -
    · exact hs
    · simp only [Ep.regs, Ep.write, h1, h2, and_self, if_true]
      exact hs
    · exact hs
  range := fun _ _ _ _ _ => rfl

theorem emb_br (ops : CapOps σ) (dsp : Bool) (v : Nat × Nat × Nat × Nat × Nat × Bool) :
    Emb ops (Br.regs ops) (Fn.br dsp) (fun f => BarsLt f.bars ∧ f.toCommon.ident = v) BrReg where
  read := fun s r => rfl
  write := fun s r v m => rfl
  lt := by
    have s16 : ∀ a m : Nat, m < 2 ^ 32 → (a &&& m) >>> 16 < 2 ^ 32 := fun a m h => by
      rw [Nat.shiftRight_eq_div_pow]
      have := and_lt32 a m h
      omega
    rintro s r ⟨hs, -⟩ (rfl | rfl | rfl | ⟨h1, h2⟩ | rfl)
    · exact cmd_lt ops _
    · exact getD_lt hs 0
    · exact getD_lt hs 1
    · have : r = 7 ∨ r = 8 ∨ r = 9 ∨ r = 10 ∨ r = 11 ∨ r = 12 := by omega
      rcases this with rfl | rfl | rfl | rfl | rfl | rfl
      · show s.ioCap &&& 0xf ||| (s.ioBase &&& 0xf000) >>> 8 ||| (s.ioCap &&& 0xf) <<< 8 ||| s.ioLimit &&& 0xf000 |||
          s.secMasterParity.toNat <<< 24 ||| s.secSigTargetAbort.toNat <<< 27 ||| s.secRcvTargetAbort.toNat <<< 28 |||
          s.secRcvMasterAbort.toNat <<< 29 ||| s.secRcvSysErr.toNat <<< 30 ||| s.secDetParity.toNat <<< 31 < 2 ^ 32
        have a1 : (s.ioBase &&& 0xf000) >>> 8 < 2 ^ 32 := by
          rw [Nat.shiftRight_eq_div_pow]
          have := and_lt32 s.ioBase 0xf000 (by decide)
          omega
        have a2 : (s.ioCap &&& 0xf) <<< 8 < 2 ^ 32 := by
          rw [Nat.shiftLeft_eq]
          have : s.ioCap &&& 0xf ≤ 0xf := Nat.and_le_right
          omega
        repeat' (first | exact bit_lt _ _ (by decide) | exact a1 | exact a2 | exact and_lt32 _ _ (by decide) | apply Nat.or_lt_two_pow)
      · exact Nat.or_lt_two_pow (s16 _ _ (by decide)) (and_lt32 _ _ (by decide))
      · exact Nat.or_lt_two_pow (Nat.or_lt_two_pow (s16 _ _ (by decide)) (and_lt32 _ _ (by decide))) (by decide)
      · exact and_lt32 _ _ (by decide)
      · exact and_lt32 _ _ (by decide)
      · exact Nat.or_lt_two_pow (s16 _ _ (by decide)) (and_lt32 _ _ (by decide))
    · exact rom_lt _
  keep := by
    rintro s r d m ⟨hs, hv⟩ (rfl | rfl | rfl | ⟨h1, h2⟩ | rfl) hm
    · exact ⟨hs, hv⟩
    · exact ⟨writeBar_lt hs 0 d m hm, hv⟩
    · exact ⟨writeBar_lt hs 1 d m hm, hv⟩
    · have : r = 7 ∨ r = 8 ∨ r = 9 ∨ r = 10 ∨ r = 11 ∨ r = 12 := by omega
      rcases this with rfl | rfl | rfl | rfl | rfl | rfl <;> exact ⟨hs, hv⟩
    · exact ⟨hs, hv⟩
  range := by
    rintro s r d m (rfl | rfl | rfl | ⟨h1, h2⟩ | rfl)
    · rfl
    · rfl
    · rfl
    · have : r = 7 ∨ r = 8 ∨ r = 9 ∨ r = 10 ∨ r = 11 ∨ r = 12 := by omega
      rcases this with rfl | rfl | rfl | rfl | rfl | rfl <;> rfl
    · rfl

theorem pred_shr_and_le (limit k m : Nat) : pred_shr_and limit k m ≤ m := by
  unfold pred_shr_and
  split
  · exact Nat.le_refl _
  · exact Nat.and_le_right

theorem setupBridge_on (ops : CapOps σ) (tag : Tlp → Nat) (id : PcieId) (dsp : Bool) (f : Br σ) (b e : Limits) {v}
    (hf : BarsLt f.bars ∧ f.toCommon.ident = v) :
    (Host.setupBridge id b e).onFn ops tag id (.br dsp f) = liftFn (Fn.br dsp) ((setupBridge ops f b e).map fun f => (f, ())) ∧
      ∀ f', setupBridge ops f b e = .ok f' → BarsLt f'.bars ∧ f'.toCommon.ident = v := by
  have E := emb_br ops dsp v
  have w : ∀ r, 7 ≤ r → r ≤ 12 → BrReg r := fun r h1 h2 => .inr (.inr (.inr (.inl ⟨h1, h2⟩)))
  have l7 : (b.io >>> 8 &&& 0xf0 ||| pred_shr_and e.io 8 0xf0 <<< 8) < 2 ^ 16 := by
    refine Nat.or_lt_two_pow (Nat.lt_of_le_of_lt Nat.and_le_right (by decide)) ?_
    rw [Nat.shiftLeft_eq]
    have := pred_shr_and_le e.io 8 0xf0
    omega
  have l8 : ∀ x y : Nat, (x >>> 16 &&& 0xfff0 ||| pred_shr_and y 16 0xfff0 <<< 16) < 2 ^ 32 := by
    intro x y
    refine Nat.or_lt_two_pow (Nat.lt_of_le_of_lt Nat.and_le_right (by decide)) ?_
    rw [Nat.shiftLeft_eq]
    have := pred_shr_and_le y 16 0xfff0
    omega
  unfold Host.setupBridge setupBridge
  simp only [CfgProg.onFn_bind, E.wrW id f (w 7 (by decide) (by decide)) l7]
  have i1 := E.keep f 7 (b.io >>> 8 &&& 0xf0 ||| pred_shr_and e.io 8 0xf0 <<< 8) 3 hf (w 7 (by decide) (by decide)) (by decide)
  simp only [Br.regs] at i1 ⊢
  generalize f.write ops 7 (b.io >>> 8 &&& 0xf0 ||| pred_shr_and e.io 8 0xf0 <<< 8) 3 = f1 at *
  cases h1 : packHH (b.io >>> 16) (pred_shr e.io 16) with
  | error x => exact ⟨rfl, fun _ h => nomatch h⟩
  | ok v1 =>
    have lv1 : v1 < 2 ^ 32 := by
      unfold packHH at h1
      split at h1
      · split at h1
        · cases h1
          rename_i h
          refine Nat.or_lt_two_pow (by omega) ?_
          rw [Nat.shiftLeft_eq]; omega
        · cases h1
      · cases h1
    have i2 := E.keep f1 12 v1 0xf i1 (w 12 (by decide) (by decide)) (by decide)
    have i3 := E.keep _ 8 (b.mem >>> 16 &&& 0xfff0 ||| pred_shr_and e.mem 16 0xfff0 <<< 16) 0xf i2 (w 8 (by decide) (by decide)) (by decide)
    have i4 := E.keep _ 9 (b.pref >>> 16 &&& 0xfff0 ||| pred_shr_and e.pref 16 0xfff0 <<< 16) 0xf i3 (w 9 (by decide) (by decide)) (by decide)
    have o1 := E.wrD (tag := tag) id f1 (w 12 (by decide) (by decide)) lv1
    have o2 := E.wrD (tag := tag) id (f1.write ops 12 v1 0xf) (w 8 (by decide) (by decide)) (l8 b.mem e.mem)
    have o3 := E.wrD (tag := tag) id ((f1.write ops 12 v1 0xf).write ops 8 (b.mem >>> 16 &&& 0xfff0 ||| pred_shr_and e.mem 16 0xfff0 <<< 16) 0xf)
      (w 9 (by decide) (by decide)) (l8 b.pref e.pref)
    simp only [Br.regs] at o1 o2 o3 i2 i3 i4
    simp only [Host.ofPy, CfgProg.onFn, o1, o2, o3, ok_bind]
    generalize ((f1.write ops 12 v1 0xf).write ops 8 (b.mem >>> 16 &&& 0xfff0 ||| pred_shr_and e.mem 16 0xfff0 <<< 16) 0xf).write ops 9
      (b.pref >>> 16 &&& 0xfff0 ||| pred_shr_and e.pref 16 0xfff0 <<< 16) 0xf = f2 at *
    have lp : ∀ {a v}, packL1 a = .ok v → v < 2 ^ 32 := by
      intro a v h
      unfold packL1 at h
      split at h
      · split at h
        · cases h; assumption
        · cases h
      · cases h
    cases h2 : packL1 (some (b.pref >>> 32)) with
    | error x => exact ⟨rfl, fun _ h => nomatch h⟩
    | ok v2 =>
      have i5 := E.keep f2 10 v2 0xf i4 (w 10 (by decide) (by decide)) (by decide)
      have o4 := E.wrD (tag := tag) id f2 (w 10 (by decide) (by decide)) (lp h2)
      simp only [Br.regs] at o4 i5
      simp only [CfgProg.onFn, o4, ok_bind]
      cases h3 : packL1 (pred_shr e.pref 32) with
      | error x => exact ⟨rfl, fun _ h => nomatch h⟩
      | ok v3 =>
        have i6 := E.keep (f2.write ops 10 v2 0xf) 11 v3 0xf i5 (w 11 (by decide) (by decide)) (by decide)
        have o5 := E.wrD (tag := tag) id (f2.write ops 10 v2 0xf) (w 11 (by decide) (by decide)) (lp h3)
        simp only [Br.regs] at o5 i6
        simp only [CfgProg.onFn, o5, ok_bind]
        exact ⟨rfl, fun _ h => by cases h; exact i6⟩

end Pcie
