/-
Helper lemmas: sizing of all resources of a function.
-/
import Verif.Lemmas.EnumRead
namespace Pcie
open Spec

/-- The common header of a function as seen through its configuration registers. -/
structure HdrPort {τ σ} (ops : CapOps τ) (cops : CapOps σ) (get : τ → Common σ) (put : τ → Common σ → τ)
    (cnt rom : Nat) : Prop where
  bars : BarPort ops (fun s => (get s).bars) (fun s b => put s { get s with bars := b }) cnt
  romRead : ∀ s, ops.read s rom = (get s).readRom
  romWrite : ∀ s d, ops.write s rom d 0xf = put s ((get s).writeRom d 0xf)
  cmdRead : ∀ s, ops.read s 1 = (get s).read cops 1
  cmdWrite : ∀ s d, ops.write s 1 d 3 = put s ((get s).writeCmd d 3)
  get_put : ∀ s c, get (put s c) = c
  put_put : ∀ s b c, put (put s b) c = put s c
  put_get : ∀ s, put s (get s) = s

theorem Ep.hdr {σ} (ops : CapOps σ) :
    HdrPort (Ep.regs ops) ops (fun f => f.toCommon) (fun f c => { f with toCommon := c }) 6 12 where
  bars := Ep.port ops
  romRead _ := rfl
  romWrite _ _ := rfl
  cmdRead _ := rfl
  cmdWrite _ _ := rfl
  get_put _ _ := rfl
  put_put _ _ _ := rfl
  put_get _ := rfl

theorem Br.hdr {σ} (ops : CapOps σ) :
    HdrPort (Br.regs ops) ops (fun f => f.toCommon) (fun f c => { f with toCommon := c }) 2 14 where
  bars := Br.port ops
  romRead _ := rfl
  romWrite _ _ := rfl
  cmdRead _ := rfl
  cmdWrite _ _ := rfl
  get_put _ _ := rfl
  put_put _ _ _ := rfl
  put_get _ := rfl

theorem cmd_bits {σ} (ops : CapOps σ) (f : Common σ) (k : Nat) (hk : k < 16) :
    (f.read ops 1).testBit k = ((f.ioEnable && decide (k = 0)) || (f.memEnable && decide (k = 1)) ||
      (f.busMaster && decide (k = 2)) || (f.parityResp && decide (k = 6)) || (f.serr && decide (k = 8)) ||
      (f.intDisable && decide (k = 10))) := by
  have h : ∀ j, 16 ≤ j → decide (k = j) = false := by intro j hj; simp; omega
  simp only [Common.read, if_neg (show ¬ (1 : Nat) = 0 by omega), if_true, Nat.testBit_or, tb_bool]
  rw [h 19 (by omega), h 20 (by omega), h 24 (by omega), h 27 (by omega), h 28 (by omega), h 29 (by omega),
    h 30 (by omega), h 31 (by omega)]
  simp

theorem disableDecode_spec {τ σ} {ops : CapOps τ} {cops : CapOps σ} {get put cnt rom}
    (P : HdrPort ops cops get put cnt rom) (s : τ) :
    disableDecode ops s = put s { get s with ioEnable := false, memEnable := false } := by
  have hd : ∀ k < 16, (andNot (ops.read s 1 &&& 0xffff) 3).testBit k = (decide (2 ≤ k) && (ops.read s 1).testBit k) := by
    intro k hk
    rw [andNot_testBit, tb_ffff0, show (3 : Nat).testBit k = decide (k < 2) from Nat.testBit_two_pow_sub_one 2 k]
    by_cases h : k < 2
    · have h' : ¬ 2 ≤ k := by omega
      simp [h]
    · have h' : 2 ≤ k := by omega
      simp [h, h', hk]
  unfold disableDecode
  simp only
  by_cases hc : andNot (ops.read s 1 &&& 0xffff) 3 = ops.read s 1 &&& 0xffff
  · rw [if_neg (by simpa using hc)]
    have h0 := hd 0 (by omega)
    have h1 := hd 1 (by omega)
    rw [hc, tb_ffff0, P.cmdRead, cmd_bits _ _ _ (by omega)] at h0 h1
    have e0 : (get s).ioEnable = false := by simpa using h0
    have e1 : (get s).memEnable = false := by simpa using h1
    conv => lhs; rw [← P.put_get s]
    congr 1
    generalize get s = c at e0 e1
    cases c
    simp only at e0 e1
    rw [e0, e1]
  · rw [if_pos hc, P.cmdWrite]
    congr 1
    unfold Common.writeCmd
    have m1 : (3 : Nat) &&& 1 ≠ 0 := by decide
    have m2 : (3 : Nat) &&& 2 ≠ 0 := by decide
    have m8 : ¬ (3 : Nat) &&& 8 ≠ 0 := by decide
    simp only [m1, m2, m8, if_true, false_and, if_false, bitSet_eq]
    rw [hd 0 (by omega), hd 1 (by omega), hd 2 (by omega), hd 6 (by omega), hd 8 (by omega), hd 10 (by omega),
      P.cmdRead, cmd_bits _ _ _ (by omega), cmd_bits _ _ _ (by omega), cmd_bits _ _ _ (by omega),
      cmd_bits _ _ _ (by omega), cmd_bits _ _ _ (by omega), cmd_bits _ _ _ (by omega)]
    simp

theorem rom_tab : ∀ k < 32, 11 ≤ k → 0xfffff800 / 2 ^ k * 2 ^ k = 2 ^ 32 - 2 ^ k ∧
    (2 ^ 32 - 2 ^ k) &&& 0xfffff800 = 2 ^ 32 - 2 ^ k ∧ (andNot 0xffffffff (2 ^ 32 - 2 ^ k) ||| 0x7ff) + 1 = 2 ^ k ∧
    (2 ^ 32 - 2 ^ k) % 2 ^ k = 0 ∧ 2 ^ 32 - 2 ^ k ≠ 0 := by decide +kernel

theorem and_rom (b k : Nat) (h : 11 ≤ k) (hal : b % 2 ^ k = 0) (hb : b < 2 ^ 32) : b &&& 0xfffff800 = b := by
  have := and_top b 32 11 (by omega) hb
  rw [show (0xfffff800 : Nat) = 2 ^ 32 - 2 ^ 11 by decide, this]
  apply div_mul_of_align
  exact Nat.mod_eq_zero_of_dvd (Nat.dvd_trans (Nat.pow_dvd_pow 2 h) (Nat.dvd_of_mod_eq_zero hal))

theorem even_of_align (b k : Nat) (h : 1 ≤ k) (hal : b % 2 ^ k = 0) : b % 2 = 0 :=
  Nat.mod_eq_zero_of_dvd (Nat.dvd_trans (Nat.pow_dvd_pow 2 h) (Nat.dvd_of_mod_eq_zero hal))

theorem toNat_or_even (e : Bool) (b : Nat) (h : b % 2 = 0) : e.toNat ||| b = e.toNat + b := by
  have := or_mul_add e.toNat (b / 2) 1 (by cases e <;> decide)
  rwa [show b / 2 * 2 ^ 1 = b by omega] at this

/-- What `readRomInfo` finds. -/
def romInfo (en : Bool) : Option (Nat × Nat) → BarInfo
  | none => ⟨0, 0⟩
  | some (b, k) => ⟨en.toNat + b, 2 ^ k⟩

theorem writeRom_eq {σ} (f : Common σ) (d : Nat) : f.writeRom d 0xf =
    { f with romAddr := byteMaskUpdate f.romAddr 0xf d (some f.romMask) &&& 0xfffff800, romEnable := bitSet d 0 } := rfl

theorem readRomInfo_spec {τ σ} {ops : CapOps τ} {cops : CapOps σ} {get put cnt rom}
    (P : HdrPort ops cops get put cnt rom) (s : τ) (d : DevBars) (r : Option (Nat × Nat)) (h : RomIs (get s) r) :
    readRomInfo ops rom s d = (s, { d with rom := some (romInfo (get s).romEnable r) }) := by
  unfold readRomInfo
  simp only
  rw [P.romRead, P.romWrite, P.romRead, P.romWrite, P.get_put, P.put_put]
  cases r with
  | none =>
    obtain ⟨h1, h2⟩ := h
    have e0 : bitSet 0xfffff800 0 = false := by decide
    have e1 : ((get s).writeRom 0xfffff800 0xf).readRom = 0 := by
      simp only [writeRom_eq, Common.readRom, e0, h1, h2, byteMaskUpdate_none]; decide
    rw [e1, if_neg (by simp)]
    have e2 : ((get s).writeRom 0xfffff800 0xf).writeRom ((get s).readRom) 0xf = get s := by
      generalize get s = c at h1 h2
      cases c with
      | mk => 
        simp only at h1 h2
        simp only [writeRom_eq, Common.readRom, h1, h2, byteMaskUpdate_none]
        rename_i en _ _ _ _
        cases en <;> rfl
    rw [e2, P.put_get]; rfl
  | some p =>
    obtain ⟨b, k⟩ := p
    obtain ⟨h11, h32, hal, hb, hm, ha⟩ := h
    obtain ⟨t1, t2, t3, t4, t5⟩ := rom_tab k h32 h11
    have hp := pow_ge k 11 h11
    have e0 : bitSet 0xfffff800 0 = false := by decide
    have hev := even_of_align b k (by omega) hal
    have ho : (get s).readRom = (get s).romEnable.toNat + b := by
      simp only [Common.readRom, ha]; rw [and_rom b k h11 hal hb, toNat_or_even _ _ hev]
    have hen := toNat_le_one (get s).romEnable
    have w1 : (get s).writeRom 0xfffff800 0xf = { get s with romAddr := 2 ^ 32 - 2 ^ k, romEnable := false } := by
      simp only [writeRom_eq, e0, hm, ha]
      rw [byteMaskUpdate_top _ _ _ (by omega) hb (by decide), hal, Nat.add_zero, t1, t2]
    have r1 : ((get s).writeRom 0xfffff800 0xf).readRom = 2 ^ 32 - 2 ^ k := by
      rw [w1]; simp only [Common.readRom, t2]; simp
    rw [r1, if_pos t5, ho, t3, w1]
    have w2 : ({ get s with romAddr := 2 ^ 32 - 2 ^ k, romEnable := false } : Common σ).writeRom
        ((get s).romEnable.toNat + b) 0xf = get s := by
      have hblt : b + 1 < 2 ^ 32 := by omega
      have hdm : (b + (get s).romEnable.toNat) / 2 ^ k * 2 ^ k = b := by
        have h1 := Nat.div_add_mod (b + (get s).romEnable.toNat) (2 ^ k)
        rw [align_mod _ _ _ hal (by omega), Nat.mul_comm] at h1
        omega
      simp only [writeRom_eq, hm]
      rw [Nat.add_comm _ b, byteMaskUpdate_top _ _ _ (by omega) (by omega) (by omega), t4, Nat.add_zero, hdm,
        and_rom b k h11 hal hb]
      have : bitSet (b + (get s).romEnable.toNat) 0 = (get s).romEnable := by
        rw [bitSet_eq, Nat.testBit_zero]
        cases (get s).romEnable <;> simp <;> omega
      rw [this, ← ha, ← hm]
    rw [w2, P.put_get]; rfl

/-- The result of sizing all resources of a function. -/
theorem readBars_spec {τ σ} {ops : CapOps τ} {cops : CapOps σ} {get put cnt rom}
    (P : HdrPort ops cops get put cnt rom) (s : τ) (d : DevBars) (ws : List Window) (r : Option (Nat × Nat))
    (hl : Layout 0 (get s).bars ws) (hlen : (get s).bars.length = cnt) (hr : RomIs (get s) r) :
    ∃ bars' d', readBars ops cnt rom s d =
        .ok (put s { get s with bars := bars', ioEnable := false, memEnable := false },
          { d' with rom := some (romInfo (get s).romEnable r) }) ∧
      Probed 0 (get s).bars bars' ws d d' := by
  unfold readBars
  rw [disableDecode_spec P]
  obtain ⟨bars', d', e, hp⟩ := readBarsFrom_spec P.bars 0 (get s).bars ws hl []
    (put s { get s with ioEnable := false, memEnable := false }) d (by rw [P.get_put]; rfl) rfl (by omega)
  rw [hlen] at e
  rw [e]
  simp only
  rw [readRomInfo_spec P _ _ r (by rw [P.get_put, P.get_put]; cases r <;> exact hr)]
  rw [P.get_put, P.put_put, P.get_put]
  exact ⟨bars', d', rfl, hp⟩

end Pcie
