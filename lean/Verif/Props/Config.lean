/-
C35: configuration register write semantics.
-/
import Verif.Lemmas.Config
namespace Pcie
open Spec

variable {σ : Type} (ops : CapOps σ)

/-- C35 (part): a byte-masked write to a header register of an endpoint changes exactly the writable bits of the
enabled bytes. Missing: register 3, where start BIST answers to the wrong byte enable (`C35_endpoint_misc_partial`,
`C35_bist_violated`). -/
theorem C35_endpoint_write_partial (f : Ep σ) (reg data mask : Nat) (hm : mask < 16) (hr : reg < 16) (h3 : reg ≠ 3) :
    Written (epRw (fun n => (f.bars.getD n {}).mask) f.romMask reg) (epW1c reg)
      (f.read ops reg) ((f.write ops reg data mask).read ops reg) data mask := by
  have none : ∀ r, r = 0 ∨ r = 2 ∨ r = 10 ∨ r = 11 ∨ r = 13 ∨ r = 14 → f.write ops r data mask = f ∧
      epRw (fun n => (f.bars.getD n {}).mask) f.romMask r = noBits ∧ epW1c r = noBits := by
    rintro r (rfl | rfl | rfl | rfl | rfl | rfl) <;> exact ⟨rfl, rfl, rfl⟩
  have bar : ∀ n < 6, Written (fun i => (f.bars.getD n {}).mask.testBit i) noBits (readBar f.bars n)
      (readBar (writeBar f.bars n data mask) n) data mask := fun n _ =>
    written_of_if (p := fun i => (f.bars.getD n {}).mask.testBit i = true) (fun i => by simp)
      (fun i => readBar_write f.bars n data mask i hm)
  have ro : ∀ r, r = 0 ∨ r = 2 ∨ r = 10 ∨ r = 11 ∨ r = 13 ∨ r = 14 →
      Written (epRw (fun n => (f.bars.getD n {}).mask) f.romMask r) (epW1c r)
      (f.read ops r) ((f.write ops r data mask).read ops r) data mask := by
    intro r h
    obtain ⟨a, b, c⟩ := none r h
    rw [a, b, c]; exact written_refl _ _ _
  interval_cases reg
  · exact ro 0 (by omega)
  · exact common_cmd ops f.toCommon data mask hm
  · exact ro 2 (by omega)
  · exact absurd rfl h3
  · exact bar 0 (by omega)
  · exact bar 1 (by omega)
  · exact bar 2 (by omega)
  · exact bar 3 (by omega)
  · exact bar 4 (by omega)
  · exact bar 5 (by omega)
  · exact ro 10 (by omega)
  · exact ro 11 (by omega)
  · exact written_of_if (p := fun i => i = 0 ∨ (11 ≤ i ∧ i < 32 ∧ f.romMask.testBit i = true))
      (fun i => by simp [epRw, Bool.and_assoc]; rfl) (common_rom f.toCommon data mask hm)
  · exact ro 13 (by omega)
  · exact ro 14 (by omega)
  · exact written_of_if (p := fun i => i < 8) (fun i => rfl) (common_int f.toCommon data mask hm)

/-- C35 (part): register 3 (cache line size, latency, header type, BIST) of an endpoint, all bits but start BIST. -/
theorem C35_endpoint_misc_partial (f : Ep σ) (data mask i : Nat) (hm : mask < 16) (hi : i ≠ 30) :
    ((f.write ops 3 data mask).read ops 3).testBit i =
      if mask.testBit (i / 8) ∧ epRw (fun n => (f.bars.getD n {}).mask) f.romMask 3 i then data.testBit i
      else (f.read ops 3).testBit i := by
  have := common_misc ops f.toCommon data mask hm i hi
  have e : (epRw (fun n => (f.bars.getD n {}).mask) f.romMask 3 i = true) ↔ i < 8 := by simp [epRw, hi]
  simp only [e]
  exact this

/-- C35 fails for start BIST: bit 30 is in byte 3, but is written when byte 2 is enabled. -/
theorem C35_bist_violated : ∃ f : Ep Unit, ∃ data mask, mask < 16 ∧
    ¬ Written (epRw (fun n => (f.bars.getD n {}).mask) f.romMask 3) (epW1c 3)
      (f.read ⟨fun _ _ => 0, fun s _ _ _ => s⟩ 3)
      ((f.write ⟨fun _ _ => 0, fun s _ _ _ => s⟩ 3 data mask).read ⟨fun _ _ => 0, fun s _ _ _ => s⟩ 3) data mask :=
  ⟨{ caps := () }, 0x40000000, 4, by decide, fun h => by have := h 30; revert this; decide⟩

/-- C35: a write to one header register leaves every other register as it was. -/
theorem C35_endpoint_other (f : Ep σ) (reg reg' data mask : Nat) (hr : reg < 16) (hne : reg' ≠ reg) :
    (f.write ops reg data mask).read ops reg' = f.read ops reg' := by
  have bar : ∀ n < 6, reg' ≠ n + 4 →
      Ep.read ops { f with bars := writeBar f.bars n data mask } reg' = f.read ops reg' := by
    intro n hn h
    unfold Ep.read
    by_cases h1 : 4 ≤ reg' ∧ reg' ≤ 9
    · simp only [h1, and_self, if_true, readBar]
      rw [getD_writeBar_ne _ _ _ _ _ (by omega)]
    · simp only [h1, if_false]; rfl
  have other : ∀ g : Ep σ, (∀ r, r ≠ reg → g.read ops r = f.read ops r) → g.read ops reg' = f.read ops reg' :=
    fun g h => h reg' hne
  interval_cases reg
  case «1» =>
    show Ep.read ops { f with toCommon := f.toCommon.writeCmd data mask } reg' = _
    unfold Ep.read Common.read
    simp only [Common.writeCmd, hne, if_false, Common.readRom]
  case «3» =>
    show Ep.read ops { f with toCommon := f.toCommon.writeMisc data mask } reg' = _
    unfold Ep.read Common.read
    simp only [Common.writeMisc, hne, if_false, Common.readRom]
  case «12» =>
    show Ep.read ops { f with toCommon := f.toCommon.writeRom data mask } reg' = _
    unfold Ep.read Common.read
    simp only [Common.writeRom, hne, if_false]
  case «15» =>
    show Ep.read ops { f with toCommon := f.toCommon.writeInt data mask } reg' = _
    unfold Ep.read Common.read
    simp only [Common.writeInt, hne, if_false, Common.readRom]
  case «4» => exact bar 0 (by omega) hne
  case «5» => exact bar 1 (by omega) hne
  case «6» => exact bar 2 (by omega) hne
  case «7» => exact bar 3 (by omega) hne
  case «8» => exact bar 4 (by omega) hne
  case «9» => exact bar 5 (by omega) hne
  all_goals rfl

/-- Non-trivial case: enabling memory space and bus mastering and clearing a pending master abort, in one write with
byte 1 and byte 2 disabled. -/
example : Ep.read ⟨fun _ _ => 0, fun s _ _ _ => s⟩
    (Ep.write ⟨fun _ _ => 0, fun s _ _ _ => s⟩ { caps := (), rcvMasterAbort := true, serr := true } 1 0x200006ff 9) 1 =
      0x100147 := by decide

/-- C35 (part): the same for a bridge. -/
theorem C35_bridge_write_partial (f : Br σ) (reg data mask : Nat) (hm : mask < 16) (hr : reg < 16) (h3 : reg ≠ 3) :
    Written (brRw (fun n => (f.bars.getD n {}).mask) f.romMask reg) (brW1c reg)
      (f.read ops reg) ((f.write ops reg data mask).read ops reg) data mask := by
  have ro : ∀ r, r = 0 ∨ r = 2 ∨ r = 13 →
      Written (brRw (fun n => (f.bars.getD n {}).mask) f.romMask r) (brW1c r)
      (f.read ops r) ((f.write ops r data mask).read ops r) data mask := by
    rintro r (rfl | rfl | rfl) <;> exact written_refl _ _ _
  have bar : ∀ n < 2, Written (fun i => (f.bars.getD n {}).mask.testBit i) noBits (f.bars.getD n {}).val
      ((writeBar f.bars n data mask).getD n {}).val data mask := fun n _ =>
    written_of_if (p := fun i => (f.bars.getD n {}).mask.testBit i = true) (fun i => by simp)
      (fun i => val_writeBar f.bars n data mask i)
  interval_cases reg
  · exact ro 0 (by omega)
  · exact common_cmd ops f.toCommon data mask hm
  · exact ro 2 (by omega)
  · exact absurd rfl h3
  · exact bar 0 (by omega)
  · exact bar 1 (by omega)
  · exact br_bus ops f data mask hm
  · exact br_io ops f data mask hm
  · exact written_of_if (p := fun i => (4 ≤ i ∧ i < 16) ∨ (20 ≤ i ∧ i < 32)) (fun i => by simp [brRw])
      (fun i => by
        have := br_mem f.memBase f.memLimit 0 data mask hm (Or.inl rfl) i
        simp only [Nat.or_zero] at this
        exact this)
  · exact written_of_if (p := fun i => (4 ≤ i ∧ i < 16) ∨ (20 ≤ i ∧ i < 32)) (fun i => by simp [brRw])
      (br_mem f.prefBase f.prefLimit 0x00010001 data mask hm (Or.inr rfl))
  · exact written_of_if (p := fun i => i < 32) (fun i => rfl) (br_upper f.prefBase data mask)
  · exact written_of_if (p := fun i => i < 32) (fun i => rfl) (br_upper f.prefLimit data mask)
  · exact written_of_if (p := fun i => i < 32) (fun i => rfl) (br_ioUpper f.ioBase f.ioLimit data mask hm)
  · exact ro 13 (by omega)
  · exact written_of_if (p := fun i => i = 0 ∨ (11 ≤ i ∧ i < 32 ∧ f.romMask.testBit i = true))
      (fun i => by simp [brRw, Bool.and_assoc]; rfl) (common_rom f.toCommon data mask hm)
  · exact br_ctl ops f data mask hm

/-- C35 (part): register 3 of a bridge, all bits but start BIST. -/
theorem C35_bridge_misc_partial (f : Br σ) (data mask i : Nat) (hm : mask < 16) (hi : i ≠ 30) :
    ((f.write ops 3 data mask).read ops 3).testBit i =
      if mask.testBit (i / 8) ∧ brRw (fun n => (f.bars.getD n {}).mask) f.romMask 3 i then data.testBit i
      else (f.read ops 3).testBit i := by
  have := common_misc ops f.toCommon data mask hm i hi
  have e : (brRw (fun n => (f.bars.getD n {}).mask) f.romMask 3 i = true) ↔ i < 8 := by simp [brRw, hi]
  simp only [e]
  exact this

/-- C35: a write to one header register of a bridge leaves every other register as it was, although several registers
share one stored base or limit. -/
theorem C35_bridge_other (f : Br σ) (reg reg' data mask : Nat) (hr : reg < 16) (hne : reg' ≠ reg) :
    (f.write ops reg data mask).read ops reg' = f.read ops reg' := by
  interval_cases reg
  case «1» =>
    show Br.read ops { f with toCommon := f.toCommon.writeCmd data mask } reg' = _
    unfold Br.read Common.read
    simp only [Common.writeCmd, hne, if_false, Common.readRom]
  case «3» =>
    show Br.read ops { f with toCommon := f.toCommon.writeMisc data mask } reg' = _
    unfold Br.read Common.read
    simp only [Common.writeMisc, hne, if_false, Common.readRom]
  case «4» =>
    show Br.read ops { f with bars := writeBar f.bars 0 data mask } reg' = _
    unfold Br.read Common.read
    simp only [hne, if_false, Common.readRom, getD_writeBar_ne _ _ _ _ _ (Nat.one_ne_zero)]
  case «5» =>
    show Br.read ops { f with bars := writeBar f.bars 1 data mask } reg' = _
    unfold Br.read Common.read
    simp only [hne, if_false, Common.readRom, getD_writeBar_ne _ _ _ _ _ (Nat.zero_ne_one)]
  case «6» =>
    show Br.read ops (f.writeBus data mask) reg' = _
    unfold Br.read Common.read
    simp only [hne, if_false, Common.readRom, Br.writeBus]
  case «7» =>
    show Br.read ops (f.writeIo data mask) reg' = _
    unfold Br.read Common.read
    simp only [hne, if_false, Common.readRom, Br.writeIo]
    have e1 : (if mask &&& 1 ≠ 0 then byteMaskUpdate f.ioBase 2 (data <<< 8) (some 0xf000) else f.ioBase) &&& 0xffff0000 =
      f.ioBase &&& 0xffff0000 := by split; exact io_hi _ _ _; rfl
    have e2 : (if mask &&& 2 ≠ 0 then byteMaskUpdate f.ioLimit 2 data (some 0xf000) ||| 0xfff else f.ioLimit) &&& 0xffff0000 =
      f.ioLimit &&& 0xffff0000 := by split; exact iolim_hi _ _ _; rfl
    rw [e1, e2]
  case «8» =>
    unfold Br.write Br.read Common.read
    simp only [hne, if_false, Common.readRom, Nat.reduceEqDiff, if_true]
  case «9» =>
    unfold Br.write Br.read Common.read
    simp only [hne, if_false, Common.readRom, Nat.reduceEqDiff, if_true, pref_hi, preflim_hi]
  case «10» =>
    unfold Br.write Br.read Common.read
    simp only [hne, if_false, Common.readRom, Nat.reduceEqDiff, if_true, pref_lo]
  case «11» =>
    unfold Br.write Br.read Common.read
    simp only [hne, if_false, Common.readRom, Nat.reduceEqDiff, if_true, pref_lo]
  case «12» =>
    unfold Br.write Br.read Common.read
    simp only [hne, if_false, Common.readRom, Nat.reduceEqDiff, if_true, io_lo3, io_loc]
  case «14» =>
    show Br.read ops { f with toCommon := f.toCommon.writeRom data mask } reg' = _
    unfold Br.read Common.read
    simp only [Common.writeRom, hne, if_false]
  case «15» =>
    unfold Br.write Br.read Common.read
    simp only [hne, if_false, Common.readRom, Nat.reduceEqDiff, if_true, Common.writeInt]
  all_goals rfl

end Pcie
