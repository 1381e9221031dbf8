import Verif.Lemmas.Parity
/-
C41: parity protects every byte.
-/
namespace Pcie
open Spec

/-- Each bit of the parity of a dword says whether this byte has an odd number of ones. -/
theorem C41_dword (d k : Nat) : (dwordParity d).testBit k = true ↔ k < 4 ∧ OddByte d k := by
  rw [dwordParity_bit]; simp

/-- Likewise for numbers of any width (`parity` of the Intel interfaces, used for headers). -/
theorem C41_wide (d k : Nat) : (parityOf d).testBit k = true ↔ OddByte d k := by
  rw [parityOf_bit]; simp

/-- UltraScale frames: parity is right after it was computed; then an error in any bit of a data dword or of the parity is
detected. -/
theorem C41_us (f : UsFrame) : f.updateParity.checkParity = true ∧
    (f.checkParity = true → ∀ i < f.data.length, ∀ b < 32, { f with data := flipAt f.data i b }.checkParity = false) ∧
    (f.checkParity = true → ∀ i < f.parity.length, ∀ b, { f with parity := flipAt f.parity i b }.checkParity = false) := by
  simp only [UsFrame.updateParity, UsFrame.checkParity, beq_iff_eq, beq_eq_false_iff_ne]
  exact ⟨trivial, fun h i hi b hb => flip_data h hi hb, fun h i hi b => flip_parity h b hi⟩

/-- Stratix 10 frames. -/
theorem C41_s10 (f : S10Frame) : f.updateParity.checkParity = true ∧
    (f.checkParity = true → ∀ i < f.data.length, ∀ b < 32, { f with data := flipAt f.data i b }.checkParity = false) ∧
    (f.checkParity = true → ∀ i < f.parity.length, ∀ b, { f with parity := flipAt f.parity i b }.checkParity = false) := by
  simp only [S10Frame.updateParity, S10Frame.checkParity, beq_iff_eq, beq_eq_false_iff_ne]
  exact ⟨trivial, fun h i hi b hb => flip_data h hi hb, fun h i hi b => flip_parity h b hi⟩

/-- P-Tile frames, which also have parity for the header and the prefix. -/
theorem C41_ptile (f : PTileFrame) : f.updateParity.checkParity = true ∧
    (f.checkParity = true →
      (∀ i < f.data.length, ∀ b < 32, { f with data := flipAt f.data i b }.checkParity = false) ∧
      (∀ i < f.parity.length, ∀ b, { f with parity := flipAt f.parity i b }.checkParity = false) ∧
      (∀ b, { f with hdr := f.hdr ^^^ 2 ^ b }.checkParity = false) ∧
      (∀ b, { f with hdrPar := f.hdrPar ^^^ 2 ^ b }.checkParity = false) ∧
      (∀ b < 32, { f with prfx := f.prfx ^^^ 2 ^ b }.checkParity = false) ∧
      (∀ b, { f with prfxPar := f.prfxPar ^^^ 2 ^ b }.checkParity = false)) := by
  simp only [PTileFrame.updateParity, PTileFrame.checkParity, beq_self_eq_true, Bool.and_self, true_and, Bool.and_eq_true, beq_iff_eq,
    Bool.and_eq_false_iff, beq_eq_false_iff_ne]
  rintro ⟨⟨h1, h2⟩, h3⟩
  refine ⟨fun i hi b hb => .inl (.inl (flip_data h1 hi hb)), fun i hi b => .inl (.inl (flip_parity h1 b hi)), fun b => .inl (.inr ?_),
    fun b => .inl (.inr ?_), fun b hb => .inr ?_, fun b => .inr ?_⟩
  · rw [h2]; exact (parityOf_flip _ _).symm
  · rw [← h2]; exact xor_pow_ne _ _
  · rw [h3]; exact (dwordParity_flip hb).symm
  · rw [← h3]; exact xor_pow_ne _ _

/- The hypotheses can be met. -/
example : ({ data := [0x80000001, 0xff00ff01], parity := [0b0110, 0b1110] } : UsFrame).checkParity = true := by decide +kernel
example : ({ hdr := 0x40000001_00000000_00000000_00000000, hdrPar := 0b1001000000000000, data := [1], parity := [0b1110] } : PTileFrame).checkParity = true := by
  decide +kernel

end Pcie
