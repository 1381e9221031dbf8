/-
C73: the registers of the MSI and MSI-X capabilities follow the register map of the PCI Express specification
(`Verif/Spec/MsiRegs.lean`): which registers there are depends on the 64-bit address and per-vector masking capabilities, every
bit shows its field, and a write changes the writable bits of the enabled bytes of the addressed register and nothing else.
-/
import Verif.Lemmas.MsiRegs
namespace Pcie
open Spec

/-- Every register of the MSI capability reads as the specification's bits. -/
theorem C73_msi_read (c : MsiCap) (reg : Nat) (r : MsiReg) (h : (msiLayout c)[reg]? = some r) :
    ∃ v, c.read reg = some v ∧ v < 2 ^ 32 ∧ ∀ i < 32, v.testBit i = msiBit c r i := by
  obtain ⟨hp, e⟩ := (MsiCap.layout_iff c reg r).mp h
  subst e
  exact MsiCap.read_bit c r hp

example : (msiLayout { cap64 := true, maskCap := true, pending := 5 })[5]? = some .pending ∧
    MsiCap.read { cap64 := true, maskCap := true, pending := 5 } 5 = some 5 := by decide

/-- A register of the capability that the specification does not define for it reads as nothing: the configuration read of
a register in the six-register capability raises an exception (`None & mask`) instead of returning zero. -/
theorem C73_msi_absent_violated : ∃ (c : MsiCap) (reg : Nat), reg < 6 ∧ c.read reg = none :=
  ⟨{}, 3, by decide, by decide⟩

/-- A write with byte enables changes the writable bits of the enabled bytes of the addressed register to the bits of the
data, and leaves all other bits of all registers as they were. Missing: the extended message data enable (bit 26 of the control
register), which takes bit 16 of the data. -/
theorem C73_msi_write_partial (c : MsiCap) (reg data mask : Nat) (r : MsiReg) (h : (msiLayout c)[reg]? = some r) (hm : mask < 16) :
    msiLayout (c.write reg data mask) = msiLayout c ∧
    ∀ (reg' : Nat) (r' : MsiReg), (msiLayout c)[reg']? = some r' → ∃ v v', c.read reg' = some v ∧ (c.write reg data mask).read reg' = some v' ∧
      ∀ i < 32, (r' = .control → i ≠ 26) →
        v'.testBit i = if reg' = reg ∧ msiRw c r' i = true ∧ mask.testBit (i / 8) = true then data.testBit i else v.testBit i := by
  obtain ⟨hp, e⟩ := (MsiCap.layout_iff c reg r).mp h
  have hl : msiLayout (c.write reg data mask) = msiLayout c := by rw [e]; exact MsiCap.write_layout c r hp data mask
  refine ⟨hl, fun reg' r' h' => ?_⟩
  obtain ⟨hp', e'⟩ := (MsiCap.layout_iff c reg' r').mp h'
  obtain ⟨v, hv, -, hb⟩ := C73_msi_read c reg' r' h'
  obtain ⟨v', hv', -, hb'⟩ := C73_msi_read (c.write reg data mask) reg' r' (hl ▸ h')
  refine ⟨v, v', hv, hv', fun i hi hx => ?_⟩
  have e2 : reg' = reg ↔ r' = r := by
    constructor
    · intro q; exact MsiCap.pos_inj c hp' hp (by rw [← e', ← e, q])
    · intro q; rw [e, e', q]
  rw [hb i hi, hb' i hi, e, MsiCap.write_bit c r r' hp data mask i hm hi hx]
  simp only [← e, e2]

example : (msiLayout { cap64 := true, addr := 0x1000 })[2]? = some .upper ∧
    (MsiCap.write { cap64 := true, addr := 0x1000 } 2 0x89abcdef 0x3).read 2 = some 0xcdef ∧
    (MsiCap.write { cap64 := true, addr := 0x1000 } 2 0x89abcdef 0x3).read 1 = some 0x1000 := by decide +kernel

/-- Enabling extended message data has no effect while MSI itself stays disabled, and enabling MSI alone enables it. -/
theorem C73_msi_write_violated : ∃ (c : MsiCap) (data data' : Nat), msiRw c .control 26 = true ∧
    data.testBit 26 = true ∧ ((c.write 0 data 15).read 0).map (·.testBit 26) = some false ∧
    data'.testBit 26 = false ∧ ((c.write 0 data' 15).read 0).map (·.testBit 26) = some true :=
  ⟨{ extCap := true }, 1 <<< 26, 1 <<< 16, by decide, by decide, by decide, by decide, by decide⟩

/-- Every register of the MSI-X capability reads as the specification's bits. -/
theorem C73_msix_read (c : MsixCap) (reg : Nat) (h : reg < 3) :
    ∃ v, c.read reg = some v ∧ v < 2 ^ 32 ∧ ∀ i < 32, v.testBit i = msixBit c reg i := MsixCap.read_bit c reg h

example : MsixCap.read { tableSize := 7, tableBir := 2, tableOffset := 0x1000 } 1 = some 0x1002 ∧
    MsixCap.read { tableSize := 7, enable := true } 0 = some 0x80070011 := by decide

/-- A write changes the enable and the function mask, when their byte is enabled, and nothing else. -/
theorem C73_msix_write (c : MsixCap) (reg data mask : Nat) (reg' : Nat) (h : reg' < 3) :
    ∃ v v', c.read reg' = some v ∧ (c.write reg data mask).read reg' = some v' ∧ ∀ i < 32,
      v'.testBit i = if reg' = reg ∧ msixRw reg' i = true ∧ mask.testBit (i / 8) = true then data.testBit i else v.testBit i := by
  obtain ⟨v, hv, -, hb⟩ := MsixCap.read_bit c reg' h
  obtain ⟨v', hv', -, hb'⟩ := MsixCap.read_bit (c.write reg data mask) reg' h
  refine ⟨v, v', hv, hv', fun i hi => ?_⟩
  rw [hb i hi, hb' i hi, MsixCap.write_bit c reg reg' data mask i h hi]

example : (MsixCap.write { tableSize := 7 } 0 0xffffffff 0x8).read 0 = some 0xc0070011 ∧
    (MsixCap.write { tableSize := 7 } 0 0xffffffff 0x7).read 0 = some 0x00070011 := by decide

end Pcie
