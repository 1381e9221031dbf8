import Verif.Model.HostCfg
import Verif.Spec.MsiSetup
import Verif.Spec.CapRegs
import Verif.Model.CapRegs
/- Specification of the settings that the host makes in a function. -/
namespace Pcie.Spec
open Pcie
variable {S : Type}

/-- A register of the configuration space of the function. -/
def regOf (p : CfgPort S) (reg : Nat) : Nat := (Fn.ops (CapSpace.ops p.beh p.behx)).read p.fn.regs reg

/-- The number in bits `lsb .. lsb+width-1` of a register. -/
def fieldOf (p : CfgPort S) (reg lsb width : Nat) : Nat := regOf p reg / 2 ^ lsb % 2 ^ width

/-- The function has a PCI Express capability `c` with the attributes `a`, and the host has found it. -/
structure HasPcie (p : CfgPort S) (c : Nat) (a : CapRegs.Attrs) : Prop where
  dev : p.dev.device = p.fn.id.device ∧ p.dev.function = p.fn.id.function
  noShare : NoShare p.fn.regs.common.caps.pci
  found : CapFound p.toIrqPort 0x10 c 3
  regs : ∃ emb, Behaves (p.beh c) emb CapRegs.pcie.read CapRegs.pcie.write ∧ p.fn.regs.common.caps.st c = emb a

/-- The register of device control (bits 0 to 15) and device status (bits 16 to 31). -/
def ctlReg (p : CfgPort S) : Nat := (HostCaps.offset p.caps 0x10).getD 0 / 4 + 2

/-- The bits of the device status that are cleared by writing ones to them: the errors detected and emergency power reduction. -/
def errBit (i : Nat) : Bool := pcieMap.hasAcc .w1c 2 i

/-- Only bits with `ch` of the registers of the function have changed, and nothing that the host knows about the function. -/
structure OnlyBits (p p' : CfgPort S) (ch : Nat → Nat → Prop) : Prop where
  host : p' = { p with fn := p'.fn }
  regs : ∀ reg i, ¬ ch reg i → (regOf p' reg).testBit i = (regOf p reg).testBit i

/-- The settings of a function that `configure_mps` looks at. -/
def mpsOf (p : CfgPort S) : MFn where
  pcie := p.has 0x10
  ptype := p.capsReg / 16 % 16
  mpss := p.mpss
  mps := fieldOf p (ctlReg p) 5 3

/-- What the host relies on: it knows the device and function number, that the function is a bridge if its header type is 1, and where its PCI Express capability
is, if it has one. -/
structure KnownFn (p : CfgPort S) : Prop where
  dev : p.dev.device = p.fn.id.device ∧ p.dev.function = p.fn.id.function
  hdr : p.headerType = 1 → ∃ dsp f, p.fn.regs = .br dsp f
  pcie : p.has 0x10 = true → ∃ c a, HasPcie p c a

/-- Bits that setting the maximum payload size may change: the field, and the bits of the device status. -/
def mpsBits (p : CfgPort S) (reg i : Nat) : Prop := p.has 0x10 = true ∧ reg = ctlReg p ∧ ((5 ≤ i ∧ i < 8) ∨ errBit i = true)

end Pcie.Spec
