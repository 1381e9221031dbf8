/-
Specification: the registers of the MSI and MSI-X capabilities (PCI Express Base Specification, 7.7.1 and 7.7.2).
-/
import Verif.Model.Msi
namespace Pcie.Spec
open Pcie

/-- The registers of the MSI capability. -/
inductive MsiReg
  | control | address | upper | data | mask | pending
deriving DecidableEq, Repr

/-- The registers that the capability has, in order. -/
def msiLayout (c : MsiCap) : List MsiReg :=
  [.control, .address] ++ (if c.cap64 then [.upper] else []) ++ [.data] ++ (if c.maskCap then [.mask, .pending] else [])

/-- What the bits of the registers show. -/
def msiBit (c : MsiCap) : MsiReg → Nat → Bool
  | .control, i =>
    if i < 16 then c.head.testBit i                      -- capability ID, next capability
    else if i = 16 then c.enable
    else if i < 20 then c.mmc.testBit (i - 17)
    else if i < 23 then c.mme.testBit (i - 20)
    else if i = 23 then c.cap64
    else if i = 24 then c.maskCap
    else if i = 25 then c.extCap
    else if i = 26 then c.extEnable
    else false
  | .address, i => decide (2 ≤ i) && c.addr.testBit i
  | .upper, i => c.addr.testBit (32 + i)
  | .data, i => (decide (i < 16) || c.extCap) && c.data.testBit i
  | .mask, i => c.maskBits.testBit i
  | .pending, i => c.pending.testBit i

/-- The bits that can be written. -/
def msiRw (c : MsiCap) : MsiReg → Nat → Bool
  | .control, i => decide (i = 16) || (decide (20 ≤ i) && decide (i < 23)) || (decide (i = 26) && c.extCap)
  | .address, i => decide (2 ≤ i)
  | .upper, _ => true
  | .data, i => decide (i < 16) || c.extCap
  | .mask, _ => true
  | .pending, _ => false

/-- What the bits of the registers of the MSI-X capability show. -/
def msixBit (c : MsixCap) : (reg i : Nat) → Bool
  | 0, i =>
    if i < 16 then c.head.testBit i
    else if i < 27 then c.tableSize.testBit (i - 16)
    else if i = 30 then c.functionMask
    else if i = 31 then c.enable
    else false
  | 1, i => if i < 3 then c.tableBir.testBit i else c.tableOffset.testBit i
  | 2, i => if i < 3 then c.pbaBir.testBit i else c.pbaOffset.testBit i
  | _, _ => false

/-- The bits that can be written. -/
def msixRw (reg i : Nat) : Bool := reg = 0 && (decide (i = 30) || decide (i = 31))

end Pcie.Spec
