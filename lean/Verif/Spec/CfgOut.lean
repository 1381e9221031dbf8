import Verif.Model.CfgOut
/-
Specification for C66: what the configuration outputs of the hard IP show, as bits of the registers that the host reads by configuration requests (Intel user guides for the Stratix 10 H-Tile and
L-Tile and for the P-Tile hard IP for PCI Express, "configuration output interface"; Xilinx PG156 and PG213, "configuration status interface").
-/
namespace Pcie.Spec

/-- What the host can know of a function. -/
inductive HostReg
  /-- command and status register -/
  | command
  /-- register of the power management, PCI Express or advanced error reporting capability -/
  | pm (reg : Nat) | pcie (reg : Nat) | aer (reg : Nat)
  /-- first register of the MSI and of the MSI-X capability -/
  | msi | msix
  /-- address, data and mask bits for MSI -/
  | msiAddr | msiData | msiMask
  /-- bus and device number -/
  | bus | device
deriving DecidableEq, Repr

/-- The address that the host reads from the MSI capability: one or two registers. -/
def msiAddrRead (c : MsiCap) : Nat :=
  (c.read 1).getD 0 + if c.cap64 then (c.read 2).getD 0 * 2 ^ 32 else 0

/-- The data, in the register after the address. -/
def msiDataRead (c : MsiCap) : Nat := (c.read (if c.cap64 then 3 else 2)).getD 0

/-- The mask bits, if there are any, in the register after the data. -/
def msiMaskRead (c : MsiCap) : Nat := if c.maskCap then (c.read (if c.cap64 then 4 else 3)).getD 0 else 0

/-- Bit `i` of what the host knows. -/
def HostReg.bit (f : CfgFn) (i : Nat) : HostReg → Bool
  | command => (f.fn.read ⟨fun _ _ => 0, fun s _ _ _ => s⟩ 1).testBit i
  | pm reg => (CapRegs.pm.read f.pm reg).testBit i
  | pcie reg => (CapRegs.pcie.read f.pcie reg).testBit i
  | aer reg => (CapRegs.aer.read f.aer reg).testBit i
  | msi => ((f.msi.read 0).getD 0).testBit i
  | msix => ((f.msix.read 0).getD 0).testBit i
  | msiAddr => (msiAddrRead f.msi).testBit i
  | msiData => (msiDataRead f.msi).testBit i
  | msiMask => (msiMaskRead f.msi).testBit i
  | bus => f.id.bus.testBit i
  | device => f.id.device.testBit i

/-- Bits `lsb .. lsb+width-1` of the output show the bits of `src` from `start` on; with `old`, as they were one clock cycle before. -/
structure OutField where
  lsb : Nat
  width : Nat
  src : HostReg
  start : Nat
  old : Bool := false
deriving DecidableEq, Repr

/-- Bit `i` of an output with these fields, for a function that is `f` now and was `f'` one cycle ago. -/
def shownBit (fields : List OutField) (f f' : CfgFn) (i : Nat) : Bool :=
  match fields.find? fun x => decide (x.lsb ≤ i) && decide (i < x.lsb + x.width) with
  | some x => x.src.bit (if x.old then f' else f) (x.start + (i - x.lsb))
  | none => false

/-- Stratix 10 H-Tile: the fields for each value of `tl_cfg_add`. -/
def htileMap : List (List OutField) := [
  -- device control, device control 2 and command
  [⟨0, 3, .pcie 2, 5, false⟩, ⟨3, 3, .pcie 2, 12, false⟩, ⟨6, 1, .pcie 2, 8, false⟩, ⟨7, 1, .command, 2, false⟩, ⟨8, 1, .pcie 2, 3, false⟩,
    ⟨9, 1, .pcie 2, 0, false⟩, ⟨10, 1, .pcie 2, 1, false⟩, ⟨11, 1, .pcie 2, 2, false⟩, ⟨12, 1, .command, 8, false⟩, ⟨13, 1, .command, 6, false⟩,
    ⟨14, 1, .pcie 10, 9, false⟩, ⟨15, 1, .command, 1, false⟩, ⟨16, 8, .bus, 0, false⟩, ⟨24, 5, .device, 0, false⟩, ⟨29, 1, .pcie 2, 4, false⟩,
    ⟨30, 1, .pcie 2, 11, false⟩, ⟨31, 1, .pcie 10, 8, false⟩],
  -- slot control, PCI Express capabilities, command, link control, power management
  [⟨0, 2, .pcie 6, 8, false⟩, ⟨2, 2, .pcie 6, 6, false⟩, ⟨4, 1, .pcie 6, 10, false⟩, ⟨8, 5, .pcie 0, 25, false⟩, ⟨13, 1, .command, 10, false⟩,
    ⟨14, 1, .pcie 4, 3, false⟩, ⟨15, 1, .pm 1, 3, false⟩],
  -- device control 2, link status
  [⟨6, 1, .pcie 10, 6, false⟩, ⟨7, 1, .pcie 10, 5, false⟩, ⟨28, 4, .pcie 4, 16, false⟩],
  [⟨0, 32, .msiAddr, 0, false⟩],
  [⟨0, 32, .msiAddr, 32, false⟩],
  [⟨0, 32, .msiMask, 0, false⟩],
  -- MSI and MSI-X control, root error status, root control, MSI data
  [⟨0, 1, .msi, 16, false⟩, ⟨1, 1, .msi, 23, false⟩, ⟨2, 3, .msi, 20, false⟩, ⟨5, 1, .msix, 31, false⟩, ⟨6, 1, .msix, 30, false⟩, ⟨8, 5, .aer 12, 27, false⟩,
    ⟨13, 1, .pcie 7, 0, false⟩, ⟨14, 1, .pcie 7, 1, false⟩, ⟨15, 1, .pcie 7, 2, false⟩, ⟨16, 16, .msiData, 0, false⟩],
  -- masks of uncorrectable and correctable errors, severity of uncorrectable errors
  [⟨0, 32, .aer 2, 0, false⟩],
  [⟨0, 32, .aer 5, 0, false⟩],
  [⟨0, 32, .aer 3, 0, false⟩]]

/-- Stratix 10 L-Tile. -/
def ltileMap : List (List OutField) := [
  [⟨0, 3, .pcie 2, 5, false⟩, ⟨3, 3, .pcie 2, 12, false⟩, ⟨6, 1, .pcie 2, 8, false⟩, ⟨7, 1, .command, 2, false⟩, ⟨8, 6, .pcie 4, 20, false⟩,
    ⟨14, 1, .pcie 10, 9, false⟩, ⟨15, 1, .command, 1, false⟩, ⟨16, 8, .bus, 0, false⟩, ⟨24, 5, .device, 0, false⟩, ⟨29, 1, .pcie 2, 4, false⟩,
    ⟨30, 1, .pcie 2, 11, false⟩, ⟨31, 1, .pcie 10, 8, false⟩],
  [⟨0, 2, .pcie 6, 8, false⟩, ⟨2, 2, .pcie 6, 6, false⟩, ⟨4, 1, .pcie 6, 10, false⟩, ⟨8, 5, .pcie 0, 25, false⟩, ⟨13, 1, .command, 10, false⟩,
    ⟨16, 1, .pcie 4, 3, false⟩, ⟨17, 1, .pm 1, 3, false⟩, ⟨18, 6, .pcie 4, 20, false⟩, ⟨24, 5, .aer 12, 27, false⟩,
    ⟨29, 1, .pcie 7, 0, false⟩, ⟨30, 1, .pcie 7, 1, false⟩, ⟨31, 1, .pcie 7, 2, false⟩],
  [⟨4, 1, .pcie 10, 6, false⟩, ⟨5, 1, .pcie 10, 5, false⟩, ⟨12, 4, .pcie 4, 16, false⟩],
  [⟨0, 32, .msiAddr, 0, false⟩],
  [⟨0, 32, .msiAddr, 32, false⟩],
  [⟨0, 32, .msiMask, 0, false⟩],
  [⟨0, 1, .msi, 16, false⟩, ⟨1, 1, .msi, 23, false⟩, ⟨2, 3, .msi, 20, false⟩, ⟨5, 1, .msix, 31, false⟩, ⟨6, 1, .msix, 30, false⟩, ⟨16, 16, .msiData, 0, false⟩],
  [⟨0, 6, .pcie 4, 20, false⟩, ⟨6, 4, .pcie 4, 16, false⟩]]

/-- P-Tile: 16 bits at a time. -/
def ptileMap : List (List OutField) := [
  [⟨0, 3, .pcie 2, 5, false⟩, ⟨3, 3, .pcie 2, 12, false⟩, ⟨6, 1, .pcie 2, 8, false⟩, ⟨7, 1, .command, 2, false⟩, ⟨8, 1, .pcie 2, 3, false⟩,
    ⟨9, 1, .pcie 2, 0, false⟩, ⟨10, 1, .pcie 2, 1, false⟩, ⟨11, 1, .pcie 2, 2, false⟩, ⟨12, 1, .command, 8, false⟩, ⟨13, 1, .command, 6, false⟩,
    ⟨14, 1, .pcie 10, 9, false⟩, ⟨15, 1, .command, 1, false⟩],
  [⟨0, 8, .bus, 0, false⟩, ⟨8, 5, .device, 0, false⟩, ⟨13, 1, .pcie 2, 4, false⟩, ⟨14, 1, .pcie 2, 11, false⟩, ⟨15, 1, .pcie 10, 8, false⟩],
  [⟨0, 2, .pcie 6, 8, false⟩, ⟨2, 2, .pcie 6, 6, false⟩, ⟨4, 1, .pcie 6, 10, false⟩, ⟨8, 5, .pcie 0, 25, false⟩, ⟨13, 1, .command, 10, false⟩,
    ⟨14, 1, .pcie 4, 3, false⟩, ⟨15, 1, .pm 1, 3, false⟩],
  [],
  [⟨6, 1, .pcie 10, 6, false⟩, ⟨7, 1, .pcie 10, 5, false⟩, ⟨14, 1, .pcie 10, 7, false⟩],
  [⟨12, 4, .pcie 4, 16, false⟩],
  [⟨0, 16, .msiAddr, 0, false⟩], [⟨0, 16, .msiAddr, 16, false⟩], [⟨0, 16, .msiAddr, 32, false⟩], [⟨0, 16, .msiAddr, 48, false⟩],
  [⟨0, 16, .msiMask, 0, false⟩], [⟨0, 16, .msiMask, 16, false⟩],
  [⟨0, 1, .msi, 16, false⟩, ⟨1, 1, .msi, 23, false⟩, ⟨2, 3, .msi, 20, false⟩, ⟨5, 1, .msix, 31, false⟩, ⟨6, 1, .msix, 30, false⟩, ⟨7, 1, .msi, 26, false⟩,
    ⟨8, 5, .aer 12, 27, false⟩, ⟨13, 1, .pcie 7, 0, false⟩, ⟨14, 1, .pcie 7, 1, false⟩, ⟨15, 1, .pcie 7, 2, false⟩],
  [⟨0, 16, .msiData, 0, false⟩],
  -- the upper halves are shown as they were when the lower halves were shown
  [⟨0, 16, .aer 2, 0, false⟩], [⟨0, 16, .aer 2, 16, true⟩],
  [⟨0, 16, .aer 5, 0, false⟩], [⟨0, 16, .aer 5, 16, true⟩],
  [⟨0, 16, .aer 3, 0, false⟩], [⟨0, 16, .aer 3, 16, true⟩],
  [], [], [], [], [], [], [], [],
  [⟨0, 6, .pcie 4, 20, false⟩],
  [⟨0, 16, .msiData, 16, false⟩],
  [], []]

/-- An MSI capability in a state that configuration writes produce: an aligned address of 32 or 64 bits, data of 16 or 32 bits, and mask bits only if the capability has them. -/
structure MsiOk (c : MsiCap) : Prop where
  align : c.addr % 4 = 0
  addr : c.addr < 2 ^ (if c.cap64 then 64 else 32)
  data : c.data < 2 ^ (if c.extCap then 32 else 16)
  mask : c.maskBits < 2 ^ (if c.maskCap then 32 else 0)

/-- In cycle `n` the outputs show one register of one of the `m` functions: all registers of a function one after the other, then those of the next function, and so on. `fns n` are the functions as
they are in cycle `n`. -/
def CfgShows (map : List (List OutField)) (m : Nat) (fns : Nat → List CfgFn) (n : Nat) (out : CfgOut) : Prop :=
  let R := map.length
  let k := n / R % m
  ∃ f f' f0, (fns n)[k]? = some f ∧ (fns (n - 1))[k]? = some f' ∧ (fns (n - n % R))[k]? = some f0 ∧
    out.func = f0.id.function ∧ out.add = n % R ∧ ∀ i, out.ctl.testBit i = shownBit (map.getD (n % R) []) f f' i

/-- The device has `m` functions at all times, and their MSI capabilities are in such a state. -/
def Functions (m : Nat) (fns : Nat → List CfgFn) : Prop := 0 < m ∧ ∀ n, (fns n).length = m ∧ ∀ f ∈ fns n, MsiOk f.msi

/-! ### Xilinx -/

/-- Bits `lsb .. lsb+width-1` of a register. -/
def bits (x lsb width : Nat) : Nat := x / 2 ^ lsb % 2 ^ width

/-- Fields of the device control and link status registers, as the host reads them. -/
def hostPayload (f : CfgFn) : Nat := bits (CapRegs.pcie.read f.pcie 2) 5 3
def hostReadReq (f : CfgFn) : Nat := bits (CapRegs.pcie.read f.pcie 2) 12 3
def hostSpeed (f : CfgFn) : Nat := bits (CapRegs.pcie.read f.pcie 4) 16 4
def hostWidth (f : CfgFn) : Nat := bits (CapRegs.pcie.read f.pcie 4) 20 6

/-- The attributes behind those fields are in range. -/
structure PcieOk (a : CapRegs.Attrs) : Prop where
  payload : a ("max_payload_size", 0) < 2 ^ 3
  readReq : a ("max_read_request_size", 0) < 2 ^ 3
  speed : a ("current_link_speed", 0) < 2 ^ 4
  width : a ("negotiated_link_width", 0) < 2 ^ 6

end Pcie.Spec
