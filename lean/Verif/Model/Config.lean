/-
Configuration registers of functions: the common header (function.py:63-111 and 196-300), the endpoint (type 0) header
(endpoint.py:33-45 and 86-166) and the bridge (type 1) header (bridge.py:33-277).

The capability registers (16 and up) are a parameter: `CapOps σ` gives the read and write operations of the function's
capability lists, which `Verif/Model/Caps.lean` models. Register fields which the Python code holds as integers are
natural numbers; flags are Booleans. An `if mask & m:` block of assignments is written as one
conditional per assigned field.
-/
import Verif.Model.Bar
namespace Pcie

/-- The capability registers of a function (function.py:302-306, 319-323). -/
structure CapOps (σ : Type) where
  read : σ → Nat → Nat
  write : σ → Nat → Nat → Nat → σ

/-- `data & 1 << k != 0` (Python precedence: `(data & (1 << k)) != 0`). -/
def bitSet (data k : Nat) : Bool := data &&& (1 <<< k) != 0

/-- function.py:63-111: the register fields common to all functions. -/
structure Common (σ : Type) where
  vendorId : Nat := 0x1234
  deviceId : Nat := 0xff
  ioEnable : Bool := false
  memEnable : Bool := false
  busMaster : Bool := false
  parityResp : Bool := false
  serr : Bool := false
  intDisable : Bool := false
  intStatus : Bool := false
  capList : Bool := true
  masterParity : Bool := false
  sigTargetAbort : Bool := false
  rcvTargetAbort : Bool := false
  rcvMasterAbort : Bool := false
  sigSysErr : Bool := false
  detParity : Bool := false
  revisionId : Nat := 0
  classCode : Nat := 0
  cacheLine : Nat := 0
  latency : Nat := 0
  headerLayout : Nat := 0
  multifunction : Bool := false
  bistCapable : Bool := false
  startBist : Bool := false
  bistCode : Nat := 0
  bars : List BarReg := []
  romAddr : Nat := 0
  romMask : Nat := 0
  romEnable : Bool := false
  capPtr : Nat := 0
  intLine : Nat := 0
  intPin : Nat := 0
  caps : σ

/-- function.py:196-257 `read_config_register`. -/
def Common.read {σ} (ops : CapOps σ) (f : Common σ) (reg : Nat) : Nat :=
  if reg = 0 then f.vendorId &&& 0xffff ||| (f.deviceId &&& 0xffff) <<< 16
  else if reg = 1 then
    f.ioEnable.toNat <<< 0 ||| f.memEnable.toNat <<< 1 ||| f.busMaster.toNat <<< 2 ||| f.parityResp.toNat <<< 6 |||
      f.serr.toNat <<< 8 ||| f.intDisable.toNat <<< 10 ||| f.intStatus.toNat <<< 19 ||| f.capList.toNat <<< 20 |||
      f.masterParity.toNat <<< 24 ||| f.sigTargetAbort.toNat <<< 27 ||| f.rcvTargetAbort.toNat <<< 28 |||
      f.rcvMasterAbort.toNat <<< 29 ||| f.sigSysErr.toNat <<< 30 ||| f.detParity.toNat <<< 31
  else if reg = 2 then f.revisionId &&& 0xff ||| (f.classCode &&& 0xffffff) <<< 8
  else if reg = 3 then
    f.cacheLine &&& 0xff ||| (f.latency &&& 0xff) <<< 8 ||| (f.headerLayout &&& 0x7f) <<< 16 |||
      f.multifunction.toNat <<< 23 ||| (f.bistCode &&& 0xf) <<< 24 ||| f.startBist.toNat <<< 30 |||
      f.bistCapable.toNat <<< 31
  else if reg = 13 then f.capPtr &&& 0xff
  else if reg = 15 then f.intLine &&& 0xff ||| (f.intPin &&& 0xff) <<< 8
  else if 16 ≤ reg ∧ reg < 1024 then ops.read f.caps reg
  else 0

/-- function.py:260-283: the command and status register. -/
def Common.writeCmd {σ} (f : Common σ) (data mask : Nat) : Common σ :=
  { f with
    ioEnable := if mask &&& 1 ≠ 0 then bitSet data 0 else f.ioEnable
    memEnable := if mask &&& 1 ≠ 0 then bitSet data 1 else f.memEnable
    busMaster := if mask &&& 1 ≠ 0 then bitSet data 2 else f.busMaster
    parityResp := if mask &&& 1 ≠ 0 then bitSet data 6 else f.parityResp
    serr := if mask &&& 2 ≠ 0 then bitSet data 8 else f.serr
    intDisable := if mask &&& 2 ≠ 0 then bitSet data 10 else f.intDisable
    masterParity := if mask &&& 8 ≠ 0 ∧ bitSet data 24 then false else f.masterParity
    sigTargetAbort := if mask &&& 8 ≠ 0 ∧ bitSet data 27 then false else f.sigTargetAbort
    rcvTargetAbort := if mask &&& 8 ≠ 0 ∧ bitSet data 28 then false else f.rcvTargetAbort
    rcvMasterAbort := if mask &&& 8 ≠ 0 ∧ bitSet data 29 then false else f.rcvMasterAbort
    sigSysErr := if mask &&& 8 ≠ 0 ∧ bitSet data 30 then false else f.sigSysErr
    detParity := if mask &&& 8 ≠ 0 ∧ bitSet data 31 then false else f.detParity }

/-- function.py:284-290: cache line size and BIST. -/
def Common.writeMisc {σ} (f : Common σ) (data mask : Nat) : Common σ :=
  { f with
    cacheLine := if mask &&& 1 ≠ 0 then data &&& 0xff else f.cacheLine
    startBist := if mask &&& 4 ≠ 0 then bitSet data 30 else f.startBist }

/-- function.py:291-294, endpoint.py:161-164: the interrupt line register. -/
def Common.writeInt {σ} (f : Common σ) (data mask : Nat) : Common σ :=
  { f with intLine := if mask &&& 1 ≠ 0 then data &&& 0xff else f.intLine }

/-- function.py:259-300 `write_config_register`. -/
def Common.write {σ} (ops : CapOps σ) (f : Common σ) (reg data mask : Nat) : Common σ :=
  if reg = 1 then f.writeCmd data mask
  else if reg = 3 then f.writeMisc data mask
  else if reg = 15 then f.writeInt data mask
  else if 16 ≤ reg ∧ reg < 1024 then { f with caps := ops.write f.caps reg data mask }
  else f

/-- endpoint.py:155-160, bridge.py:261-266: the expansion ROM register. -/
def Common.writeRom {σ} (f : Common σ) (data mask : Nat) : Common σ :=
  { f with
    romAddr := byteMaskUpdate f.romAddr mask data (some f.romMask) &&& 0xfffff800
    romEnable := if mask &&& 1 ≠ 0 then bitSet data 0 else f.romEnable }

/-- endpoint.py:113-117, bridge.py:182-186. -/
def Common.readRom {σ} (f : Common σ) : Nat := f.romEnable.toNat ||| f.romAddr &&& 0xfffff800

/-- endpoint.py:33-45: the registers of an endpoint; `bars` has six entries. -/
structure Ep (σ : Type) extends Common σ where
  subsysVendor : Nat := 0
  subsysId : Nat := 0

/-- endpoint.py:86-134 `Endpoint.read_config_register`. -/
def Ep.read {σ} (ops : CapOps σ) (f : Ep σ) (reg : Nat) : Nat :=
  if 4 ≤ reg ∧ reg ≤ 9 then readBar f.bars (reg - 4)
  else if reg = 10 then 0
  else if reg = 11 then f.subsysVendor &&& 0xffff ||| (f.subsysId &&& 0xffff) <<< 16
  else if reg = 12 then f.toCommon.readRom
  else if reg = 13 then f.capPtr &&& 0xff
  else if reg = 14 then 0
  else if reg = 15 then f.intLine &&& 0xff ||| (f.intPin &&& 0xff) <<< 8
  else f.toCommon.read ops reg

/-- endpoint.py:136-166 `Endpoint.write_config_register`. -/
def Ep.write {σ} (ops : CapOps σ) (f : Ep σ) (reg data mask : Nat) : Ep σ :=
  if 4 ≤ reg ∧ reg ≤ 9 then { f with bars := writeBar f.bars (reg - 4) data mask }
  else if reg = 12 then { f with toCommon := f.toCommon.writeRom data mask }
  else if reg = 15 then { f with toCommon := f.toCommon.writeInt data mask }
  else { f with toCommon := f.toCommon.write ops reg data mask }

/-- bridge.py:33-73: the registers of a bridge; `bars` has two entries. -/
structure Br (σ : Type) extends Common σ where
  priBus : Nat := 0
  secBus : Nat := 0
  subBus : Nat := 0
  secLat : Nat := 0
  ioBase : Nat := 0
  ioLimit : Nat := 0xfff
  ioCap : Nat := 1
  secMasterParity : Bool := false
  secSigTargetAbort : Bool := false
  secRcvTargetAbort : Bool := false
  secRcvMasterAbort : Bool := false
  secRcvSysErr : Bool := false
  secDetParity : Bool := false
  memBase : Nat := 0
  memLimit : Nat := 0xfffff
  prefBase : Nat := 0
  prefLimit : Nat := 0xfffff
  brParityResp : Bool := false
  brSerr : Bool := false
  secReset : Bool := false

/-- bridge.py:121-198 `Bridge.read_config_register`. -/
def Br.read {σ} (ops : CapOps σ) (f : Br σ) (reg : Nat) : Nat :=
  if reg = 4 then (f.bars.getD 0 {}).val
  else if reg = 5 then (f.bars.getD 1 {}).val
  else if reg = 6 then
    f.priBus &&& 0xff ||| (f.secBus &&& 0xff) <<< 8 ||| (f.subBus &&& 0xff) <<< 16 ||| (f.secLat &&& 0xff) <<< 24
  else if reg = 7 then
    f.ioCap &&& 0xf ||| (f.ioBase &&& 0xf000) >>> 8 ||| (f.ioCap &&& 0xf) <<< 8 ||| f.ioLimit &&& 0xf000 |||
      f.secMasterParity.toNat <<< 24 ||| f.secSigTargetAbort.toNat <<< 27 ||| f.secRcvTargetAbort.toNat <<< 28 |||
      f.secRcvMasterAbort.toNat <<< 29 ||| f.secRcvSysErr.toNat <<< 30 ||| f.secDetParity.toNat <<< 31
  else if reg = 8 then (f.memBase &&& 0xfff00000) >>> 16 ||| f.memLimit &&& 0xfff00000
  else if reg = 9 then (f.prefBase &&& 0xfff00000) >>> 16 ||| f.prefLimit &&& 0xfff00000 ||| 0x00010001
  else if reg = 10 then (f.prefBase >>> 32) &&& 0xffffffff
  else if reg = 11 then (f.prefLimit >>> 32) &&& 0xffffffff
  else if reg = 12 then (f.ioBase &&& 0xffff0000) >>> 16 ||| f.ioLimit &&& 0xffff0000
  else if reg = 13 then f.capPtr
  else if reg = 14 then f.toCommon.readRom
  else if reg = 15 then
    f.intLine &&& 0xff ||| (f.intPin &&& 0xff) <<< 8 ||| f.brParityResp.toNat <<< 16 ||| f.brSerr.toNat <<< 17 |||
      f.secReset.toNat <<< 22
  else f.toCommon.read ops reg

/-- bridge.py:207-216: the bus number register. -/
def Br.writeBus {σ} (f : Br σ) (data mask : Nat) : Br σ :=
  { f with
    priBus := if mask &&& 1 ≠ 0 then data &&& 0xff else f.priBus
    secBus := if mask &&& 2 ≠ 0 then data >>> 8 &&& 0xff else f.secBus
    subBus := if mask &&& 4 ≠ 0 then data >>> 16 &&& 0xff else f.subBus }

/-- bridge.py:217-237: I/O window and secondary status. -/
def Br.writeIo {σ} (f : Br σ) (data mask : Nat) : Br σ :=
  { f with
    ioBase := if mask &&& 1 ≠ 0 then byteMaskUpdate f.ioBase 2 (data <<< 8) (some 0xf000) else f.ioBase
    ioLimit := if mask &&& 2 ≠ 0 then byteMaskUpdate f.ioLimit 2 data (some 0xf000) ||| 0xfff else f.ioLimit
    secMasterParity := if mask &&& 8 ≠ 0 ∧ bitSet data 24 then false else f.secMasterParity
    secSigTargetAbort := if mask &&& 8 ≠ 0 ∧ bitSet data 27 then false else f.secSigTargetAbort
    secRcvTargetAbort := if mask &&& 8 ≠ 0 ∧ bitSet data 28 then false else f.secRcvTargetAbort
    secRcvMasterAbort := if mask &&& 8 ≠ 0 ∧ bitSet data 29 then false else f.secRcvMasterAbort
    secRcvSysErr := if mask &&& 8 ≠ 0 ∧ bitSet data 30 then false else f.secRcvSysErr
    secDetParity := if mask &&& 8 ≠ 0 ∧ bitSet data 31 then false else f.secDetParity }

/-- bridge.py:200-277 `Bridge.write_config_register`. A write to register 4 first updates BAR 0 and then also runs the
`else` branch of the second `if`, which is `Function.write_config_register(4, ...)` and does nothing. -/
def Br.write {σ} (ops : CapOps σ) (f : Br σ) (reg data mask : Nat) : Br σ :=
  if reg = 4 then
    let f := { f with bars := writeBar f.bars 0 data mask }
    { f with toCommon := f.toCommon.write ops reg data mask }
  else if reg = 5 then { f with bars := writeBar f.bars 1 data mask }
  else if reg = 6 then f.writeBus data mask
  else if reg = 7 then f.writeIo data mask
  else if reg = 8 then { f with
    memBase := byteMaskUpdate f.memBase ((mask &&& 3) <<< 2) (data <<< 16) (some 0xfff00000)
    memLimit := byteMaskUpdate f.memLimit (mask &&& 0xc) data (some 0xfff00000) ||| 0xfffff }
  else if reg = 9 then { f with
    prefBase := byteMaskUpdate f.prefBase ((mask &&& 3) <<< 2) (data <<< 16) (some 0xfff00000)
    prefLimit := byteMaskUpdate f.prefLimit (mask &&& 0xc) data (some 0xfff00000) ||| 0xfffff }
  else if reg = 10 then { f with prefBase := byteMaskUpdate f.prefBase (mask <<< 4) (data <<< 32) none }
  else if reg = 11 then { f with prefLimit := byteMaskUpdate f.prefLimit (mask <<< 4) (data <<< 32) none }
  else if reg = 12 then { f with
    ioBase := byteMaskUpdate f.ioBase ((mask &&& 3) <<< 2) (data <<< 16) none
    ioLimit := byteMaskUpdate f.ioLimit (mask &&& 0xc) data none }
  else if reg = 14 then { f with toCommon := f.toCommon.writeRom data mask }
  else if reg = 15 then
    { f with
      toCommon := f.toCommon.writeInt data mask
      brParityResp := if mask &&& 4 ≠ 0 then bitSet data 16 else f.brParityResp
      brSerr := if mask &&& 4 ≠ 0 then bitSet data 17 else f.brSerr
      secReset := if mask &&& 4 ≠ 0 then bitSet data 22 else f.secReset }
  else { f with toCommon := f.toCommon.write ops reg data mask }

end Pcie
