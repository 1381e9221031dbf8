/-
The host software (pci.py) as a program of configuration accesses: enumeration with `PciBus.scan`, `PciDevice.setup`,
`assign_resources`, and the hierarchy that carries the accesses out as TLPs (`Node.cfg`).

Of `setup` (pci.py:623-677) the capability walk, `configure_device` and `init_capabilities` are left out, and so is
`enable_crs` (pci.py:600-612, Model/Crs.lean); whether a bridge is a downstream port, which the host finds out from its PCI Express
capability registers, is a separate operation (`dsp`).
-/
import Verif.Model.CfgFabric
import Verif.Model.Words
namespace Pcie

/-- A program of the host that accesses configuration space: `rd` is `rc.config_read` (rc.py:565-603) and `wr` is
`rc.config_write` (rc.py:630-646). -/
inductive CfgProg (α : Type) where
  | ret (a : α)
  | raise (e : String)
  | rd (id : PcieId) (addr len : Nat) (k : List UInt8 → CfgProg α)
  | wr (id : PcieId) (addr : Nat) (data : List UInt8) (k : CfgProg α)
  | dsp (id : PcieId) (k : Bool → CfgProg α)

/-- First the one program, then the other. -/
def CfgProg.bind {α β : Type} : CfgProg α → (α → CfgProg β) → CfgProg β
  | .ret a, f => f a
  | .raise e, _ => .raise e
  | .rd id addr len k, f => .rd id addr len fun d => (k d).bind f
  | .wr id addr data k, f => .wr id addr data (k.bind f)
  | .dsp id k, f => .dsp id fun b => (k b).bind f

instance : Monad CfgProg where
  pure := .ret
  bind := .bind

variable {σ : Type}

/-- The program, with the accesses carried out by the hierarchy. -/
def CfgProg.run {α : Type} (ops : CapOps σ) (tag : Tlp → Nat) : CfgProg α → Node σ → Py (Node σ × α)
  | .ret a, n => .ok (n, a)
  | .raise e, _ => .error e
  | .rd id addr len k, n =>
    match Cfg.read (Node.cfgOp ops tag) n id addr len with
    | .error e => .error e
    | .ok (n, d) => (k d).run ops tag n
  | .wr id addr data k, n => k.run ops tag (Cfg.write (Node.cfgOp ops tag) n id addr data)
  | .dsp id k, n => (k (n.cfgDsp id)).run ops tag n

namespace Host

/-- pci.py:418-440, rc.py:605-628: `config_read_byte`, `config_read_word`, `config_read_dword`. -/
def readByte (id : PcieId) (addr : Nat) : CfgProg Nat :=
  .rd id addr 1 fun d => match d with | [] => .raise "IndexError" | b :: _ => .ret b.toNat
@[inherit_doc readByte] def readWord (id : PcieId) (addr : Nat) : CfgProg Nat := .rd id addr 2 fun d => .ret (fromBytes d .little)
@[inherit_doc readByte] def readDword (id : PcieId) (addr : Nat) : CfgProg Nat := .rd id addr 4 fun d => .ret (fromBytes d .little)

/-- pci.py:448-468: `config_write_word` (two bytes) and `config_write_dword` (four). -/
def writeInt (n : Nat) (id : PcieId) (addr v : Nat) : CfgProg Unit :=
  match toBytes v n .little with
  | .error e => .raise e
  | .ok d => .wr id addr d (.ret ())
@[inherit_doc writeInt] def writeWord := writeInt 2
@[inherit_doc writeInt] def writeDword := writeInt 4

/-- pci.py:1069-1124: the loop of `read_bars`, as `readBarsFrom`. -/
def readBarsFrom (id : PcieId) : (n bar : Nat) → DevBars → CfgProg DevBars
  | 0, _, d => pure d
  | n + 1, bar, d => do
    let orig ← readDword id (4 * (4 + bar))
    writeDword id (4 * (4 + bar)) 0xffffffff
    let val ← readDword id (4 * (4 + bar))
    writeDword id (4 * (4 + bar)) orig
    if val = 0 then readBarsFrom id n (bar + 1) (d.setInfo bar 0 0)
    else if val &&& 1 ≠ 0 then
      readBarsFrom id n (bar + 1) (d.setInfo bar orig ((andNot 0xffffffff val ||| 3) + 1))
    else if val &&& 4 ≠ 0 then
      match n with
      | 0 => .raise "Invalid BAR configuration"
      | n + 1 => do
        let orig2 ← readDword id (4 * (4 + bar))
        writeDword id (4 * (4 + (bar + 1))) 0xffffffff
        let val2 ← readDword id (4 * (4 + (bar + 1)))
        writeDword id (4 * (4 + (bar + 1))) orig2
        readBarsFrom id n (bar + 2)
          (d.setInfo bar (orig ||| orig2 <<< 32) ((andNot 0xffffffffffffffff (val ||| val2 <<< 32) ||| 0xf) + 1))
    else readBarsFrom id n (bar + 1) (d.setInfo bar orig ((andNot 0xffffffff val ||| 0xf) + 1))

/-- pci.py:1063-1067: clear I/O and memory enable. -/
def disableDecode (id : PcieId) : CfgProg Unit := do
  let old ← readWord id (4 * 1)
  let cmd := andNot old 3
  if cmd ≠ old then writeWord id (4 * 1) cmd else pure ()

/-- pci.py:1062-1151 `read_bars`; `rom` is the number of the expansion ROM register. -/
def readBars (id : PcieId) (cnt rom : Nat) (d : DevBars) : CfgProg DevBars := do
  disableDecode id
  let d ← readBarsFrom id cnt 0 d
  let orig ← readDword id (4 * rom)
  writeDword id (4 * rom) 0xfffff800
  let val ← readDword id (4 * rom)
  writeDword id (4 * rom) orig
  if val ≠ 0 then pure { d with rom := some ⟨orig, (andNot 0xffffffff val ||| 0x7ff) + 1⟩ }
  else pure { d with rom := some ⟨0, 0⟩ }

/-- pci.py:1156-1250: the loop of `assign_bars`, as `assignBarsFrom`. -/
def assignBarsFrom (id : PcieId) : (n bar : Nat) → DevBars → Limits → CfgProg (DevBars × Limits)
  | 0, _, d, l => pure (d, l)
  | n + 1, bar, d, l =>
    match d.info bar with
    | none => .raise "TypeError"
    | some ⟨raw, size⟩ =>
      if size = 0 then assignBarsFrom id n (bar + 1) d l
      else if raw &&& 1 ≠ 0 then do
        let addr := align l.io (size - 1)
        let raw := raw &&& 3 ||| addr
        writeDword id (4 * (4 + bar)) raw
        assignBarsFrom id n (bar + 1) (d.setAddr bar raw size addr) { l with io := addr + size }
      else if raw &&& 4 ≠ 0 then
        match n with
        | 0 => .raise "Invalid BAR configuration"
        | n + 1 => do
          let addr := if raw &&& 8 ≠ 0 then align l.pref (size - 1) else align l.mem (size - 1)
          let l := if raw &&& 8 ≠ 0 then { l with pref := addr + size } else { l with mem := addr + size }
          let raw := raw &&& 0xf ||| addr
          writeDword id (4 * (4 + bar)) (raw &&& 0xffffffff)
          writeDword id (4 * (4 + (bar + 1))) (raw >>> 32 &&& 0xffffffff)
          assignBarsFrom id n (bar + 2) (d.setAddr64 bar raw size addr) l
      else do
        let addr := align l.mem (size - 1)
        let raw := raw &&& 0xf ||| addr
        writeDword id (4 * (4 + bar)) raw
        assignBarsFrom id n (bar + 1) (d.setAddr bar raw size addr) { l with mem := addr + size }

/-- pci.py:1153-1275 `assign_bars`. -/
def assignBars (id : PcieId) (cnt rom : Nat) (d : DevBars) (l : Limits) : CfgProg (DevBars × Limits) := do
  let (d, l) ← assignBarsFrom id cnt 0 d l
  match d.rom with
  | none => pure (d, l)
  | some ⟨raw, size⟩ =>
    if size = 0 then pure (d, l)
    else do
      let addr := align l.mem (size - 1)
      let raw := raw &&& 0x7ff ||| addr
      writeDword id (4 * rom) raw
      pure ({ d with rom := some ⟨raw, size⟩, romAddr := some addr }, { l with mem := addr + size })

/-- `struct.pack` raises an exception or not. -/
def ofPy {α : Type} : Py α → CfgProg α
  | .ok a => .ret a
  | .error e => .raise e

/-- pci.py:255-259 and 1277-1296 `setup_bridge`, as `setupBridge`: `struct.pack('<HH', a, b)` are the bytes of `packHH a b`,
lowest first, likewise the others. -/
def setupBridge (id : PcieId) (b e : Limits) : CfgProg Unit := do
  writeWord id (4 * 7) (b.io >>> 8 &&& 0xf0 ||| pred_shr_and e.io 8 0xf0 <<< 8)
  let v ← ofPy (packHH (b.io >>> 16) (pred_shr e.io 16))
  writeDword id (4 * 12) v
  writeDword id (4 * 8) (b.mem >>> 16 &&& 0xfff0 ||| pred_shr_and e.mem 16 0xfff0 <<< 16)
  writeDword id (4 * 9) (b.pref >>> 16 &&& 0xfff0 ||| pred_shr_and e.pref 16 0xfff0 <<< 16)
  let v ← ofPy (packL1 (some (b.pref >>> 32)))
  writeDword id (4 * 10) v
  let v ← ofPy (packL1 (pred_shr e.pref 32))
  writeDword id (4 * 11) v

/-- A `PciDevice` (pci.py:299-353), with the fields that `scan`, `setup` and `assign_resources` set. -/
structure Device where
  id : PcieId
  vendorId : Nat
  deviceId : Nat
  headerType : Nat
  multifunction : Bool
  revisionId : Nat
  classCode : Nat
  subsysVendor : Nat := 0
  subsysId : Nat := 0
  dsp : Bool
  bars : DevBars := {}

/-- pci.py:389-390 `is_bridge`. -/
def Device.isBridge (p : Device) : Bool := p.headerType = 1 ∨ p.headerType = 2

/-- pci.py:623-663: `setup`, up to the BARs; `val` is the first register, which `scan` has read (pci.py:174-183). -/
def setupRegs (id : PcieId) (val : Nat) : CfgProg Device := do
  let h ← readByte id 0xe
  let c ← readDword id (4 * 2)
  let p : Device := ⟨id, val &&& 0xffff, val >>> 16 &&& 0xffff, h &&& 0x7f, h &&& 0x80 ≠ 0, c &&& 0xff, c >>> 8, 0, 0, false, {}⟩
  if h &&& 0x7f = 0 then do
    let s ← readDword id (4 * 11)
    let d ← readBars id 6 12 {}
    pure { p with subsysVendor := s &&& 0xffff, subsysId := s >>> 16 &&& 0xffff, bars := d }
  else if h &&& 0x7f = 1 then do
    let d ← readBars id 2 14 {}
    pure { p with bars := d }
  else pure p

/-- pci.py:623-677 `setup`, with the PCI Express port type (pci.py:392-399, 671-674) as an operation of its own. -/
def setup (id : PcieId) (val : Nat) : CfgProg Device := do
  let p ← setupRegs id val
  let dsp ← .dsp id .ret
  pure { p with dsp := dsp }

/-- pci.py:171-190: the loop over the functions of device `d` on bus `b`. -/
def probeFns (b d : Nat) : List Nat → CfgProg (List Device)
  | [] => pure []
  | f :: fs => do
    let v ← readDword ⟨b, d, f⟩ (4 * 0)
    if v = 0xffffffff then probeFns b d fs
    else do
      let p ← setup ⟨b, d, f⟩ v
      if p.multifunction = false then pure [p]
      else do
        let ps ← probeFns b d fs
        pure (p :: ps)

/-- pci.py:149-193: the loop over the device numbers; a device that answers with completion retry status is not
modelled. -/
def probeDevs (b : Nat) (one : Bool) : List Nat → CfgProg (List Device)
  | [] => pure []
  | d :: ds =>
    if b = 0 ∧ d = 0 then probeDevs b one ds
    else if 255 < b then .raise "ValueError"
    else do
      let v ← readDword ⟨b, d, 0⟩ (4 * 0)
      if v = 0 ∨ v = 0xffffffff ∨ v = 0xffff0000 ∨ v = 0x0000ffff then probeDevs b one ds
      else if v = 0xffff0001 then .raise "CRS"
      else do
        let fs ← probeFns b d (List.range 8)
        if one then pure fs
        else do
          let rs ← probeDevs b one ds
          pure (fs ++ rs)

/-- A `PciBus` (pci.py:74-104): `devices`, in order, and for the bridges among them `subordinate`. -/
inductive Tree where
  | nil
  | fn (p : Device) (rest : Tree)
  | bridge (p : Device) (child rest : Tree)

/-- pci.py:195-230: the loop over the bridges, with `scan_bridge`; `child` is `child.scan()`. -/
def scanBridges (child : Nat → Bool → CfgProg (Nat × Tree)) (b : Nat) : List Device → Nat → CfgProg (Nat × Tree)
  | [], last => pure (last, .nil)
  | p :: ds, last =>
    if p.isBridge then do
      let buses ← readDword p.id (4 * 6)
      writeDword p.id (4 * 6) (busesReg buses b (last + 1) 0xff)
      let (last', t) ← child (last + 1) p.dsp
      writeDword p.id (4 * 6) (busesReg (busesReg buses b (last + 1) 0xff) b (last + 1) last')
      let (last'', ts) ← scanBridges child b ds last'
      pure (last'', .bridge p t ts)
    else do
      let (last', ts) ← scanBridges child b ds last
      pure (last', .fn p ts)

/-- pci.py:145-202 `scan`; `fuel` bounds the recursion. -/
def scan : (fuel : Nat) → (b : Nat) → (one : Bool) → CfgProg (Nat × Tree)
  | 0, _, _ => .raise "fuel"
  | fuel + 1, b, one => do
    let ds ← probeDevs b one (List.range 32)
    scanBridges (scan fuel) b ds b

/-- pci.py:1049-1060 `PciDevice.assign_resources`. -/
def assignDev (p : Device) (l : Limits) : CfgProg (Device × Limits) :=
  if p.headerType = 0 then do
    let (d, l) ← assignBars p.id 6 12 p.bars l
    pure ({ p with bars := d }, l)
  else if p.headerType = 1 then do
    let (d, l) ← assignBars p.id 2 14 p.bars l
    pure ({ p with bars := d }, l)
  else pure (p, l)

/-- pci.py:232-259 `PciBus.assign_resources`; `l` are the limits of the bridge above the bus. -/
def assign : Tree → Limits → CfgProg (Tree × Limits)
  | .nil, l => pure (.nil, l)
  | .fn p rest, l => do
    let (p, l) ← assignDev p l
    let (rest, l) ← assign rest l
    pure (.fn p rest, l)
  | .bridge p child rest, l => do
    let (p, l) ← assignDev p l
    let (child, lc) ← assign child l
    let e := lc.alignBridge
    setupBridge p.id l e
    let (rest, l) ← assign rest e
    pure (.bridge p child rest, l)

/-- pci.py:59-68 `probe`, with the limits that rc.py:874-879 sets: the devices, and the limits of the host bridge. -/
def probe (fuel : Nat) : CfgProg (Tree × Limits) := do
  let (_, t) ← scan fuel 0 false
  assign t hostLimits

/-- The devices on the bus. -/
def Tree.devices : Tree → List Device
  | .nil => []
  | .fn p rest => p :: rest.devices
  | .bridge p _ rest => p :: rest.devices

/-- pci.py:107-115: `find_device` of the children of a bus. -/
def Tree.findSub (id : PcieId) : Tree → Option Device
  | .nil => none
  | .fn _ rest => rest.findSub id
  | .bridge _ child rest =>
    match (child.devices.find? fun p => p.id = id) with
    | some p => some p
    | none => match child.findSub id with
      | some p => some p
      | none => rest.findSub id

/-- pci.py:107-115, rc.py:864-866: `find_device`. -/
def Tree.find (t : Tree) (id : PcieId) : Option Device :=
  match (t.devices.find? fun p => p.id = id) with
  | some p => some p
  | none => t.findSub id

end Host

/-- rc.py:868-898 `enumerate`: the hierarchy afterwards, the devices found, and the limits. -/
def Node.enumerate (ops : CapOps σ) (tag : Tlp → Nat) (fuel : Nat) (host : BrFn σ) (ports : Ports σ) : Py (Node σ × Host.Tree × Limits) :=
  match (Host.probe fuel).run ops tag (.sw host ports) with
  | .error e => .error e
  | .ok (.sw host ports, t, l) => .ok (.sw (host.setHost l) ports, t, l)
  | .ok (n, t, l) => .ok (n, t, l)

end Pcie
