import Verif.Model.MsiSetup
import Verif.Model.Mps
/-
The settings that the host makes in a function when it finds it (core/pci.py:669-677, 716-808), and the calls that read and change them later, as sequences of
configuration requests that the functions answer. (Model/Mps.lean has `configure_mps` acting on the field directly.)
-/
namespace Pcie
variable {S : Type}

/-- pci.py:330-352: a function and what the host knows about it; in addition to `IrqPort` the header type and what it read from the PCI Express capability. -/
structure CfgPort (S : Type) extends IrqPort S where
  headerType : Nat := 0
  capsReg : Nat := 0
  devcap : Nat := 0
  mpss : Nat := 0

namespace CfgPort

/-- pci.py:395-396 `pcie_type`. -/
def ptype (p : CfgPort S) : Nat := p.capsReg >>> 4 &&& 0xf

/-- pci.py:671-674, in `setup`: what the host records about a function with a PCI Express capability (392-393 `is_pcie`). -/
def setupPcie (p : CfgPort S) : Py (CfgPort S) :=
  if ¬ p.has 0x10 then .ok p
  else do
    let (fn, capsReg) ← (p.io 0x10).readWord p.fn 2
    let (fn, devcap) ← (p.io 0x10).readDword fn 4
    return { p with fn, capsReg, devcap, mpss := devcap &&& 0x7 }

/-- pci.py:758-761 `get_readrq`. -/
def getReadrq (p : CfgPort S) : Py (CfgPort S × Nat) := do
  let (fn, devctl) ← (p.io 0x10).readDword p.fn 8
  return ({ p with fn }, devctl >>> 12 &&& 0x7)

/-- pci.py:763-772 `set_readrq`. -/
def setReadrq (p : CfgPort S) (readrq : Int) : Py (CfgPort S) :=
  if readrq < 0 ∨ 5 < readrq then .error "ValueError"
  else do
    let (fn, old) ← (p.io 0x10).readDword p.fn 8
    let devctl := andNot old 0x7000 ||| readrq.toNat <<< 12
    let fn ← if devctl ≠ old then (p.io 0x10).writeDword fn 8 devctl else .ok fn
    return { p with fn }

/-- pci.py:774-777 `get_mps`. -/
def getMps (p : CfgPort S) : Py (CfgPort S × Nat) := do
  let (fn, devctl) ← (p.io 0x10).readDword p.fn 8
  return ({ p with fn }, devctl >>> 5 &&& 0x7)

/-- pci.py:779-788 `set_mps`. -/
def setMps (p : CfgPort S) (mps : Int) : Py (CfgPort S) :=
  if mps < 0 ∨ 5 < mps ∨ (p.mpss : Int) < mps then .error "ValueError"
  else do
    let (fn, old) ← (p.io 0x10).readDword p.fn 8
    let devctl := andNot old 0xe0 ||| mps.toNat <<< 5
    let fn ← if devctl ≠ old then (p.io 0x10).writeDword fn 8 devctl else .ok fn
    return { p with fn }

/-- pci.py:790-801 `configure_extended_tags`. -/
def configureTags (p : CfgPort S) : Py (CfgPort S) :=
  if ¬ p.has 0x10 then .ok p
  else if p.devcap &&& 1 <<< 5 = 0 then .ok p
  else do
    let (fn, devctl) ← (p.io 0x10).readDword p.fn 8
    let fn ← if devctl &&& 1 <<< 8 = 0 then (p.io 0x10).writeDword fn 8 (devctl ||| 1 <<< 8) else .ok fn
    return { p with fn }

/-- pci.py:803-809 `configure_serr`. -/
def configureSerr (p : CfgPort S) : Py (CfgPort S) :=
  if p.headerType ≠ 0x01 then .ok p
  else do
    let (fn, ctrl) ← p.cfgIo.readWord p.fn 0x3e
    let fn ← if ctrl &&& 0x02 = 0 then p.cfgIo.writeWord fn 0x3e (ctrl ||| 0x02) else .ok fn
    return { p with fn }

/-- pci.py:721-756 `configure_mps`; `bridge` is the bridge above the bus (`none` on the root bus, 401-404, where the bridge is the host bridge, with
`max_payload_size` = `host`). A root port on another bus than the root bus raises, because a `PciDevice` has no `max_payload_size`. -/
def configureMps (host : Int) (bridge : Option (CfgPort S)) (p : CfgPort S) : Py (Option (CfgPort S) × CfgPort S) :=
  if ¬ p.has 0x10 then .ok (bridge, p)
  else if p.ptype = 0x9 then do return (bridge, ← p.setMps p.mpss)
  else if p.ptype = 0x4 then
    match bridge with
    | some _ => .error "AttributeError"
    | none => do return (bridge, ← p.setMps host)
  else
    match bridge with
    | none => .ok (bridge, p)
    | some b =>
      if ¬ b.has 0x10 then .ok (bridge, p)
      else do
        let (p, mps) ← p.getMps
        let (b, parent) ← b.getMps
        if mps = parent then .ok (some b, p)
        else if p.mpss < parent ∧ b.ptype = 0x4 then do
          let b ← b.setMps (min p.mpss b.mpss : Nat)
          let (b, parent) ← b.getMps
          return (some b, ← p.setMps (min parent p.mpss : Nat))
        else do return (some b, ← p.setMps (min parent p.mpss : Nat))

/-- pci.py:716-719 `configure_device`. -/
def configureDevice (host : Int) (bridge : Option (CfgPort S)) (p : CfgPort S) : Py (Option (CfgPort S) × CfgPort S) := do
  let (bridge, p) ← configureMps host bridge p
  let p ← p.configureTags
  return (bridge, ← p.configureSerr)

end CfgPort
end Pcie
