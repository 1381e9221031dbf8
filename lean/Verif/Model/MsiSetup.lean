/-
How the host sets up interrupts through configuration space: the calls of pci.py:810-1047 as sequences of configuration requests that the functions answer.
(Model/Msi.lean has the same calls acting on the registers directly.)
-/
import Verif.Model.Msi
import Verif.Model.CapSpace
import Verif.Model.Words
namespace Pcie
variable {S : Type}

/-- A function and what the host knows about it (`PciDevice`, pci.py:330-352): `fn` is the function, with the behaviour of its capabilities in `beh` and `behx`
and the tags of the requests in `tag`; `dev` its ID, `caps` the capabilities found by `pci_device_init_capabilities`. `mem` is the memory behind its BARs, in dwords by
BAR and byte address. -/
structure IrqPort (S : Type) where
  fn : Cfg.Fn (Fn (CapSpace S))
  beh : Nat → CapOps S
  behx : Nat → CapOps S
  tag : Tlp → Nat
  dev : PcieId
  caps : List (Nat × Nat)
  mem : Nat → Nat → Nat := fun _ _ => 0
  vecs : List MsiVec := []
  msiEnabled : Bool := false
  msixEnabled : Bool := false

namespace IrqPort

/-- pci.py:417-418, 445-446: configuration accesses to the function (rc.py:565-646). -/
def cfgIo (p : IrqPort S) : ByteIo (Cfg.Fn (Fn (CapSpace S))) where
  read w addr length := Cfg.read (Cfg.Fn.op (Fn.ops (CapSpace.ops p.beh p.behx)) p.tag) w p.dev addr length
  write w addr data := .ok (Cfg.write (Cfg.Fn.op (Fn.ops (CapSpace.ops p.beh p.behx)) p.tag) w p.dev addr data)

/-- pci.py:473-537: accesses to a capability of the function. -/
def io (p : IrqPort S) (id : Nat) : ByteIo (Cfg.Fn (Fn (CapSpace S))) := p.cfgIo.atCap (HostCaps.offset p.caps id)

/-- `if not self.get_capability_offset(id)`. -/
def has (p : IrqPort S) (id : Nat) : Bool :=
  match HostCaps.offset p.caps id with
  | none | some 0 => false
  | some _ => true

/-- pci.py:828-836 `msi_set_enable`. -/
def msiSetEnable (p : IrqPort S) (enable : Bool) : Py (IrqPort S) := do
  let (fn, old) ← (p.io 0x05).readWord p.fn 2
  let ctrl := if enable then old ||| 1 else andNot old 1
  let fn ← if ctrl ≠ old then (p.io 0x05).writeWord fn 2 ctrl else .ok fn
  return { p with fn, msiEnabled := enable }

/-- pci.py:838-880 `msi_capability_init`. -/
def msiInit (r : MsiRegion) (p : IrqPort S) : Py (MsiRegion × IrqPort S) := do
  let p ← p.msiSetEnable false
  let p := { p with msiEnabled := true }
  let (vecs, r) := if p.vecs = [] then r.alloc 32 else (p.vecs, r)
  let p := { p with vecs }
  let (fn, ctrl) ← (p.io 0x05).readDword p.fn 0
  let is64 := ctrl >>> 23 &&& 1
  let mmcap := ctrl >>> 17 &&& 7
  match vecs with
  | [] => .error "IndexError"
  | v :: _ =>
    let fn ← (p.io 0x05).writeDword fn 4 (v.addr &&& 0xfffffffc)
    let fn ← if is64 ≠ 0 then do
        let fn ← (p.io 0x05).writeDword fn 8 (v.addr >>> 32 &&& 0xffffffff)
        (p.io 0x05).writeDword fn 12 v.data
      else (p.io 0x05).writeDword fn 8 v.data
    let ctrl := ctrl ||| 1 <<< 16
    let ctrl := andNot ctrl (7 <<< 20) ||| mmcap <<< 20
    let fn ← (p.io 0x05).writeDword fn 0 ctrl
    let p ← msiSetEnable { p with fn } true
    return (r, p)

/-- pci.py:882-911 `enable_msi_range`, with 821-826 `msi_vec_count`; the result of the Python function is not modelled. -/
def enableMsi (r : MsiRegion) (p : IrqPort S) (minVecs maxVecs : Nat) : Py (MsiRegion × IrqPort S) :=
  if ¬ p.has 0x05 then .ok (r, p)
  else if p.msixEnabled then .ok (r, p)
  else if maxVecs < minVecs then .ok (r, p)
  else if p.msiEnabled then .ok (r, p)
  else do
    let (fn, ctrl) ← (p.io 0x05).readWord p.fn 2
    let p := { p with fn }
    if 1 <<< (ctrl >>> 1 &&& 0x7) < minVecs then .ok (r, p) else msiInit r p

/-- pci.py:913-917 `disable_msi`. -/
def disableMsi (p : IrqPort S) : Py (IrqPort S) := if ¬ p.msiEnabled then .ok p else p.msiSetEnable false

/-- pci.py:932-940 `msix_set_enable`. -/
def msixSetEnable (p : IrqPort S) (enable : Bool) : Py (IrqPort S) := do
  let (fn, old) ← (p.io 0x11).readWord p.fn 2
  let ctrl := if enable then old ||| 0x8000 else andNot old 0x8000
  let fn ← if ctrl ≠ old then (p.io 0x11).writeWord fn 2 ctrl else .ok fn
  return { p with fn, msixEnabled := enable }

/-- pci.py:942-989 `msix_capability_init`. The writes through the BAR window are those of `IrqFn.tableLoop`; the BAR is assumed to exist. -/
def msixInit (r : MsiRegion) (p : IrqPort S) : Py (MsiRegion × IrqPort S) := do
  let p ← p.msixSetEnable false
  let p := { p with msixEnabled := true }
  let (fn, ctrl) ← (p.io 0x11).readDword p.fn 0
  let size := (ctrl >>> 16 &&& 0x7ff) + 1
  let (fn, table) ← (p.io 0x11).readDword fn 4
  let bir := table &&& 0x7
  let off := andNot table 0x7
  let (fn, _) ← (p.io 0x11).readDword fn 8
  let (vecs, r) := if p.vecs = [] then r.alloc size else (p.vecs, r)
  let mem ← IrqFn.tableLoop vecs bir off 0 size p.mem
  let fn ← (p.io 0x11).writeDword fn 0 (ctrl ||| 1 <<< 31)
  let p ← msixSetEnable { p with fn, vecs, mem } true
  return (r, p)

/-- pci.py:991-1020 `enable_msix_range`, with 925-930 `msix_vec_count`. -/
def enableMsix (r : MsiRegion) (p : IrqPort S) (minVecs maxVecs : Nat) : Py (MsiRegion × IrqPort S) :=
  if ¬ p.has 0x11 then .ok (r, p)
  else if p.msiEnabled then .ok (r, p)
  else if maxVecs < minVecs then .ok (r, p)
  else if p.msixEnabled then .ok (r, p)
  else do
    let (fn, ctrl) ← (p.io 0x11).readWord p.fn 2
    let p := { p with fn }
    if (ctrl &&& 0x7ff) + 1 < minVecs then .ok (r, p) else msixInit r p

/-- pci.py:1022-1026 `disable_msix`. -/
def disableMsix (p : IrqPort S) : Py (IrqPort S) := if ¬ p.msixEnabled then .ok p else p.msixSetEnable false

/-- pci.py:1028-1040 `alloc_irq_vectors`: MSI-X, and MSI if that did not enable anything. -/
def allocIrq (r : MsiRegion) (p : IrqPort S) (minVecs maxVecs : Nat) : Py (MsiRegion × IrqPort S) := do
  let (r, p') ← enableMsix r p minVecs maxVecs
  if p'.msixEnabled ∧ ¬ p.msixEnabled ∧ 0 < maxVecs then return (r, p') else enableMsi r p' minVecs maxVecs

end IrqPort

/-- Any number of functions, the region of the host, and the callbacks of the vectors. -/
structure IrqHost (S : Type) where
  region : MsiRegion := {}
  fns : Nat → IrqPort S
  cbs : Nat → List Nat := fun _ => []

namespace IrqHost

def setFn (s : IrqHost S) (f : Nat) (x : MsiRegion × IrqPort S) : IrqHost S :=
  { s with region := x.1, fns := fun g => if g = f then x.2 else s.fns g }

/-- The calls, as in `IrqSys.run`. -/
def run (s : IrqHost S) : IrqOp → Py (IrqHost S)
  | .alloc num => .ok { s with region := (s.region.alloc num).2 }
  | .enableMsi f lo hi => do return s.setFn f (← (s.fns f).enableMsi s.region lo hi)
  | .enableMsix f lo hi => do return s.setFn f (← (s.fns f).enableMsix s.region lo hi)
  | .allocIrq f lo hi => do return s.setFn f (← (s.fns f).allocIrq s.region lo hi)
  | .freeIrq f => do
    let p ← (s.fns f).disableMsi
    return s.setFn f (s.region, ← p.disableMsix)
  | .request f nr h =>
    match (s.fns f).vecs[nr]? with
    | none => .error "IndexError"
    | some v => .ok { s with cbs := fun i => if i = v.id then s.cbs i ++ [h] else s.cbs i }

end IrqHost
end Pcie
