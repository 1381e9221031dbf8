/-
The bus scan: finding the functions and numbering the buses (pci.py:74-226), over the routing of configuration requests by
the bus number registers of the bridges.
-/
import Verif.Model.Enum
namespace Pcie

/-- A function that answers configuration requests: an endpoint, or a bridge. `dsp`: the bridge is a PCI Express
downstream port (`is_pcie() and is_downstream_port()`, pci.py:392-399). -/
inductive Fn (σ : Type) where
  | ep (f : Ep σ)
  | br (dsp : Bool) (f : Br σ)

/-- `read_config_register` of the function. -/
def Fn.read {σ} (ops : CapOps σ) : Fn σ → Nat → Nat
  | .ep f, r => f.read ops r
  | .br _ f, r => f.read ops r

/-- A bus: the functions on it with their device and function numbers; a bridge has another bus behind it. -/
inductive Phys (σ : Type) where
  | nil
  | ep (dev fn : Nat) (f : Ep σ) (rest : Phys σ)
  | br (dev fn : Nat) (dsp : Bool) (f : Br σ) (child rest : Phys σ)

namespace Phys
variable {σ : Type}

/-- bridge.py:284-285: a type 1 configuration request is for the buses behind the bridge. -/
def behind (f : Br σ) (id : PcieId) : Bool := f.secBus ≤ id.bus ∧ id.bus ≤ f.subBus ∧ id ≠ ⟨0, 0, 0⟩

/-- All functions which a configuration request on this bus gets to. A type 0 request (`t0`) is for the function with its
device and function number (function.py:397-399); a type 1 request goes through the bridges whose range of buses contains
its bus number, and becomes a type 0 request on the secondary bus (bridge.py:284-285, 344-349). That bridges, devices and
switches treat requests like this is C26, C27 and C45; where a switch takes only the first port that matches, this list
has all of them. -/
def at_ : Phys σ → (t0 : Bool) → PcieId → List (Fn σ)
  | nil, _, _ => []
  | ep d fn f rest, t0, id =>
    (if t0 ∧ d = id.device ∧ fn = id.function then [.ep f] else []) ++ rest.at_ t0 id
  | br d fn dsp f child rest, t0, id =>
    (if t0 then if d = id.device ∧ fn = id.function then [.br dsp f] else []
      else if behind f id then child.at_ (id.bus = f.secBus) id else []) ++ rest.at_ t0 id

/-- How many functions or bridges on this bus take the request. -/
def takers : Phys σ → (t0 : Bool) → PcieId → Nat
  | nil, _, _ => 0
  | ep d fn _ rest, t0, id => (if t0 ∧ d = id.device ∧ fn = id.function then 1 else 0) + rest.takers t0 id
  | br d fn _ f _ rest, t0, id =>
    (if t0 then if d = id.device ∧ fn = id.function then 1 else 0 else if behind f id then 1 else 0) + rest.takers t0 id

/-- On its way the request is never taken by two functions or bridges of one bus, of which a switch (switch.py:175-196) or
a device (device.py:121-124) would give it to the first only. -/
def clear : Phys σ → (t0 : Bool) → PcieId → Bool
  | nil, _, _ => true
  | ep d fn _ rest, t0, id => (!(t0 && d = id.device && fn = id.function) || rest.takers t0 id = 0) && rest.clear t0 id
  | br d fn _ f child rest, t0, id =>
    (if t0 then !(decide (d = id.device ∧ fn = id.function)) || rest.takers t0 id = 0
      else !(behind f id) || (rest.takers t0 id = 0 && child.clear (id.bus = f.secBus) id)) && rest.clear t0 id

/-- The tree after a dword configuration write to register `reg`, routed like `at_`. -/
def write (ops : CapOps σ) (reg v : Nat) : Phys σ → (t0 : Bool) → PcieId → Phys σ
  | nil, _, _ => nil
  | ep d fn f rest, t0, id =>
    ep d fn (if t0 ∧ d = id.device ∧ fn = id.function then f.write ops reg v 0xf else f) (rest.write ops reg v t0 id)
  | br d fn dsp f child rest, t0, id =>
    br d fn dsp (if t0 ∧ d = id.device ∧ fn = id.function then f.write ops reg v 0xf else f)
      (if ¬ t0 ∧ behind f id then child.write ops reg v (id.bus = f.secBus) id else child) (rest.write ops reg v t0 id)

end Phys

variable {σ : Type}

/-- rc.py:565-603 `config_read` of one register. The host bridge (secondary bus 0, bridge.py:522-523) makes requests
for bus 0 type 0 requests. No answer and an unsupported request read as all ones. What the first of several takers of a
request does is not described here (it is in `Node.cfg`): a request that has several on some bus is an error. A register
value that is not a dword is an error too (`struct.pack`, function.py:563). -/
def cfgRead (ops : CapOps σ) (t : Phys σ) (id : PcieId) (reg : Nat) : Py Nat :=
  if t.clear (id.bus = 0) id then
    match t.at_ (id.bus = 0) id with
    | [] => .ok 0xffffffff
    | [f] => if f.read ops reg < 2 ^ 32 then .ok (f.read ops reg) else .error "struct.error"
    | _ => .error "ambiguous"
  else .error "ambiguous"

/-- rc.py:630-646 `config_write` of one register; `int.to_bytes(4)` raises if the value does not fit. -/
def cfgWrite (ops : CapOps σ) (t : Phys σ) (id : PcieId) (reg v : Nat) : Py (Phys σ) :=
  if v < 2 ^ 32 then
    if t.clear (id.bus = 0) id then
      match t.at_ (id.bus = 0) id with
      | [] => .ok t
      | [_] => .ok (t.write ops reg v (id.bus = 0) id)
      | _ => .error "ambiguous"
    else .error "ambiguous"
  else .error "OverflowError"

/-- Whether the function is a PCI Express downstream port (from its PCI Express capability registers). -/
def cfgDsp (t : Phys σ) (id : PcieId) : Bool :=
  match t.at_ (id.bus = 0) id with
  | [.br dsp _] => dsp
  | _ => false

/-- A `PciDevice` as `scan` creates it: its number, `is_bridge()` and `is_downstream_port()`. -/
structure PDev where
  id : PcieId
  bridge : Bool
  dsp : Bool
deriving DecidableEq, Repr

/-- pci.py:169-189: the loop over the functions of a device. Of `setup` (pci.py:620-672) this has the reading of the
header type; what else it does to the registers (BAR sizing, capabilities) leaves the bus numbers alone. -/
def probeFns (ops : CapOps σ) (t : Phys σ) (n d : Nat) : List Nat → Py (List PDev)
  | [] => .ok []
  | f :: fs => do
    let v ← cfgRead ops t ⟨n, d, f⟩ 0
    if v = 0xffffffff then probeFns ops t n d fs
    else
      let h := (← cfgRead ops t ⟨n, d, f⟩ 3) >>> 16 &&& 0xff
      let dev : PDev := ⟨⟨n, d, f⟩, h &&& 0x7f = 1 ∨ h &&& 0x7f = 2, cfgDsp t ⟨n, d, f⟩⟩
      if h &&& 0x80 = 0 then pure [dev]
      else
        let rs ← probeFns ops t n d fs
        pure (dev :: rs)

/-- pci.py:143-193: the loop over the device numbers. `one`: `only_one_child()`. A device that answers with completion
retry status (its vendor ID reads 0xffff0001) is in Model/Crs.lean. -/
def probeDevs (ops : CapOps σ) (t : Phys σ) (n : Nat) (one : Bool) : List Nat → Py (List PDev)
  | [] => .ok []
  | d :: ds =>
    if n = 0 ∧ d = 0 then probeDevs ops t n one ds
    else if 255 < n then .error "ValueError"
    else do
      let v ← cfgRead ops t ⟨n, d, 0⟩ 0
      if v = 0 ∨ v = 0xffffffff ∨ v = 0xffff0000 ∨ v = 0x0000ffff then probeDevs ops t n one ds
      else if v = 0xffff0001 then .error "CRS"
      else
        let fs ← probeFns ops t n d (List.range 8)
        if one then pure fs
        else
          let rs ← probeDevs ops t n one ds
          pure (fs ++ rs)

/-- The value written to the bus number register (pci.py:214, 222). -/
def busesReg (old pri sec sub : Nat) : Nat := old &&& 0xff000000 ||| pri <<< 0 ||| sec <<< 8 ||| sub <<< 16

/-- pci.py:195-226: the recursion into the bridges among the devices of bus `n`, with `scan_bridge`; `child` is
`child.scan()`. The results are the tree, `last_bus` and the functions found below. -/
def scanBridges (ops : CapOps σ) (child : Phys σ → Nat → Bool → Py (Phys σ × Nat × List PcieId)) (n : Nat) :
    List PDev → Phys σ → Nat → Py (Phys σ × Nat × List PcieId)
  | [], t, last => .ok (t, last, [])
  | dev :: ds, t, last =>
    if dev.bridge then do
      let buses ← cfgRead ops t dev.id 6
      let buses := busesReg buses n (last + 1) 0xff
      let t ← cfgWrite ops t dev.id 6 buses
      let (t, last', ids) ← child t (last + 1) dev.dsp
      let t ← cfgWrite ops t dev.id 6 (busesReg buses n (last + 1) last')
      let (t, last'', ids') ← scanBridges ops child n ds t last'
      pure (t, last'', ids ++ ids')
    else scanBridges ops child n ds t last

/-- pci.py:145-202 `scan`. The recursion is bounded by `fuel`, which the Python code does not have; running out of it is
an error. -/
def scan (ops : CapOps σ) : (fuel : Nat) → Phys σ → (n : Nat) → (one : Bool) → Py (Phys σ × Nat × List PcieId)
  | 0, _, _, _ => .error "fuel"
  | fuel + 1, t, n, one => do
    let ds ← probeDevs ops t n one (List.range 32)
    let (t, last, ids) ← scanBridges ops (scan ops fuel) n ds t n
    pure (t, last, ds.map (·.id) ++ ids)

/-- pci.py:63-65 `PciHostBridge.scan`: the scan starts at bus 0, which is not behind a downstream port. -/
def scanRoot (ops : CapOps σ) (fuel : Nat) (t : Phys σ) : Py (Phys σ × Nat × List PcieId) := scan ops fuel t 0 false

end Pcie
