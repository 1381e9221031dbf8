/-
Enumeration of the whole hierarchy (rc.py:868-898, pci.py:50-72): bus scan, BAR sizing and assignment of addresses, one after
the other, and the hierarchy of `Model/Fabric.lean` as the buses that the scan sees.

Simplification: `read_bars` of a function is done during the scan in the code (pci.py:655), here after it; the two access
different registers.
-/
import Verif.Model.Scan
import Verif.Model.Fabric
namespace Pcie
variable {σ : Type}

/-- The functions of a scanned bus in the order in which they are in `PciBus.devices`, as `setup` creates them. -/
def Phys.bus : Phys σ → Bus σ
  | .nil => .nil
  | .ep _ _ f rest => .ep f {} rest.bus
  | .br _ _ _ f child rest => .br f {} child.bus rest.bus

/-- The same hierarchy with the registers of the functions in `b`. -/
def Phys.withRegs : Phys σ → Bus σ → Phys σ
  | .ep d fn _ rest, .ep f _ rest' => .ep d fn f (rest.withRegs rest')
  | .br d fn dsp _ child rest, .br f _ child' rest' => .br d fn dsp f (child.withRegs child') (rest.withRegs rest')
  | t, _ => t

/-- rc.py:874-888 and pci.py:50-72 `probe`: the hierarchy after `enumerate`, and the limits of the host bridge. -/
def enumerate (ops : CapOps σ) (fuel : Nat) (b : Phys σ) : Py (Phys σ × Limits) := do
  let (t, _, _) ← scanRoot ops fuel b
  let b1 ← readBus ops t.bus
  let (b2, l) ← assignBus ops b1 hostLimits
  pure (t.withRegs b2, l)

/-- rc.py:890-895: what `enumerate` writes to the host bridge. The limits, which are the first addresses behind the ranges,
are written as they are, although the limits of a bridge are the last addresses of its ranges (bridge.py:293-301). -/
def BrFn.setHost (b : BrFn σ) (l : Limits) : BrFn σ :=
  { b with ioBase := hostLimits.io, ioLimit := l.io, memBase := hostLimits.mem, memLimit := l.mem
           prefBase := hostLimits.pref, prefLimit := l.pref }

mutual
/-- The bus on the link above the node: the functions of the device (device.py:89-106), or the upstream port of the switch,
with the internal bus of the switch behind it. -/
def Node.bus : Node σ → Phys σ
  | .none => .nil
  | .dev _ fns => fns.foldr (fun f rest => .ep f.id.device f.id.function f.toEp rest) .nil
  | .sw up ports => .br up.id.device up.id.function false up.toBr ports.bus .nil
/-- The internal bus of the switch: its downstream ports (switch.py:113-158), each with the bus on its link. -/
def Ports.bus : Ports σ → Phys σ
  | .nil => .nil
  | .cons b n rest => .br b.id.device b.id.function true b.toBr n.bus rest.bus
end

/-- The functions of the device with the registers in `t`, on bus `m`. -/
def setupFns (m : Nat) : List (EpFn σ) → Phys σ → List (EpFn σ)
  | f :: fns, .ep _ _ g rest => { f with toEp := g, id := { f.id with bus := m } } :: setupFns m fns rest
  | fns, _ => fns

mutual
/-- The hierarchy with the registers in `t`. The functions have taken the number of the bus that they are on, `m`, from the
configuration requests that they got (device.py:117-119, function.py:550-554, 578-582). -/
def Node.setup (m : Nat) : Node σ → Phys σ → Node σ
  | .dev _ fns, t => .dev m (setupFns m fns t)
  | .sw up ports, .br _ _ _ f child _ => .sw { up with toBr := f, id := { up.id with bus := m } } (ports.setup f.secBus child)
  | n, _ => n
@[inherit_doc Node.setup] def Ports.setup (m : Nat) : Ports σ → Phys σ → Ports σ
  | .cons b n rest, .br _ _ _ f child rest' =>
    .cons { b with toBr := f, id := { b.id with bus := m } } (n.setup f.secBus child) (rest.setup m rest')
  | p, _ => p
end

/-- rc.py:868-898: `enumerate`, on the root complex with the host bridge `host` and what is connected to its root ports:
the hierarchy afterwards, and the limits of the host bridge. -/
def enumerateAll (ops : CapOps σ) (fuel : Nat) (host : BrFn σ) (ports : Ports σ) : Py (Node σ × Limits) := do
  let (t, l) ← enumerate ops fuel ports.bus
  pure (.sw (host.setHost l) (ports.setup 0 t), l)

end Pcie
