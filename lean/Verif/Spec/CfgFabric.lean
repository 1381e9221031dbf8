/- What a hierarchy must be like for configuration accesses to work, whatever its bus numbers are. -/
import Verif.Model.CfgFabric
namespace Pcie.Spec
open Pcie
variable {σ : Type}

/-- A function handles configuration requests. -/
def CfgHandlers (hs : List TlpType) : Prop := .CFG_READ_0 ∈ hs ∧ .CFG_WRITE_0 ∈ hs

/-- A bridge below the root complex: it handles configuration requests; if it has been given bus numbers, then by a configuration
request, from which it has taken its own number. -/
structure CfgBridge (b : BrFn σ) : Prop where
  notRoot : b.root = false
  handlers : CfgHandlers b.handlers
  taken : b.subBus ≠ 0 → b.id ≠ ⟨0, 0, 0⟩

mutual
/-- All functions and bridges are like this. -/
def CfgNode : Node σ → Prop
  | .none => True
  | .dev _ fns => ∀ f ∈ fns, CfgHandlers f.handlers
  | .sw up ports => CfgBridge up ∧ CfgPorts ports
@[inherit_doc CfgNode] def CfgPorts : Ports σ → Prop
  | .nil => True
  | .cons b n rest => CfgBridge b ∧ CfgNode n ∧ CfgPorts rest
end

/-- The host bridge (bridge.py:511-530): it has all bus numbers behind it. -/
structure CfgHost (host : BrFn σ) : Prop where
  root : host.root = true
  buses : host.secBus = 0 ∧ host.subBus = 255

/-- The number of a function that can be reached: not that of the host bridge itself. -/
def CfgId (id : PcieId) : Prop := id.bus ≤ 255 ∧ id ≠ ⟨0, 0, 0⟩

/-- The registers of a function, of whatever kind it is. -/
def fnWrite (ops : CapOps σ) : Fn σ → (reg v mask : Nat) → Fn σ
  | .ep f, reg, v, mask => .ep (f.write ops reg v mask)
  | .br dsp f, reg, v, mask => .br dsp (f.write ops reg v mask)
@[inherit_doc fnWrite] def fnOps (ops : CapOps σ) : CapOps (Fn σ) := ⟨Fn.read ops, fnWrite ops⟩

/-- Whether a function with the number `own` takes a request on its bus for `id`. -/
def takes (z : Bool) (own id : PcieId) : Prop := z = true ∧ own.device = id.device ∧ own.function = id.function
instance (z : Bool) (own id : PcieId) : Decidable (takes z own id) := by unfold takes; infer_instance

mutual
/-- The number that the function has which a configuration request for `id` gets to; `z`: it is a type 0 request. The bus
number of a device (`Device.bus_num`) must be the one of its function. -/
def _root_.Pcie.Node.idAt (z : Bool) (id : PcieId) : Node σ → Option PcieId
  | .none => none
  | .dev bus fns => (fns.find? fun f => takes z f.id id).bind fun f => if f.id.bus = bus then some f.id else none
  | .sw up ports =>
    if takes z up.id id then some up.id
    else if z = false ∧ Phys.behind up.toBr id = true then ports.idAt (id.bus = up.secBus) id else none
@[inherit_doc Pcie.Node.idAt] def _root_.Pcie.Ports.idAt (z : Bool) (id : PcieId) : Ports σ → Option PcieId
  | .nil => none
  | .cons b n rest =>
    if takes z b.id id then some b.id
    else if z = false ∧ Phys.behind b.toBr id = true then n.idAt (id.bus = b.secBus) id else rest.idAt z id
end

mutual
/-- Every function of the hierarchy has taken the number of the bus that it is on; `m` is the bus on the link above. -/
def _root_.Pcie.Node.Numbered (m : Nat) : Node σ → Prop
  | .none => True
  | .dev bus fns => bus = m ∧ ∀ f ∈ fns, f.id.bus = m
  | .sw up ports => up.id.bus = m ∧ ports.Numbered up.secBus
@[inherit_doc Pcie.Node.Numbered] def _root_.Pcie.Ports.Numbered (m : Nat) : Ports σ → Prop
  | .nil => True
  | .cons b n rest => b.id.bus = m ∧ n.Numbered b.secBus ∧ rest.Numbered m
end

mutual
/-- Every device has at least one function. -/
def _root_.Pcie.Node.Filled : Node σ → Prop
  | .none => True
  | .dev _ fns => fns ≠ []
  | .sw _ ports => ports.Filled
@[inherit_doc Pcie.Node.Filled] def _root_.Pcie.Ports.Filled : Ports σ → Prop
  | .nil => True
  | .cons _ n rest => n.Filled ∧ rest.Filled
end

/-- The registers of an endpoint or a bridge, replaced by those of a function of the same kind. -/
def Ep.replacedBy (f : Ep σ) : Fn σ → Ep σ
  | .ep f' => f'
  | .br _ _ => f
@[inherit_doc Ep.replacedBy] def Br.replacedBy (f : Br σ) : Fn σ → Br σ
  | .ep _ => f
  | .br _ f' => f'

/-- The hierarchy in which the function that the request gets to has other registers. -/
def replaceAt (x : Fn σ) : Phys σ → (t0 : Bool) → PcieId → Phys σ
  | .nil, _, _ => .nil
  | .ep d fn f rest, t0, id =>
    if t0 = true ∧ d = id.device ∧ fn = id.function then .ep d fn (Ep.replacedBy f x) rest
    else .ep d fn f (replaceAt x rest t0 id)
  | .br d fn dsp f child rest, t0, id =>
    if t0 = true ∧ d = id.device ∧ fn = id.function then .br d fn dsp (Br.replacedBy f x) child rest
    else if t0 = false ∧ Phys.behind f id = true then .br d fn dsp f (replaceAt x child (id.bus = f.secBus) id) rest
    else .br d fn dsp f child (replaceAt x rest t0 id)

end Pcie.Spec
