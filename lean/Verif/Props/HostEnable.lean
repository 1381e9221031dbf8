/- C72: enabling devices after enumeration. -/
import Verif.Lemmas.HostEnable
import Verif.Lemmas.HierEx
namespace Pcie
open Spec Phys
variable {σ : Type}

/-- C72: after enumeration, any sequence of `enable_device`, `disable_device`, `set_master` and `clear_master` for devices that
were found succeeds and changes the command registers only; a function decodes I/O and memory addresses as before, or does
so from now on, and the latter exactly if `enable_device` was called for it or for a function behind it. -/
theorem C72_decode (ops : CapOps σ) (tag : Tlp → Nat) (host : BrFn σ) (ports : Ports σ) (rs : List Region) (hr : AfterReset host ports rs)
    (hh : CfgHost host) (hp : CfgPorts ports) (hfill : ports.Filled) (ht : Typed ports.bus) (fuel : Nat) (hd : depth ports.bus < fuel)
    (n : Node σ) (l : Limits) (h : enumerateAll ops fuel host ports = .ok (n, l)) (hl : Fits l) :
    ∃ tree up ports', Node.enumerate ops tag fuel host ports = .ok (.sw up ports', tree, l) ∧
      ∀ cs : List Host.Call, (∀ c ∈ cs, ∃ x, On 0 ports'.bus (device c).bus ((device c).device, (device c).function, x)) →
        ∃ ports'' s c, (Host.calls tree cs {}).run ops tag (.sw up ports') = .ok (.sw up ports'', s) ∧ CfgPorts ports'' ∧
          ports''.bus = withCtl c 0 ports'.bus ∧
          ∀ id, (c id).decode = true ↔ ∃ id', .enable id' ∈ cs ∧ (id = id' ∨ ∃ as, Chain 0 ports'.bus id' as ∧ id ∈ as) := by
  obtain ⟨tree, up, ports', A, h1, h2, h3, -, h5⟩ := calls_host ops tag hr hh hp hfill ht hd h hl
  refine ⟨tree, up, ports', h1, fun cs hcs => ?_⟩
  obtain ⟨ports'', r1, r2, r3⟩ := h5 cs hcs
  refine ⟨ports'', _, _, r1, r2, r3, fun id => ?_⟩
  rw [h2.calls_decode cs _ (fun _ _ hc => absurd hc (Int.lt_irrefl 0)) hcs id]
  constructor
  · rintro (h | ⟨i, hi, h⟩)
    · cases h
    · exact ⟨i, hi, h.imp_right fun h => ⟨_, (h3 i (hcs _ hi) _).2 rfl, h⟩⟩
  · rintro ⟨i, hi, h⟩
    refine .inr ⟨i, hi, h.imp_right fun ⟨as, ha, hm⟩ => ?_⟩
    rwa [(h3 i (hcs _ hi) as).1 ha] at hm

/-- C72: an endpoint function is a bus master as the calls for this function say, whatever is done with other functions; the
attribute `is_busmaster` of every device tells if the host made it a bus master. -/
theorem C72_master (ops : CapOps σ) (tag : Tlp → Nat) (host : BrFn σ) (ports : Ports σ) (rs : List Region) (hr : AfterReset host ports rs)
    (hh : CfgHost host) (hp : CfgPorts ports) (hfill : ports.Filled) (ht : Typed ports.bus) (fuel : Nat) (hd : depth ports.bus < fuel)
    (n : Node σ) (l : Limits) (h : enumerateAll ops fuel host ports = .ok (n, l)) (hl : Fits l) :
    ∃ tree up ports', Node.enumerate ops tag fuel host ports = .ok (.sw up ports', tree, l) ∧
      ∀ cs : List Host.Call, (∀ c ∈ cs, ∃ x, On 0 ports'.bus (device c).bus ((device c).device, (device c).function, x)) →
        ∃ ports'' s c, (Host.calls tree cs {}).run ops tag (.sw up ports') = .ok (.sw up ports'', s) ∧
          ports''.bus = withCtl c 0 ports'.bus ∧
          (∀ id f, On 0 ports'.bus id.bus (id.device, id.function, .ep f) →
            (s.cnt id, (c id).master) = cs.foldl (masterOf id) (0, none)) ∧
          ∀ id, s.master id = decide ((c id).master = some true) := by
  obtain ⟨tree, up, ports', A, h1, -, -, h4, h5⟩ := calls_host ops tag hr hh hp hfill ht hd h hl
  refine ⟨tree, up, ports', h1, fun cs hcs => ?_⟩
  obtain ⟨ports'', r1, r2, r3⟩ := h5 cs hcs
  exact ⟨ports'', _, _, r1, r3, fun id f hf => Above.calls_master (h4 id f hf) cs _ hcs, flag_calls cs (fun _ => rfl)⟩

/-- C72, as far as it holds: a bridge for which none of the functions is called is a bus master after `enable_device` for a
function behind it; if there is no such call it is one if it was one before. -/
theorem C72_bridges_partial (ops : CapOps σ) (tag : Tlp → Nat) (host : BrFn σ) (ports : Ports σ) (rs : List Region) (hr : AfterReset host ports rs)
    (hh : CfgHost host) (hp : CfgPorts ports) (hfill : ports.Filled) (ht : Typed ports.bus) (fuel : Nat) (hd : depth ports.bus < fuel)
    (n : Node σ) (l : Limits) (h : enumerateAll ops fuel host ports = .ok (n, l)) (hl : Fits l) :
    ∃ tree up ports', Node.enumerate ops tag fuel host ports = .ok (.sw up ports', tree, l) ∧
      ∀ cs : List Host.Call, (∀ c ∈ cs, ∃ x, On 0 ports'.bus (device c).bus ((device c).device, (device c).function, x)) →
        ∃ ports'' s c, (Host.calls tree cs {}).run ops tag (.sw up ports') = .ok (.sw up ports'', s) ∧
          ports''.bus = withCtl c 0 ports'.bus ∧
          ∀ b, (∃ x, On 0 ports'.bus b.bus (b.device, b.function, x)) → (∀ c ∈ cs, device c ≠ b) →
            ((∃ id as, .enable id ∈ cs ∧ Chain 0 ports'.bus id as ∧ b ∈ as) → (c b).master = some true) ∧
            ((∀ id as, .enable id ∈ cs → Chain 0 ports'.bus id as → b ∉ as) → (c b).master = none) := by
  obtain ⟨tree, up, ports', A, h1, h2, h3, -, h5⟩ := calls_host ops tag hr hh hp hfill ht hd h hl
  refine ⟨tree, up, ports', h1, fun cs hcs => ?_⟩
  obtain ⟨ports'', r1, r2, r3⟩ := h5 cs hcs
  refine ⟨ports'', _, _, r1, r3, fun b hb hn => ?_⟩
  obtain ⟨k1, k2, -⟩ := h2.calls_bridge hb cs ({}, fun _ => {}) (fun _ _ hc => absurd hc (Int.lt_irrefl 0)) (fun c hc => ⟨hcs c hc, hn c hc⟩)
  refine ⟨fun ⟨id, as, hi, ha, hm⟩ => k1 ⟨id, hi, ?_⟩, fun hno => k2 fun id hi => hno id _ hi ((h3 id (hcs _ hi) _).2 rfl)⟩
  rwa [(h3 id (hcs _ hi) as).1 ha] at hm

/-! The hierarchy of the examples of C54. -/

namespace HostEnableEx
open HierEx

/-- The function after the calls: I/O and memory enable, and bus master. -/
def after (cs : List Host.Call) (id : PcieId) : Option (Bool × Bool × Bool) :=
  match Node.enumerate noCaps (fun _ => 5) 5 exHost exPorts with
  | .ok (n, t, _) => match (Host.calls t cs {}).run noCaps (fun _ => 5) n with
    | .ok (.sw _ ports, _) => (ports.bus.first (decide (id.bus = 0)) id).map fun x => ((common x).ioEnable, (common x).memEnable, (common x).busMaster)
    | _ => none
  | _ => none

end HostEnableEx

open HostEnableEx

/-- C72 is violated: `enable_device` for a switch port, then for a device behind it: the port is not a bus master, and never
will be by further calls for devices behind it, because `enable_bridge` does not await `set_master` (pci.py:544-547). Without
the first call it is one. -/
theorem C72_bridges_violated :
    after [.enable ⟨2, 1, 0⟩, .enable ⟨3, 0, 1⟩] ⟨2, 1, 0⟩ = some (true, true, false) ∧
    after [.enable ⟨2, 1, 0⟩, .enable ⟨3, 0, 1⟩] ⟨1, 0, 0⟩ = some (true, true, true) ∧
    after [.enable ⟨3, 0, 1⟩] ⟨2, 1, 0⟩ = some (true, true, true) := by decide +kernel

open HierEx in
example : AfterReset exHost exPorts exRegs ∧ CfgHost exHost ∧ CfgPorts exPorts ∧ exPorts.Filled ∧ Typed exPorts.bus ∧ depth exPorts.bus < 5 ∧
    (∃ n, enumerateAll noCaps 5 exHost exPorts = .ok (n, exLim)) ∧ Fits exLim := by
  refine ⟨exPorts_reset, ⟨rfl, rfl, rfl⟩, ?_, by simp [exPorts, Ports.Filled, Node.Filled], ?_, by decide, ?_, exFits⟩
  · have hb : ∀ k, CfgBridge (exPort k) := fun k => ⟨rfl, show CfgHandlers (exPort 0).handlers from ⟨by decide, by decide⟩, fun h => absurd rfl h⟩
    have hd : ∀ k, CfgHandlers (exFn k).handlers := fun k => show CfgHandlers (exFn 0).handlers from ⟨by decide, by decide⟩
    simp only [exPorts, CfgPorts, CfgNode, and_true, hb, List.mem_cons, List.not_mem_nil, or_false, forall_eq_or_imp, forall_eq, hd]
  · simp [exPorts, exPort, exFn, Ports.bus, Node.bus, Typed]
  · obtain ⟨n, -, -, h, -⟩ := exRun
    exact ⟨n, h⟩

example : after [.enable ⟨3, 0, 1⟩, .setMaster ⟨3, 0, 1⟩, .enable ⟨5, 0, 0⟩, .setMaster ⟨5, 0, 0⟩, .disable ⟨5, 0, 0⟩] ⟨3, 0, 1⟩ = some (true, true, true) ∧
    after [.enable ⟨3, 0, 1⟩, .setMaster ⟨3, 0, 1⟩, .enable ⟨5, 0, 0⟩, .setMaster ⟨5, 0, 0⟩, .disable ⟨5, 0, 0⟩] ⟨5, 0, 0⟩ = some (true, true, false) ∧
    after [.enable ⟨3, 0, 1⟩, .setMaster ⟨3, 0, 1⟩, .enable ⟨5, 0, 0⟩, .setMaster ⟨5, 0, 0⟩, .disable ⟨5, 0, 0⟩] ⟨3, 0, 0⟩ = some (false, false, false) := by
  decide +kernel

end Pcie
