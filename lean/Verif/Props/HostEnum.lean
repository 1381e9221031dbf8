/- C71: enumeration by configuration TLPs, and the devices that the root complex knows afterwards. -/
import Verif.Lemmas.HostEnum
import Verif.Lemmas.HierEx
namespace Pcie
open Spec Phys
variable {σ : Type}

/-- C71: the whole of `enumerate` - the scan, the sizing of the BARs, the assignment of addresses, the setup of the bridges - done
with configuration requests that travel through the hierarchy as TLPs, has on every register of every function the effect that
C31 and C54 state, in every hierarchy after reset; and the tree of devices it builds has exactly the functions of the
hierarchy, on the right buses, with the right IDs, and with the addresses that their registers have. -/
theorem C71_enumerate (ops : CapOps σ) (tag : Tlp → Nat) (host : BrFn σ) (ports : Ports σ) (rs : List Region) (hr : AfterReset host ports rs)
    (hh : CfgHost host) (hp : CfgPorts ports) (hfill : ports.Filled) (ht : Typed ports.bus) (fuel : Nat) (hd : depth ports.bus < fuel)
    (n : Node σ) (l : Limits) (h : enumerateAll ops fuel host ports = .ok (n, l)) (hl : Fits l) :
    ∃ tree up ports', Node.enumerate ops tag fuel host ports = .ok (n, tree, l) ∧ n = .sw up ports' ∧ CfgPorts ports' ∧
      Knows 0 ports'.bus tree := by
  obtain ⟨tree, ports', b2, h1, h2, h3, h4, -, -, -, h5⟩ := enumerate_host ops tag hr hh hp hfill ht hd h
  obtain ⟨rs', h6⟩ := h5 ⟨by have := hl.2.1; omega, by have := hl.2.2; omega⟩
  exact ⟨tree, _, ports', h1, h2, h3, knows_of h4 h6⟩

/-- C71: afterwards `find_device` returns, for the number of a function, the record of that function, and nothing for other
numbers. -/
theorem C71_find (ops : CapOps σ) (tag : Tlp → Nat) (host : BrFn σ) (ports : Ports σ) (rs : List Region) (hr : AfterReset host ports rs)
    (hh : CfgHost host) (hp : CfgPorts ports) (hfill : ports.Filled) (ht : Typed ports.bus) (fuel : Nat) (hd : depth ports.bus < fuel)
    (n : Node σ) (l : Limits) (h : enumerateAll ops fuel host ports = .ok (n, l)) (hl : Fits l) :
    ∃ tree up ports', Node.enumerate ops tag fuel host ports = .ok (n, tree, l) ∧ n = .sw up ports' ∧ ∀ id : PcieId,
      (∀ x, On 0 ports'.bus id.bus (id.device, id.function, x) → ∃ p, tree.find id = some p ∧ Describes id x p ∧ Located x p) ∧
      ((∀ x, ¬ On 0 ports'.bus id.bus (id.device, id.function, x)) → tree.find id = none) := by
  obtain ⟨tree, ports', b2, h1, h2, -, h4, hn, hsk, -, h5⟩ := enumerate_host ops tag hr hh hp hfill ht hd h
  obtain ⟨rs', h6⟩ := h5 ⟨by have := hl.2.1; omega, by have := hl.2.2; omega⟩
  obtain ⟨k1, k2⟩ := knows_all (knows_of h4 h6)
  refine ⟨tree, _, ports', h1, h2, fun id => ⟨fun x hx => ?_, fun hx => ?_⟩⟩
  · obtain ⟨p, hp, hid⟩ := k2 _ _ hx
    have hs : ∃ q, tree.find id = some q := by
      rw [Host.Tree.find]
      rcases Host.Tree.find_none p hp hid with ⟨q, q1, q2⟩ | q
      · cases hf : tree.devices.find? fun p => decide (p.id = id) with
        | some q => exact ⟨q, rfl⟩
        | none => exact absurd q2 (by simpa using List.find?_eq_none.1 hf q q1)
      · cases hf : tree.devices.find? fun p => decide (p.id = id) with
        | some q => exact ⟨q, rfl⟩
        | none => exact Option.ne_none_iff_exists'.1 q
    obtain ⟨q, hq⟩ := hs
    obtain ⟨q1, rfl⟩ := Host.Tree.find_some hq
    obtain ⟨y, y1, y2⟩ := k1 q q1
    have := on_unique (Nat.le_refl 0) hn (pairwise_map (skel_top hsk).symm hr.bus0.sorted) (skel_sorted hsk (sortedBelow_of hr.buses)) y1 hx rfl rfl
    cases this
    exact ⟨q, hq, y2⟩
  · cases hf : tree.find id with
    | none => rfl
    | some q =>
      obtain ⟨q1, rfl⟩ := Host.Tree.find_some hf
      obtain ⟨y, y1, -⟩ := k1 q q1
      exact absurd y1 (hx y)

/-! The hierarchy of the examples of C54. -/

open HierEx in
example : AfterReset exHost exPorts exRegs ∧ CfgHost exHost ∧ CfgPorts exPorts ∧ exPorts.Filled ∧ Typed exPorts.bus ∧ depth exPorts.bus < 5 ∧
    (∃ n, enumerateAll noCaps 5 exHost exPorts = .ok (n, exLim)) ∧ Fits exLim := by
  refine ⟨exPorts_reset, ⟨rfl, rfl, rfl⟩, ?_, by simp [exPorts, Ports.Filled, Node.Filled], ?_, by decide, ?_, exFits⟩
  · have hb : ∀ k, CfgBridge (exPort k) := fun k => ⟨rfl, show CfgHandlers (exPort 0).handlers from ⟨by decide, by decide⟩, fun h => absurd rfl h⟩
    have hd : ∀ k, CfgHandlers (exFn k).handlers := fun k => show CfgHandlers (exFn 0).handlers from ⟨by decide, by decide⟩
    simp only [exPorts, CfgPorts, CfgNode, and_true, hb, List.mem_cons, List.not_mem_nil, or_false, forall_eq_or_imp, forall_eq, hd]
  · simp [exPorts, exPort, exFn, Ports.bus, Node.bus, Typed]
  · obtain ⟨n, -, -, h, -⟩ := exRun
    exact ⟨n, h⟩

open HierEx in
example : (Node.enumerate noCaps (fun _ => 5) 5 exHost exPorts).toOption.map (fun r => ((r.2.1.find ⟨3, 0, 1⟩).map (·.id), r.2.1.find ⟨4, 0, 0⟩ |>.isSome, r.2.2)) =
    some (some ⟨3, 0, 1⟩, false, exLim) := by
  decide +kernel

end Pcie
