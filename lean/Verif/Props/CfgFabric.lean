/- C56: configuration accesses and the bus scan by TLPs that go through the hierarchy. -/
import Verif.Lemmas.CfgFabricNum
import Verif.Lemmas.HierEx
import Verif.Props.Scan
namespace Pcie
open Spec Phys
variable {σ : Type}

/-- C56: in any hierarchy, with whatever bus numbers its bridges have: if exactly one function is behind the bus, device and
function number `id`, then `config_read` returns the bytes of its registers, and no register of any function changes. -/
theorem C56_read (ops : CapOps σ) (tag : Tlp → Nat) (host : BrFn σ) (ports : Ports σ) (hh : CfgHost host) (hp : CfgPorts ports)
    (id : PcieId) (hi : CfgId id) (hc : ports.bus.clear (id.bus = 0) id = true) (x : Fn σ) (hx : ports.bus.at_ (id.bus = 0) id = [x])
    (addr length : Nat) (hreg : ∀ a, addr ≤ a → a < addr + length → x.read ops (a / 4) < 2 ^ 32) :
    ∃ ports' bytes, Cfg.read (Node.cfgOp ops tag) (.sw host ports) id addr length = .ok (.sw host ports', bytes) ∧
      Holds (cfgBytes (fnOps ops) x) addr length bytes ∧ CfgPorts ports' ∧ ports'.bus = ports.bus ∧
      (0 < length → ports'.idAt (id.bus = 0) id = some id) := by
  have hf : ports.bus.first (id.bus = 0) id = some x := by
    rw [at_first hc] at hx
    exact Option.toList_eq_singleton_iff.1 hx
  obtain ⟨ports', h1, h2, h3⟩ := node_read ops tag hh hp hi hf addr length hreg
  exact ⟨ports', _, h1, Mem.read_holds _ _ _, h2.cfg, h3, fun hl => node_read_taken ops tag hh hp hi hl (by rw [hf]; simp) h1⟩

/-- C56: if no function is behind the number, `config_read` returns all ones and `config_write` changes no register. -/
theorem C56_nobody (ops : CapOps σ) (tag : Tlp → Nat) (host : BrFn σ) (ports : Ports σ) (hh : CfgHost host) (hp : CfgPorts ports)
    (id : PcieId) (hi : CfgId id) (hc : ports.bus.clear (id.bus = 0) id = true) (hx : ports.bus.at_ (id.bus = 0) id = [])
    (addr length : Nat) (data : List UInt8) :
    (∃ ports', Cfg.read (Node.cfgOp ops tag) (.sw host ports) id addr length = .ok (.sw host ports', List.replicate length 0xff) ∧
      CfgPorts ports' ∧ ports'.bus = ports.bus) ∧
    ∃ ports', Cfg.write (Node.cfgOp ops tag) (.sw host ports) id addr data = .sw host ports' ∧ CfgPorts ports' ∧ ports'.bus = ports.bus := by
  have hf : ports.bus.first (id.bus = 0) id = none := by
    rw [at_first hc] at hx
    exact Option.toList_eq_nil_iff.1 hx
  refine ⟨let ⟨p, h1, h2, h3⟩ := node_read_none ops tag hh hp hi hf addr length; ⟨p, h1, h2.cfg, h3⟩, ?_⟩
  obtain ⟨ports', ge, gb, h1, h2, h3, -, -⟩ := node_write ops tag hh hi addr data hp
  refine ⟨ports', h1, h2, ?_⟩
  rw [h3, upd_none hf]

/-- C56: `config_write` to a function has the effect on its registers that it has on a function connected to the root complex
directly (C17), changes no register of any other function, and gives the function its number. -/
theorem C56_write (ops : CapOps σ) (tag : Tlp → Nat) (host : BrFn σ) (ports : Ports σ) (hh : CfgHost host) (hp : CfgPorts ports)
    (id : PcieId) (hi : CfgId id) (hc : ports.bus.clear (id.bus = 0) id = true) (x : Fn σ) (hx : ports.bus.at_ (id.bus = 0) id = [x])
    (addr : Nat) (data : List UInt8) :
    ∃ ports', Cfg.write (Node.cfgOp ops tag) (.sw host ports) id addr data = .sw host ports' ∧ CfgPorts ports' ∧
      ports'.bus = replaceAt (Cfg.write (Cfg.Fn.op (fnOps ops) tag) ⟨id, x⟩ id addr data).regs ports.bus (id.bus = 0) id ∧
      (data ≠ [] → ports'.idAt (id.bus = 0) id = some id) := by
  have hf : ports.bus.first (id.bus = 0) id = some x := by
    rw [at_first hc] at hx
    exact Option.toList_eq_singleton_iff.1 hx
  obtain ⟨ports', ge, gb, h1, h2, h3, h4, h5⟩ := node_write ops tag hh hi addr data hp
  refine ⟨ports', h1, h2, ?_, fun hd => h5 hd (by rw [hf]; simp)⟩
  rw [h3, h4 x, upd_replaceAt hf]

private theorem scan_result (ops : CapOps σ) {b t : Phys σ} (ho : BusOk true false (top b)) (hb : BusesOk b) (hf : NoNumbers b)
    (hk : bridges b ≤ 255) {fuel last : Nat} (hd : depth b < fuel) {ids : List PcieId} (h : scanRoot ops fuel b = .ok (t, last, ids)) :
    t = numbered 0 0 b ∧ ids = idsTop 0 b ++ idsBelow 0 b := by
  have h1 := scan_spec ops fuel [] 0 b false rfl (by simpa using ho) hb hf hd (by omega)
  simp only [plug] at h1
  rw [scanRoot, h1, Except.ok.injEq, Prod.mk.injEq, Prod.mk.injEq] at h
  exact ⟨h.1.symm, h.2.2.symm⟩

/-- C56: the bus scan of the root complex, done with configuration requests that travel through the bridges, switches and
endpoints as TLPs, finds every function and numbers the buses as C32 says, in every hierarchy of up to 255 bridges. -/
theorem C56_scan (ops : CapOps σ) (tag : Tlp → Nat) (host : BrFn σ) (ports : Ports σ) (hh : CfgHost host) (hp : CfgPorts ports)
    (ho : BusOk true false (top ports.bus)) (hb : BusesOk ports.bus) (hf : NoNumbers ports.bus)
    (hk : bridges ports.bus ≤ 255) (fuel : Nat) (hd : depth ports.bus < fuel) :
    ∃ ports' ids, Node.scan ops tag fuel (.sw host ports) 0 false = .ok (.sw host ports', bridges ports.bus, ids) ∧ CfgPorts ports' ∧
      unnumbered ports'.bus = unnumbered ports.bus ∧ busNumbers ports'.bus = List.range' 1 (bridges ports.bus) ∧
      ids.Nodup ∧ ∀ id : PcieId, id ∈ ids ↔ ∃ x, On 0 ports'.bus id.bus (id.device, id.function, x) := by
  obtain ⟨t, ids, h1, h2, h3, -, h4, h5⟩ := C32_scan ops ports.bus ho hb hf hk fuel hd
  obtain ⟨ports', q1, q2, q3, -⟩ := node_scanRoot ops tag hh hp ho hb hf hk hd
  obtain ⟨rfl, rfl⟩ := scan_result ops ho hb hf hk hd h1
  exact ⟨ports', _, q1, q2, by rw [q3, h2], by rw [q3, h3], h4, fun id => by rw [h5, q3]⟩

/-- C56: afterwards every function and bridge has taken the number of the bus that it is on, and is otherwise, but for the bus
numbers of the bridges, what it was: the hierarchy is the one that `enumerate` continues with (C54). -/
theorem C56_numbers (ops : CapOps σ) (tag : Tlp → Nat) (host : BrFn σ) (ports : Ports σ) (hh : CfgHost host) (hp : CfgPorts ports)
    (hfill : ports.Filled) (ho : BusOk true false (top ports.bus)) (hb : BusesOk ports.bus) (hf : NoNumbers ports.bus)
    (hk : bridges ports.bus ≤ 255) (fuel : Nat) (hd : depth ports.bus < fuel) :
    ∃ ports' ids t, Node.scan ops tag fuel (.sw host ports) 0 false = .ok (.sw host ports', bridges ports.bus, ids) ∧
      ports'.Numbered 0 ∧ scanRoot ops fuel ports.bus = .ok (t, bridges ports.bus, ids) ∧ ports' = ports.setup 0 t := by
  obtain ⟨t, ids, h1, -⟩ := C32_scan ops ports.bus ho hb hf hk fuel hd
  obtain ⟨ports', q1, q2, q3, q4, q5⟩ := node_scanRoot ops tag hh hp ho hb hf hk hd
  obtain ⟨rfl, rfl⟩ := scan_result ops ho hb hf hk hd h1
  exact ⟨ports', _, _, q1, q5 hfill, h1, by rw [← q3]; exact (Ports.setup_of ports 0 q4 (q5 hfill)).symm⟩

/-- C56: afterwards `config_read` and `config_write` get to every function of the hierarchy and to that function only, and
numbers that no function has are answered by none. -/
theorem C56_after_scan (ops : CapOps σ) (tag : Tlp → Nat) (host : BrFn σ) (ports : Ports σ) (hh : CfgHost host) (hp : CfgPorts ports)
    (ho : BusOk true false (top ports.bus)) (hb : BusesOk ports.bus) (hf : NoNumbers ports.bus)
    (hk : bridges ports.bus ≤ 255) (fuel : Nat) (hd : depth ports.bus < fuel) :
    ∃ ports' ids, Node.scan ops tag fuel (.sw host ports) 0 false = .ok (.sw host ports', bridges ports.bus, ids) ∧
      ∀ id, CfgId id →
      (∀ x, On 0 ports'.bus id.bus (id.device, id.function, x) → ∀ addr,
        (∀ length, (∀ a, addr ≤ a → a < addr + length → x.read ops (a / 4) < 2 ^ 32) → ∃ ports'' bytes,
          Cfg.read (Node.cfgOp ops tag) (.sw host ports') id addr length = .ok (.sw host ports'', bytes) ∧
          Holds (cfgBytes (fnOps ops) x) addr length bytes ∧ ports''.bus = ports'.bus) ∧
        ∀ data, ∃ ports'', Cfg.write (Node.cfgOp ops tag) (.sw host ports') id addr data = .sw host ports'' ∧
          ports''.bus = replaceAt (Cfg.write (Cfg.Fn.op (fnOps ops) tag) ⟨id, x⟩ id addr data).regs ports'.bus (id.bus = 0) id) ∧
      ((∀ x, ¬ On 0 ports'.bus id.bus (id.device, id.function, x)) → ∀ addr length data,
        (∃ ports'', Cfg.read (Node.cfgOp ops tag) (.sw host ports') id addr length = .ok (.sw host ports'', List.replicate length 0xff) ∧
          ports''.bus = ports'.bus) ∧
        ∃ ports'', Cfg.write (Node.cfgOp ops tag) (.sw host ports') id addr data = .sw host ports'' ∧ ports''.bus = ports'.bus) := by
  obtain ⟨t, ids, h1, -⟩ := C32_scan ops ports.bus ho hb hf hk fuel hd
  obtain ⟨ports', q1, q2, q3, -⟩ := node_scanRoot ops tag hh hp ho hb hf hk hd
  obtain ⟨rfl, rfl⟩ := scan_result ops ho hb hf hk hd h1
  rw [← q3] at h1
  refine ⟨ports', _, q1, fun id hi => ?_⟩
  obtain ⟨u1, u2, u3⟩ := C32_unique_path ops ports.bus _ ho hb hf fuel _ hd _ h1 id
  refine ⟨fun x hx addr => ⟨fun length hreg => ?_, fun data => ?_⟩, fun hx addr length data => ?_⟩
  · obtain ⟨p, bytes, r1, r2, r3, r4, -⟩ := C56_read ops tag host ports' hh q2 id hi u3 x (u1 x hx) addr length hreg
    exact ⟨p, bytes, r1, r2, r4⟩
  · obtain ⟨p, r1, r2, r3, -⟩ := C56_write ops tag host ports' hh q2 id hi u3 x (u1 x hx) addr data
    exact ⟨p, r1, r3⟩
  · obtain ⟨⟨p, r1, r2, r3⟩, p', s1, s2, s3⟩ := C56_nobody ops tag host ports' hh q2 id hi u3 (u2 hx) addr length data
    exact ⟨⟨p, r1, r3⟩, p', s1, s3⟩

/-! The hierarchy of the examples of C54. -/

open HierEx in
example : CfgHost exHost ∧ CfgPorts exPorts ∧ exPorts.Filled ∧ bridges exPorts.bus = 5 ∧ depth exPorts.bus < 4 := by
  refine ⟨⟨rfl, rfl, rfl⟩, ?_, by simp [exPorts, Ports.Filled, Node.Filled], by decide, by decide⟩
  have hb : ∀ k, CfgBridge (exPort k) := fun k => ⟨rfl, show CfgHandlers (exPort 0).handlers from ⟨by decide, by decide⟩, fun h => absurd rfl h⟩
  have hd : ∀ k, CfgHandlers (exFn k).handlers := fun k => show CfgHandlers (exFn 0).handlers from ⟨by decide, by decide⟩
  simp only [exPorts, CfgPorts, CfgNode, and_true, hb, List.mem_cons, List.not_mem_nil, or_false, forall_eq_or_imp, forall_eq, hd]

open HierEx in
example : (Node.scan noCaps (fun _ => 5) 4 (.sw exHost exPorts) 0 false).toOption.map (fun r => r.2) =
    some (5, [⟨0, 1, 0⟩, ⟨1, 0, 0⟩, ⟨2, 1, 0⟩, ⟨2, 2, 0⟩, ⟨2, 3, 0⟩, ⟨3, 0, 0⟩, ⟨3, 0, 1⟩, ⟨5, 0, 0⟩]) := by
  decide +kernel

end Pcie
