import Verif.Lemmas.ConcSys
import Verif.Lemmas.HierEx
/-
C78 for a whole hierarchy: tasks of the root complex or of a function that use memory anywhere in an enumerated hierarchy at the same time.
-/
namespace Pcie
open Spec HierEx
variable {σ : Type}

section
variable {ops : CapOps σ} {fuel : Nat} {host : BrFn σ} {ports : Ports σ} {rs : List Region} {n : Node σ} {l : Limits}
  (hR : AfterReset host ports rs) (hd : depth ports.bus < fuel) (he : enumerateAll ops fuel host ports = .ok (n, l)) (hl : Fits l)
include hR hd he hl

private theorem win_facts {q : List Nat} {k : Nat} {g : EpFn σ} {ws : List Window} {r : Option (Nat × Nat)} {w : Window} (hg : FnAt n q k g)
    (hf : FnRes 6 g.toCommon ws r) (hw : w ∈ ws) (hio : w.io = false) : 2 ≤ w.k ∧ w.base % 2 ^ w.k = 0 ∧ ∀ a, w.contains a = true →
      matchBar g.bars a = .ok (some (w.idx, a - w.base)) ∧ EpFn.For g (.mem a) ∧ Sound (.mem a) := by
  obtain ⟨ws', r', h1, h2⟩ := C54_windows_partial hR hd he hl hg
  cases layout_unique 0 _ _ _ hf.lay h1.lay
  have := layout_facts 0 _ _ hf.lay w hw
  refine ⟨this.1, this.2, fun a ha => ?_⟩
  have := h2 w hw a ha
  rw [hio] at this
  exact ⟨this.1, this.2.1, this.2.2.1⟩

/-- After `enumerate`, whatever is behind a memory BAR of a function is memory for the root complex and for every function of another device, through all switches between them: all theorems of
C78 (order, reads return bytes of the memory, reading back, no deadlock) hold for the tasks of that agent. -/
theorem C78_hierarchy_region {a : Agent} {id : PcieId} (ha : AgentIs n id a) {q : List Nat} {k : Nat} {g : EpFn σ} (hg : FnAt n q k g) (ho : OtherDevice q a) (hh : MemHandlers g.handlers)
    {ws : List Window} {r : Option (Nat × Nat)} (hf : FnRes 6 g.toCommon ws r) {w : Window} (hw : w ∈ ws) (hio : w.io = false) (size : Nat) :
    ServesMem (Completer.sys a) (sysView q k w.idx w.base) (HasRegion n q k w size) id w.base (w.base + size) := by
  obtain ⟨h1, h2, h3⟩ := win_facts hR hd he hl hg hf hw hio
  exact Sys.serves_fn (enumerated_carries hR hd he hl ha hg ho) h2 h1 hh h3 size

/-- So is the memory of the root complex for every function, at addresses outside the ranges that the host bridge passes down (`ForRoot`). -/
theorem C78_hierarchy_host {q : List Nat} {k : Nat} {f : EpFn σ} (hg : FnAt n q k f) {lo hi : Nat} (hr : ∀ x, lo ≤ x → x < hi → Sound (.mem x) ∧ ForRoot l (.mem x)) :
    ServesMem (Completer.sys (.fn q k)) (fun s => s.mem.mem) (HasHost n lo hi) f.id lo hi :=
  Sys.serves_root (enumerated_carriesUp hR hd he hl hg) hr

/-- A read request leaves the system as it is. -/
theorem C78_hierarchy_read_only {a : Agent} {id : PcieId} (ha : AgentIs n id a) {q : List Nat} {k : Nat} {g : EpFn σ} (hg : FnAt n q k g) (ho : OtherDevice q a) (hh : MemHandlers g.handlers)
    {ws : List Window} {r : Option (Nat × Nat)} (hf : FnRes 6 g.toCommon ws r) {w : Window} (hw : w ∈ ws) (hio : w.io = false) (s : Sys σ) (size : Nat) (hs : HasRegion n q k w size s) (t : Tlp)
    (j first m : Nat) (ht : ReadOk j t) (hb : ReadsBytes t first m) (h1 : w.base ≤ t.address) (h2 : t.address + 4 * t.length ≤ w.base + size) (hfr : From id t) :
    ∃ cpls, s.request a t = .ok (s, cpls) := by
  obtain ⟨i1, i2, i3⟩ := win_facts hR hd he hl hg hf hw hio
  obtain ⟨cpls, -, -, e, -⟩ := Sys.read_fn (enumerated_carries hR hd he hl ha hg ho) i2 i1 hh i3 hs ht hb h1 h2 hfr
  exact ⟨cpls, e⟩

end

/-! ### A concrete case -/

private def hySys (n : Node Unit) : Sys Unit :=
  { net := n, mem := { mem := fun i => UInt8.ofNat i }, io := { mem := fun i => UInt8.ofNat (i / 2) },
    regions := fun _ _ => [some ⟨0x1000, fun i => UInt8.ofNat (3 * i)⟩, some ⟨0x100, fun _ => 7⟩, some ⟨0x100000, fun i => UInt8.ofNat (i / 256)⟩] }

private def hyCfg : ReqCfg := { busMasterEnable := true }
/-- A write of three bytes to a BAR two switches down, and a read of three bytes there by another task. -/
private def hyW : List Tlp := Region.writeLoop hyCfg 0 0 false [1, 2, 3] 0 0xc0100ffd
private def hyR : List (Nat × Tlp) := Region.readLoop hyCfg 0 0 false 3 0 0xc0100ffc
private def hyEs : List (ConcEv (Sys Unit)) := hyR.map (fun r => .start r.2 32) ++ hyW.map .post ++ [.send 0, .handle, .handle]

/-- In the hierarchy of `HierEx` the theorems apply to these tasks of the root complex. -/
example : ∃ n, enumerateAll noCaps 5 exHost exPorts = .ok (n, exLim) ∧ HasRegion n [0, 2] 0 ⟨0, false, false, 0xc0100000, 12⟩ 0x1000 (hySys n) ∧
    ServesMem (Completer.sys .root) (sysView [0, 2] 0 0 0xc0100000) (HasRegion n [0, 2] 0 ⟨0, false, false, 0xc0100000, 12⟩ 0x1000) ⟨0, 0, 0⟩ 0xc0100000 0xc0101000 ∧
    ∀ e ∈ hyEs, TaskOk (HasRegion n [0, 2] 0 ⟨0, false, false, 0xc0100000, 12⟩ 0x1000) ⟨0, 0, 0⟩ 0xc0100000 0xc0101000 e := by
  obtain ⟨n, f, g, e, hf, hg, h1, h2, -, h4, h5, -, h7, h8⟩ := exRun
  refine ⟨n, e, ⟨rfl, _, ⟨rfl, by decide⟩, rfl⟩, C78_hierarchy_region exPorts_reset (by decide) e exFits (a := .root) rfl hg trivial ?_ h8 (w := ⟨0, false, false, 0xc0100000, 12⟩) (by simp) rfl 0x1000, ?_⟩
  · rw [h5]; intro ty hty; revert ty; decide
  · intro x hx
    have hw : Region.write hyCfg 0xc0100ffd [1, 2, 3] = .ok hyW := by unfold Region.write hyW; simp [hyCfg]
    have hr : Region.readReqs hyCfg 0xc0100ffc 3 = .ok hyR := by unfold Region.readReqs hyR; simp [hyCfg]
    have k1 := (C78_calls_ok (HasRegion n [0, 2] 0 ⟨0, false, false, 0xc0100000, 12⟩ 0x1000) hyCfg 0xc0100000 0xc0101000 rfl rfl 0xc0100ffc 0 0 (by omega)).1 3 hyR 32 (by omega) (by omega) (by omega) hr
    have k2 := (C78_calls_ok (HasRegion n [0, 2] 0 ⟨0, false, false, 0xc0100000, 12⟩ 0x1000) hyCfg 0xc0100000 0xc0101000 rfl rfl 0xc0100ffd 0 0 (by omega)).2 [1, 2, 3] hyW (by decide) (by decide) hw
    rcases List.mem_append.mp hx with hx | hx
    · rcases List.mem_append.mp hx with hx | hx
      · obtain ⟨r, hr1, rfl⟩ := List.mem_map.mp hx
        exact k1 r.2 (List.mem_map.mpr ⟨r, hr1, rfl⟩)
      · obtain ⟨r, hr1, rfl⟩ := List.mem_map.mp hx
        exact k2 r hr1
    · simp only [List.mem_cons, List.not_mem_nil, or_false] at hx
      rcases hx with rfl | rfl | rfl <;> trivial

/-- What happens: the write has been handled when the read request is, and a completion with its data comes back through the switches. -/
example : (enumerateAll noCaps 5 exHost exPorts).toOption.any (fun p => ((Conc.run (Completer.sys .root) { mem := hySys p.1 } hyEs).bind (·.toOption)).any fun s =>
    s.served == [0] && s.link.isEmpty && s.ops.ops.map (fun o => o.answers.map (·.data.map UInt8.toNat)) == [[[0xf4, 1, 2, 3]]]) = true := by decide +kernel

end Pcie
