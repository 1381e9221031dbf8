/-
C62: interrupts from the function that issues them, through the hierarchy, to the handlers of the host.
-/
import Verif.Lemmas.MsiPath
import Verif.Lemmas.HierEx
import Verif.Props.Msi
import Verif.Props.EndToEnd

namespace Pcie
open Spec HierEx
variable {σ : Type}

/-- The address of the region stays. -/
private theorem base_run {s0 s : IrqSys} (h0 : NewSys s0) {ops : List IrqOp} (hr : ops.foldlM IrqSys.run s0 = .ok s) : s.region.base = 0x80000000 :=
  (run_all ops [] (sysInv_new h0) hr).base

section
variable {cops : CapOps σ} {fuel : Nat} {host : BrFn σ} {ports : Ports σ} {rs : List Region} {n : Node σ} {l : Limits}
  (hR : AfterReset host ports rs) (hd : depth ports.bus < fuel) (he : enumerateAll cops fuel host ports = .ok (n, l)) (hl : Fits l)
include hR hd he hl

/-- C62: after enumeration and any sequence of interrupt calls, when a function with bus mastering and MSI enabled issues an interrupt, the host starts
exactly the handlers registered for this interrupt and this function, once each and in order, wherever the function is in the hierarchy; nothing else in the
system changes. Missing: what is missing in `C36_msi_partial` (vectors that are not allocated in blocks of 32, see `C36_violated`). -/
theorem C62_msi_partial {x : IrqNet σ} (hs : x.sys.net = n) {s0 : IrqSys} (h0 : NewSys s0) {ops : List IrqOp} (hr : ops.foldlM IrqSys.run s0 = .ok x.irq)
    (hb : Blocks32 s0 ops) (hlim : x.irq.region.limit ≤ 2 ^ 16) {f : Nat} {g : EpFn σ} (hg : FnAt n (x.place f).1 (x.place f).2 g)
    (hid : (x.cfg f).id = g.id) (hbm : (x.cfg f).busMasterEnable = true)
    {c : MsiCap} (hc : (x.irq.fns f).msi = some c) (hen : c.enable = true) (hm : c.mmc ≤ 5) {k : Nat} (hk : k < 2 ^ c.mmc) (attr tc : Nat) :
    x.msi f k attr tc = .ok (x, handlers ops f k) := by
  have h := C36_msi_partial h0 hr hb hlim hc hen hm hk
  simp only [IrqSys.msi, hc] at h
  unfold IrqNet.msi
  simp only [hc]
  cases hi : c.issue k with
  | error e => rw [hi] at h; cases h
  | ok m =>
    rw [hi, ok_bind] at h
    have hm2 : m.2 < 2 ^ 32 := by
      unfold MsiCap.issue at hi
      split at hi
      · cases hi
      · split at hi
        · cases hi
        · simp only at hi
          generalize (andNot (if c.extCap = true ∧ c.extEnable = true then c.data else c.data &&& 0xffff) (2 ^ c.mme - 1) ||| k) = v at hi
          split at hi
          · cases hi
          · cases hi; simp only; omega
    obtain ⟨d, e1, e2⟩ := IrqNet.message (by rw [hs, hid]; exact enumerated_carriesUp hR hd he hl hg) hbm (base_run h0 hr) hm2 h attr tc
    simp only [ok_bind, e1, e2]

/-- C62: the same for MSI-X, without restrictions on the calls. -/
theorem C62_msix {x : IrqNet σ} (hs : x.sys.net = n) {s0 : IrqSys} (h0 : NewSys s0) {ops : List IrqOp} (hr : ops.foldlM IrqSys.run s0 = .ok x.irq)
    (hlim : x.irq.region.limit ≤ 2 ^ 32) {f : Nat} {g : EpFn σ} (hg : FnAt n (x.place f).1 (x.place f).2 g)
    (hid : (x.cfg f).id = g.id) (hbm : (x.cfg f).busMasterEnable = true)
    {c : MsixCap} (hc : (x.irq.fns f).msix = some c) (hen : c.enable = true) {k : Nat} (hk : k ≤ c.tableSize % 2048) (attr tc : Nat) :
    x.msix f k attr tc = .ok (x, handlers ops f k) := by
  have h := C36_msix h0 hr hlim hc hen hk
  simp only [IrqSys.msix, hc] at h
  unfold IrqNet.msix
  simp only [hc]
  generalize (x.irq.fns f).mem (c.tableBir &&& 7) = mem at *
  generalize (c.tableOffset &&& 0xfffffff8) + k * 16 = e at *
  cases hi : c.issue (mem e ||| mem (e + 4) <<< 32) (mem (e + 8)) with
  | error e => rw [hi] at h; cases h
  | ok m =>
    rw [hi, ok_bind] at h
    have hm2 : m.2 < 2 ^ 32 := by
      unfold MsixCap.issue at hi
      split at hi
      · cases hi
      · split at hi
        · cases hi
        · cases hi; simp only; omega
    obtain ⟨d, e1, e2⟩ := IrqNet.message (by rw [hs, hid]; exact enumerated_carriesUp hR hd he hl hg) hbm (base_run h0 hr) hm2 h attr tc
    simp only [ok_bind, e1, e2]

end

/-- C62: without bus mastering, issuing an interrupt raises an exception, in any state of the system. -/
theorem C62_bus_master (x : IrqNet σ) (f k attr tc : Nat) (h : (x.cfg f).busMasterEnable = false) :
    (∃ e, x.msi f k attr tc = .error e) ∧ ∃ e, x.msix f k attr tc = .error e := by
  have hw : ∀ a d, x.memWrite f a d attr tc = .error "Bus mastering not enabled" := by
    intro a d
    unfold IrqNet.memWrite Region.write
    simp only [h, Bool.false_eq_true, not_false_eq_true, if_true]
    rfl
  have hp : ∀ m : Nat × Nat, ∃ e, (do x.memWrite f m.1 (← Cfg.packLE m.2) attr tc) = .error e := by
    intro m
    cases Cfg.packLE m.2 with
    | error e => exact ⟨e, rfl⟩
    | ok d => exact ⟨_, hw _ _⟩
  constructor
  · unfold IrqNet.msi
    split
    · exact ⟨_, rfl⟩
    · next c _ =>
      cases c.issue k with
      | error e => exact ⟨e, rfl⟩
      | ok m => exact hp m
  · unfold IrqNet.msix
    split
    · exact ⟨_, rfl⟩
    · next c _ =>
      simp only
      cases c.issue _ _ with
      | error e => exact ⟨e, rfl⟩
      | ok m => exact hp m

/-- C62: no other memory write of a function starts a handler, whatever the state of the hierarchy: a write to addresses outside the MSI region does what
it does in a system without interrupts (C55), and nothing else. -/
theorem C62_quiet {x : IrqNet σ} {s0 : IrqSys} (h0 : NewSys s0) {ops : List IrqOp} (hr : ops.foldlM IrqSys.run s0 = .ok x.irq) (f addr : Nat)
    {data : List UInt8} (hn : data ≠ []) (attr tc : Nat) (hq : addr + data.length ≤ 0x80000000 ∨ 0x80000010 ≤ addr) :
    x.memWrite f addr data attr tc = (do
      let s ← x.sys.memWrite (.fn (x.place f).1 (x.place f).2) (x.cfg f) addr data attr tc
      .ok ({ x with sys := s }, [])) :=
  IrqNet.memWrite_quiet (base_run h0 hr) f addr hn attr tc hq

/-! ### The hypotheses can be met -/

private def exCalls : List IrqOp :=
  [.enableMsi 1 1 32, .enableMsix 2 1 64, .request 1 7 10, .request 2 63 13, .request 1 7 11, .request 2 7 14]

private def exStart : IrqSys := { exIrq with fns := fun k => if k = 0 then {} else exIrq.fns k }

private theorem exStart_new : NewSys exStart := by
  refine ⟨rfl, rfl, ?_, ?_, ?_⟩
  · intro f; simp only [exStart]; split
    · exact ⟨rfl, rfl, rfl⟩
    · exact exIrq_new.fns f
  · intro f c; simp only [exStart]; split
    · intro h; cases h
    · exact exIrq_new.msi f c
  · intro f c; simp only [exStart]; split
    · intro h; cases h
    · exact exIrq_new.msix f c

private theorem exStart_run : ∃ s c d, exCalls.foldlM IrqSys.run exStart = .ok s ∧ (s.fns 1).msi = some c ∧ c.enable = true ∧ c.mmc = 5 ∧
    (s.fns 2).msix = some d ∧ d.enable = true ∧ d.tableSize = 63 ∧ s.region.limit = 96 := by
  have h : (exCalls.foldlM IrqSys.run exStart).toOption.any (fun s =>
      ((s.fns 1).msi.any fun c => c.enable && c.mmc == 5) && ((s.fns 2).msix.any fun d => d.enable && d.tableSize == 63) && s.region.limit == 96) = true := by
    decide +kernel
  cases hr : exCalls.foldlM IrqSys.run exStart with
  | error e => rw [hr] at h; cases h
  | ok s =>
    rw [hr] at h
    simp only [Except.toOption, Option.any_some, Bool.and_eq_true, Option.any_eq_true, beq_iff_eq] at h
    obtain ⟨⟨⟨c, c1, c2, c3⟩, d, d1, d2, d3⟩, h3⟩ := h
    exact ⟨s, c, d, rfl, c1, c2, c3, d1, d2, d3, h3⟩

private theorem exStart_blocks : Blocks32 exStart exCalls := by
  refine ⟨by simp [exCalls], fun f c => ?_⟩
  simp only [exStart]
  split
  · intro h; cases h
  · simp only [exIrq]; split <;> intro h <;> cases h <;> first | rfl | contradiction

private def exSys0 (n : Node Unit) : Sys Unit :=
  { net := n, mem := { mem := fun _ => 0 }, io := { mem := fun _ => 0 }, regions := fun _ _ => [] }

private def exNet0 (n : Node Unit) (s : IrqSys) : IrqNet Unit :=
  { sys := exSys0 n
    irq := s
    cfg := fun k => { id := if k = 1 then ⟨3, 0, 1⟩ else ⟨5, 0, 0⟩ }
    place := fun k => if k = 1 then ([0, 0], 1) else ([0, 2], 0) }

/-- Function 1, behind two switches, has MSI, function 2 in another device has MSI-X; both share the root complex. The handlers are started, in order. A
write to memory starts none. -/
example : ∃ (n : Node Unit) (x : IrqNet Unit), enumerateAll noCaps 5 exHost exPorts = .ok (n, exLim) ∧ x.sys.net = n ∧
    exCalls.foldlM IrqSys.run exStart = .ok x.irq ∧ x.place 1 = ([0, 0], 1) ∧ x.place 2 = ([0, 2], 0) ∧
    x.msi 1 7 = .ok (x, [10, 11]) ∧ x.msix 2 63 = .ok (x, [13]) ∧ x.msix 2 62 = .ok (x, []) ∧
    ∃ s, x.memWrite 1 0x1ffe [1, 2, 3] = .ok ({ x with sys := s }, []) := by
  obtain ⟨n, f, g, e, hf, hg, h1, -, -, h4, -⟩ := exRun
  obtain ⟨s, c, d, hr, c1, c2, c3, d1, d2, d3, hlim⟩ := exStart_run
  have hd : depth exPorts.bus < 5 := by decide
  have hb := exStart_blocks
  refine ⟨n, exNet0 n s, e, rfl, hr, rfl, rfl,
    ?_, ?_, ?_, ?_⟩
  · rw [show ([10, 11] : List Nat) = handlers exCalls 1 7 by decide]
    exact C62_msi_partial exPorts_reset hd e exFits rfl exStart_new hr hb (by show s.region.limit ≤ _; omega) (f := 1) hf (by rw [h1]; rfl) rfl c1 c2 (by omega) (k := 7)
      (by rw [c3]; decide) 0 0
  · rw [show ([13] : List Nat) = handlers exCalls 2 63 by decide]
    exact C62_msix exPorts_reset hd e exFits rfl exStart_new hr (by show s.region.limit ≤ _; omega) (f := 2) hg (by rw [h4]; rfl) rfl d1 d2 (k := 63) (by rw [d3]) 0 0
  · rw [show ([] : List Nat) = handlers exCalls 2 62 by decide]
    exact C62_msix exPorts_reset hd e exFits rfl exStart_new hr (by show s.region.limit ≤ _; omega) (f := 2) hg (by rw [h4]; rfl) rfl d1 d2 (k := 62) (by rw [d3]; decide) 0 0
  · rw [C62_quiet exStart_new hr 1 0x1ffe (by simp) 0 0 (by simp)]
    obtain ⟨m', e1, -⟩ := C55_host_write_partial exPorts_reset hd e exFits (s := exSys0 n)
      rfl hf (c := { id := ⟨3, 0, 1⟩ }) h1.symm rfl
      (addr := 0x1ffe) (data := [1, 2, 3]) 0 0 (by decide) (fun x i1 i2 => ⟨.inl (by simp at i2; omega), .inl (by simp at i2; omega), .inl (by simp at i2; omega)⟩)
      (fun _ _ _ _ => rfl) (fun _ _ _ _ => rfl)
    have e2 : (exNet0 n s).sys.memWrite (.fn ((exNet0 n s).place 1).1 ((exNet0 n s).place 1).2) ((exNet0 n s).cfg 1) 0x1ffe [1, 2, 3] 0 0 = .ok _ := e1
    rw [e2]
    exact ⟨_, rfl⟩

end Pcie
