/-
C63: interrupts set up through configuration space.
-/
import Verif.Lemmas.MsiSetup
import Verif.Lemmas.MsiSizes
import Verif.Props.Msi
namespace Pcie
open Spec
variable {S : Type}

private theorem deliver_inv {s : IrqSys} {m : Nat × Nat} {l : List Nat} (h : s.deliver m = .ok l) :
    s.region.base = m.1 ∧ ∃ v, s.region.vectors m.2 = some v ∧ s.cbs v = l := by
  unfold IrqSys.deliver at h
  split at h
  · cases h
  · next hin =>
    unfold MsiRegion.write at h
    split at h
    · cases h
    · next ho =>
      cases hv : s.region.vectors m.2 with
      | none => rw [hv] at h; cases h
      | some v => rw [hv] at h; exact ⟨by omega, v, rfl, Except.ok.inj h⟩

/-- C63: performed as configuration requests that the functions answer, the calls have exactly the effect on the capabilities and on the host that the model of
C36 describes, and raise the same exceptions; registers outside of the MSI and MSI-X capabilities stay as they are. -/
theorem C63_calls {B : Nat → Nat → Nat} {x : IrqHost S} {s : IrqSys} (h : ShowsAll B x s) (ops : List IrqOp) :
    (∃ e, ops.foldlM IrqHost.run x = .error e ∧ ops.foldlM IrqSys.run s = .error e) ∨
    ∃ x' s', ops.foldlM IrqHost.run x = .ok x' ∧ ops.foldlM IrqSys.run s = .ok s' ∧ ShowsAll B x' s' := ShowsAll.runs ops h

section
variable {B : Nat → Nat → Nat} {x0 x : IrqHost S} {s0 : IrqSys} (h0 : NewSys s0) (hs : ShowsAll B x0 s0) {ops : List IrqOp} (hr : ops.foldlM IrqHost.run x0 = .ok x)
include h0 hs hr

/-- C63: when the host has enabled MSI with configuration requests, the capability of the function has the same number of messages as before, is enabled, and every
message that it describes goes to the MSI region, to a vector with exactly the handlers registered for this interrupt of this function. Missing: what is missing in
`C36_msi_partial`. -/
theorem C63_msi_partial (hb : Blocks32 s0 ops) (hlim : x.region.limit ≤ 2 ^ 16) {f : Nat} (he : (x.fns f).msiEnabled = true) :
    ∃ c0 c, (s0.fns f).msi = some c0 ∧ HasMsi (x.fns f) c ∧ c.enable = true ∧ c.mmc = c0.mmc ∧
      (c.mmc ≤ 5 → ∀ k, k < 2 ^ c.mmc → ∃ d v, c.issue k = .ok (0x80000000, d) ∧ x.region.vectors d = some v ∧ x.cbs v = handlers ops f k) := by
  rcases ShowsAll.runs ops hs with ⟨e, e1, _⟩ | ⟨x', s, e1, e2, h⟩
  · rw [hr] at e1; cases e1
  rw [hr] at e1
  cases e1
  have hfl := (all_flags ops (new_flags h0) e2 f).msi
  rw [(h.fns f).msiEnabled, he] at hfl
  cases hc : (s.fns f).msi with
  | none => rw [hc] at hfl; cases hfl
  | some c =>
    rw [hc] at hfl
    have hsz := congrArg Prod.fst (runs_sizes ops e2 f)
    unfold IrqFn.sizes at hsz
    simp only [hc] at hsz
    cases hc0 : (s0.fns f).msi with
    | none => rw [hc0] at hsz; cases hsz
    | some c0 =>
      rw [hc0] at hsz
      refine ⟨c0, c, rfl, (h.fns f).msi c hc, hfl.symm, by injection hsz, fun hm k hk => ?_⟩
      have hd := C36_msi_partial h0 e2 hb (by rw [h.region]; exact hlim) hc hfl.symm hm hk
      have hbase : s.region.base = 0x80000000 := (run_all ops [] (sysInv_new h0) e2).base
      unfold IrqSys.msi at hd
      simp only [hc] at hd
      cases hi : c.issue k with
      | error e => rw [hi] at hd; cases hd
      | ok m =>
        rw [hi, ok_bind] at hd
        obtain ⟨d1, v, d2, d3⟩ := deliver_inv hd
        rw [h.region] at d2
        rw [h.cbs] at d3
        exact ⟨m.2, v, by rw [← hbase, d1], d2, d3⟩

/-- C63: the same for MSI-X, with the messages in the table that the capability describes, without restrictions on the calls; no entry is masked. -/
theorem C63_msix (hlim : x.region.limit ≤ 2 ^ 32) {f : Nat} (he : (x.fns f).msixEnabled = true) :
    ∃ c0 c, (s0.fns f).msix = some c0 ∧ HasMsix (x.fns f) c ∧ c.enable = true ∧ c.tableSize = c0.tableSize ∧ c.tableBir = c0.tableBir ∧ c.tableOffset = c0.tableOffset ∧
      ∀ k, k ≤ c.tableSize % 2048 → let table := (x.fns f).mem (c.tableBir % 8); let a := c.tableOffset % 2 ^ 32 / 8 * 8 + 16 * k
        table a = 0x80000000 ∧ table (a + 4) = 0 ∧ table (a + 12) = 0 ∧ ∃ v, x.region.vectors (table (a + 8)) = some v ∧ x.cbs v = handlers ops f k := by
  rcases ShowsAll.runs ops hs with ⟨e, e1, _⟩ | ⟨x', s, e1, e2, h⟩
  · rw [hr] at e1; cases e1
  rw [hr] at e1
  cases e1
  have hfl := (all_flags ops (new_flags h0) e2 f).msix
  rw [(h.fns f).msixEnabled, he] at hfl
  cases hc : (s.fns f).msix with
  | none => rw [hc] at hfl; cases hfl
  | some c =>
    rw [hc] at hfl
    have hsz := congrArg Prod.snd (runs_sizes ops e2 f)
    unfold IrqFn.sizes at hsz
    simp only [hc] at hsz
    cases hc0 : (s0.fns f).msix with
    | none => rw [hc0] at hsz; cases hsz
    | some c0 =>
      rw [hc0] at hsz
      simp only [Option.map_some, Option.some.injEq, Prod.mk.injEq] at hsz
      refine ⟨c0, c, rfl, (h.fns f).msix c hc, hfl.symm, hsz.1, hsz.2.1, hsz.2.2, fun k hk => ?_⟩
      have hi := run_all ops [] (sysInv_new h0) e2
      rw [List.nil_append] at hi
      obtain ⟨w, hw, e1, e2, e3, e4⟩ := (hi.fns f).msix c hc hfl.symm k (by omega)
      obtain ⟨b, hvb⟩ := hi.vecs f
      have h2 := hvb k w hw
      have hwd : w.data < 2 ^ 32 := by have := (hi.dict _ _ h2.2.2).1; rw [h.region] at this; omega
      have hd : w.data &&& 0xffffffff = w.data := by
        rw [show (0xffffffff : Nat) = 2 ^ 32 - 1 from rfl, Nat.and_two_pow_sub_one_eq_mod, Nat.mod_eq_of_lt hwd]
      have m1 : c.tableBir &&& 7 = c.tableBir % 8 := Nat.and_two_pow_sub_one_eq_mod _ 3
      have m2 : (c.tableOffset &&& 0xfffffff8) + k * 16 = c.tableOffset % 2 ^ 32 / 8 * 8 + 16 * k := by
        rw [show c.tableOffset &&& 0xfffffff8 = (c.tableOffset / 2 ^ 3 % 2 ^ 29) * 2 ^ 3 from and_himask c.tableOffset 29 3]
        omega
      rw [m1, m2, (h.fns f).mem] at e1 e2 e3 e4
      obtain ⟨-, v, d2, d3⟩ := deliver_inv (deliver_ok hi hw)
      rw [h.region] at d2
      rw [h.cbs] at d3
      simp only
      rw [e3, hd]
      refine ⟨by rw [e1, h2.1, hi.base]; decide, by rw [e2, h2.1, hi.base]; decide, e4, v, d2, d3⟩
/-- C63: after any sequence of calls, a capability of a function is enabled if and only if the host has it as enabled, and not both are. -/
theorem C63_enabled (f : Nat) :
    (∀ c0, (s0.fns f).msi = some c0 → ∃ c, HasMsi (x.fns f) c ∧ c.enable = (x.fns f).msiEnabled) ∧
    (∀ c0, (s0.fns f).msix = some c0 → ∃ c, HasMsix (x.fns f) c ∧ c.enable = (x.fns f).msixEnabled) ∧
    ¬ ((x.fns f).msiEnabled = true ∧ (x.fns f).msixEnabled = true) := by
  rcases ShowsAll.runs ops hs with ⟨e, e1, _⟩ | ⟨x', s, e1, e2, h⟩
  · rw [hr] at e1; cases e1
  rw [hr] at e1
  cases e1
  have hfl := all_flags ops (new_flags h0) e2 f
  have hsz := runs_sizes ops e2 f
  unfold IrqFn.sizes at hsz
  have hf1 := hfl.msi
  have hf2 := hfl.msix
  have hf3 := hfl.one
  rw [(h.fns f).msiEnabled] at hf1 hf3
  rw [(h.fns f).msixEnabled] at hf2 hf3
  refine ⟨fun c0 hc0 => ?_, fun c0 hc0 => ?_, hf3⟩
  · have := congrArg Prod.fst hsz
    rw [hc0] at this
    cases hc : (s.fns f).msi with
    | none => rw [hc] at this; cases this
    | some c => rw [hc] at hf1; exact ⟨c, (h.fns f).msi c hc, hf1.symm⟩
  · have := congrArg Prod.snd hsz
    rw [hc0] at this
    cases hc : (s.fns f).msix with
    | none => rw [hc] at this; cases this
    | some c => rw [hc] at hf2; exact ⟨c, (h.fns f).msix c hc, hf2.symm⟩

omit h0 in
/-- C63: all registers outside of the MSI and MSI-X capabilities read as before the calls. -/
theorem C63_rest (hB : ∀ f reg, B f reg = (Fn.ops (CapSpace.ops (x0.fns f).beh (x0.fns f).behx)).read (x0.fns f).fn.regs reg) (f reg : Nat)
    (h1 : ∀ c, CapFound (x.fns f) 0x05 c 6 → ¬ (reg < 64 ∧ Occupies (x.fns f).fn.regs.common.caps.pci c reg))
    (h2 : ∀ c, CapFound (x.fns f) 0x11 c 3 → ¬ (reg < 64 ∧ Occupies (x.fns f).fn.regs.common.caps.pci c reg)) :
    (Fn.ops (CapSpace.ops (x.fns f).beh (x.fns f).behx)).read (x.fns f).fn.regs reg =
      (Fn.ops (CapSpace.ops (x0.fns f).beh (x0.fns f).behx)).read (x0.fns f).fn.regs reg := by
  rcases ShowsAll.runs ops hs with ⟨e, e1, _⟩ | ⟨x', s, e1, e2, h⟩
  · rw [hr] at e1; cases e1
  rw [hr] at e1
  cases e1
  rw [(h.fns f).rest reg h1 h2, hB]

end

/-! ### The hypotheses can be met -/

private abbrev ExS := MsiCap ⊕ MsixCap ⊕ Unit

/-- Capability 2 is MSI, capability 3 MSI-X. -/
private def exSetObjs (k : Nat) : CapObj :=
  if k = 0 then { capId := 1, length := 2 } else if k = 1 then { capId := 0x10, length := 15 } else if k = 2 then { capId := 5, length := 6 } else { capId := 0x11, length := 3 }
private def exSetNew : FnCaps := { caps := { objs := exSetObjs } }
private def exSetCalls : List CapOp := [.register 0 none, .register 1 none, .register 2 none, .register 3 none]
private def exSetDone : FnCaps := exSetCalls.foldl FnCaps.run exSetNew

private def exSetBeh (k : Nat) : CapOps ExS :=
  if k = 2 then ⟨fun s r => match s with | .inl m => (m.read r).getD 0 | _ => 0, fun s r d m => match s with | .inl c => .inl (c.write r d m) | s => s⟩
  else if k = 3 then ⟨fun s r => match s with | .inr (.inl m) => (m.read r).getD 0 | _ => 0, fun s r d m => match s with | .inr (.inl c) => .inr (.inl (c.write r d m)) | s => s⟩
  else ⟨fun _ r => r, fun s _ _ _ => s⟩

private def exMsi0 : MsiCap := { mmc := 5, cap64 := true }
private def exMsix0 : MsixCap := { tableSize := 31, tableBir := 2, tableOffset := 0x1000 }

private def exSetFn : Cfg.Fn (Fn (CapSpace ExS)) :=
  ⟨⟨0, 0, 0⟩, .ep { capPtr := exSetDone.ptr, caps := ⟨exSetDone.caps, { objs := exSetObjs }, fun k => if k = 2 then .inl exMsi0 else if k = 3 then .inr (.inl exMsix0) else .inr (.inr ()), fun _ => .inr (.inr ())⟩ }⟩

private def exSetPort : IrqPort ExS :=
  { fn := exSetFn, beh := exSetBeh, behx := exSetBeh, tag := fun _ => 3, dev := ⟨4, 0, 0⟩, caps := [(1, 0x40), (0x10, 0x48), (5, 0x84), (0x11, 0x9c)] }

/-- The list of capabilities is what the host finds. -/
example : (HostCaps.walk (Cfg.Fn.op (Fn.ops (CapSpace.ops exSetBeh exSetBeh)) (fun _ => 0)) ⟨4, 0, 0⟩ 4 exSetFn).toOption.map Prod.snd = some exSetPort.caps := by
  decide +kernel

private def exSetIrq : IrqSys := { fns := fun _ => { msi := some exMsi0, msix := some exMsix0 } }
private def exSetHost : IrqHost ExS := { fns := fun _ => exSetPort }

private theorem exSet_new : NewSys exSetIrq :=
  ⟨rfl, rfl, fun _ => ⟨rfl, rfl, rfl⟩, fun _ c h => by cases h; exact ⟨rfl, rfl, rfl⟩, fun _ c h => by cases h; rfl⟩

private theorem exSet_offs : exSetDone.caps.list = [0, 1, 2, 3] ∧ exSetDone.caps.off 0 = 0x10 ∧ exSetDone.caps.off 1 = 0x12 ∧ exSetDone.caps.off 2 = 0x21 ∧
    exSetDone.caps.off 3 = 0x27 ∧ exSetDone.caps.len 0 = 2 ∧ exSetDone.caps.len 1 = 15 ∧ exSetDone.caps.len 2 = 6 ∧ exSetDone.caps.len 3 = 3 ∧
    (exSetDone.caps.objs 2).capId = 5 ∧ (exSetDone.caps.objs 3).capId = 0x11 := by
  decide +kernel

private theorem exSet_shows : ShowsAll (fun _ => (Fn.ops (CapSpace.ops exSetBeh exSetBeh)).read exSetFn.regs) exSetHost exSetIrq := by
  obtain ⟨h, o0, o1, o2, o3, l0, l1, l2, l3, i2, i3⟩ := exSet_offs
  have hp : exSetPort.fn.regs.common.caps.pci = exSetDone.caps := rfl
  refine ⟨rfl, rfl, fun k => ⟨⟨rfl, rfl⟩, ?_, ?_, ?_, (fun h => by cases h), (fun h => by cases h), rfl, rfl, rfl, rfl, fun _ _ _ => rfl⟩⟩
  · show NoShare exSetDone.caps
    rintro a b r ⟨ha, ha1, ha2⟩ ⟨hb, hb1, hb2⟩
    rw [h] at ha hb
    simp at ha hb
    rcases ha with rfl | rfl | rfl | rfl <;> rcases hb with rfl | rfl | rfl | rfl <;> omega
  · intro m hm
    cases hm
    refine ⟨2, .inl, ⟨?_, ?_, ⟨?_, ?_, ?_⟩, ?_⟩, ⟨fun _ _ => rfl, fun _ _ _ _ => rfl⟩, rfl⟩
    · show _ = some (4 * exSetDone.caps.off 2); rw [o2]; rfl
    · exact i2
    · show 2 ∈ exSetDone.caps.list; rw [h]; simp
    · show 16 ≤ exSetDone.caps.off 2; omega
    · show exSetDone.caps.off 2 + exSetDone.caps.len 2 ≤ 64; omega
    · show 6 ≤ exSetDone.caps.len 2; omega
  · intro m hm
    cases hm
    refine ⟨3, fun c => .inr (.inl c), ⟨?_, ?_, ⟨?_, ?_, ?_⟩, ?_⟩, ⟨fun _ _ => rfl, fun _ _ _ _ => rfl⟩, rfl⟩
    · show _ = some (4 * exSetDone.caps.off 3); rw [o3]; rfl
    · exact i3
    · show 3 ∈ exSetDone.caps.list; rw [h]; simp
    · show 16 ≤ exSetDone.caps.off 3; omega
    · show exSetDone.caps.off 3 + exSetDone.caps.len 3 ≤ 64; omega
    · show 3 ≤ exSetDone.caps.len 3; omega

/-- The calls: function 0 with MSI-X, function 1 with MSI. -/
private def exSetOps : List IrqOp := [.allocIrq 0 1 32, .enableMsi 1 1 32, .request 0 3 100, .request 1 4 101, .request 1 4 102]

private theorem exSet_run : ∃ x, exSetOps.foldlM IrqHost.run exSetHost = .ok x ∧ x.region.limit = 64 ∧ (x.fns 0).msixEnabled = true ∧ (x.fns 1).msiEnabled = true := by
  have h : (exSetOps.foldlM IrqHost.run exSetHost).toOption.any (fun x => x.region.limit == 64 && (x.fns 0).msixEnabled && (x.fns 1).msiEnabled) = true := by
    decide +kernel
  cases hr : exSetOps.foldlM IrqHost.run exSetHost with
  | error e => rw [hr] at h; cases h
  | ok x =>
    rw [hr] at h
    simp only [Except.toOption, Option.any_some, Bool.and_eq_true, beq_iff_eq] at h
    exact ⟨x, rfl, h.1.1, h.1.2, h.2⟩

/-- Two endpoints with both capabilities: interrupt 4 of function 1 has the handlers 101 and 102, interrupt 3 of function 0 the handler 100. -/
example : ∃ x, exSetOps.foldlM IrqHost.run exSetHost = .ok x ∧
    (∃ c, HasMsi (x.fns 1) c ∧ ∃ d v, c.issue 4 = .ok (0x80000000, d) ∧ x.region.vectors d = some v ∧ x.cbs v = [101, 102]) ∧
    (∃ v, x.region.vectors ((x.fns 0).mem 2 0x1038) = some v ∧ x.cbs v = [100]) := by
  obtain ⟨x, hr, hl, h1, h2⟩ := exSet_run
  refine ⟨x, hr, ?_, ?_⟩
  · obtain ⟨c0, c, e0, e1, e2, e3, e4⟩ := C63_msi_partial exSet_new exSet_shows hr ⟨by simp [exSetOps], by intro f c h; cases h; decide⟩ (by rw [hl]; decide) h2
    cases e0
    obtain ⟨d, v, i1, i2, i3⟩ := e4 (by rw [e3]; decide) 4 (by rw [e3]; decide)
    exact ⟨c, e1, d, v, i1, i2, i3⟩
  · obtain ⟨c0, c, e0, e1, e2, e3, e4, e5, e6⟩ := C63_msix exSet_new exSet_shows hr (by rw [hl]; decide) h1
    cases e0
    obtain ⟨-, -, -, v, i1, i2⟩ := e6 3 (by rw [e3]; decide)
    rw [e4, e5] at i1
    exact ⟨v, i1, i2⟩

end Pcie
