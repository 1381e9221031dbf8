/-
C76: devices that are not ready.
-/
import Verif.Lemmas.Crs
import Verif.Props.HostCfg
namespace Pcie
open Spec Crs CapRegs
variable {W α S : Type}

theorem rounds_succ (id : PcieId) (m : Nat) : rounds id (m + 1) = rounds id m ++ [.waited (10 * 2 ^ m), .asked id 0] := by
  unfold rounds
  rw [List.range_succ, List.flatMap_append]
  simp

/-- C76: what the host does to find out when a device is ready, whatever answers come: it waits 10 µs and reads the vendor ID, 20 µs and reads it again, and so on;
it stops after ten rounds at the latest, and does not give up before. -/
theorem C76_schedule (op : Cfg.Op W) (wait : Nat → W → W) (id : PcieId) (w : W) {w' : W} {tr : List HostEv} {r : Bool}
    (h : waitCrs (traceOp op) (traceWait wait) id 0 (w, []) = .ok ((w', tr), r)) : ∃ m, 1 ≤ m ∧ m ≤ 10 ∧ tr = rounds id m ∧ (r = false → m = 10) := by
  obtain ⟨hok, ha, hc, -⟩ := Cfg.readTlp_ok id 0 4 (by omega) (by omega)
  have key : ∀ (j k : Nat) (w : W), k + j = 10 → (k = 0 → 1 ≤ j) → waitCrs (traceOp op) (traceWait wait) id k (w, rounds id k) = .ok ((w', tr), r) →
      ∃ m, k ≤ m ∧ (k = 0 → 1 ≤ m) ∧ m ≤ 10 ∧ tr = rounds id m ∧ (r = false → m = 10) := by
    intro j
    induction j with
    | zero =>
      intro k w hk h0 h
      obtain rfl : k = 10 := by omega
      unfold waitCrs at h
      rw [dif_pos (by decide)] at h
      injection h with h
      injection h with h1 h2
      injection h1 with h3 h4
      exact ⟨10, by omega, by omega, by omega, h4.symm, fun _ => rfl⟩
    | succ j ih =>
      intro k w hk h0 h
      unfold waitCrs at h
      rw [dif_neg (pow_lt10 (by omega)), readDword0] at h
      have e : (traceOp op (traceWait wait (10 * 2 ^ k) (w, rounds id k)) (Cfg.readTlp id 0 4)).1 =
          ((op (wait (10 * 2 ^ k) w) (Cfg.readTlp id 0 4)).1, rounds id (k + 1)) := by
        unfold traceOp traceWait
        simp only [ha, hc, rounds_succ, List.append_assoc]
        rfl
      rw [e] at h
      cases hd : Cfg.dword (Cfg.readTlp id 0 4) (traceOp op (traceWait wait (10 * 2 ^ k) (w, rounds id k)) (Cfg.readTlp id 0 4)).2.1
        (traceOp op (traceWait wait (10 * 2 ^ k) (w, rounds id k)) (Cfg.readTlp id 0 4)).2.2 with
      | error x => rw [hd] at h; cases h
      | ok d =>
        rw [hd] at h
        simp only at h
        split at h
        · obtain ⟨m, q1, q2, q3, q4, q5⟩ := ih (k + 1) _ (by omega) (by omega) h
          exact ⟨m, by omega, by omega, q3, q4, q5⟩
        · injection h with h
          injection h with h1 h2
          injection h1 with h3 h4
          exact ⟨k + 1, by omega, by omega, by omega, h4.symm, fun h => by rw [← h2] at h; cases h⟩
  obtain ⟨m, -, q2, q3, q4, q5⟩ := key 10 0 w (by omega) (by omega) h
  exact ⟨m, q2 rfl, q3, q4, q5⟩

theorem patience_eq : patience = 10230000 := by decide

/-- C76: a device that gets ready within the host's patience of 10.23 ms is found as if it had been ready from the start: the host records the same functions, with the
same IDs and the same results of their setup, and the device is left in the same state. This is for every device, whatever it has inside; for every setup
program; and however long the requests take. -/
theorem C76_found (op : Cfg.Op W) (dsp : W → PcieId → Bool) (lat : Nat → Tlp → Nat × Nat) (cid : PcieId) (setup : PcieId → CfgProg (α × Bool)) (n d : Nat)
    (w : Late W) {w1 : W} {v : Nat} (hr : w.readyAt ≤ w.clock + patience) (hid : (busIo op ⟨n, d, 0⟩).readDword w.inner 0 = .ok (w1, v)) (hv : ValidId v) :
    ∃ c, w.clock ≤ c ∧ w.readyAt ≤ c ∧ scanDev (Late.op op lat true cid) (fun w => dsp w.inner) Late.wait setup n d w =
      (scanDev op dsp (fun _ w => w) setup n d w.inner).map fun r => (⟨c, w.readyAt, r.1⟩, r.2) := by
  rw [patience_eq] at hr
  unfold ValidId at hv
  simp only [List.mem_cons, List.not_mem_nil, or_false, not_or] at hv
  obtain ⟨v1, v2, v3, v4, v5⟩ := hv
  have hin : scanDev op dsp (fun _ w => w) setup n d w.inner =
      (scanFns op dsp setup n d (List.range 8) w1).map fun x => (x.1, some x.2) := by
    unfold scanDev
    rw [hid]
    simp only
    rw [if_neg (by omega), if_neg v5]
  rw [hin]
  have fin : ∀ c, w.clock ≤ c → w.readyAt ≤ c → ∃ c', w.clock ≤ c' ∧ w.readyAt ≤ c' ∧
      ((scanFns (Late.op op lat true cid) (fun w => dsp w.inner) setup n d (List.range 8) ⟨c, w.readyAt, w1⟩).map fun x => (x.1, some x.2)) =
      ((scanFns op dsp setup n d (List.range 8) w1).map fun x => (x.1, some x.2)).map fun r => ((⟨c', w.readyAt, r.1⟩ : Late W), r.2) := by
    intro c h1 h2
    obtain ⟨c', h3, h4⟩ := scanFns_ready op lat true cid dsp setup n d (List.range 8) ⟨c, w.readyAt, w1⟩ h2
    simp only at h3
    refine ⟨c', by omega, by omega, ?_⟩
    rw [h4]
    simp only
    cases scanFns op dsp setup n d (List.range 8) w1 with
    | error e => rfl
    | ok x => rfl
  unfold scanDev
  rcases Nat.lt_or_ge (w.clock + (lat w.clock (Cfg.readTlp ⟨n, d, 0⟩ 0 4)).1) w.readyAt with hl | hl
  · rw [readDword_late op lat true cid w _ hl]
    simp only [if_true]
    rw [if_neg (by decide)]
    obtain ⟨c, h0, h1, h2⟩ := waitCrs_ready op lat cid w1 v ⟨n, d, 0⟩ v5 9 0 ⟨w.clock + (lat w.clock (Cfg.readTlp ⟨n, d, 0⟩ 0 4)).1 +
        (lat w.clock (Cfg.readTlp ⟨n, d, 0⟩ 0 4)).2, w.readyAt, w.inner⟩ rfl hid (by simp only [Nat.reducePow]; omega)
    simp only at h0 h1
    rw [h2]
    exact fin c (by omega) h0
  · obtain ⟨c, h0, h1, h2⟩ := readDword_ready op lat true cid w ⟨n, d, 0⟩ hl
    rw [h2, hid]
    simp only [Except.map, lift]
    rw [if_neg (by omega), if_neg v5]
    exact fin c h1 h0

/-- C76: a device that is still not ready when the host's patience ends is left out, and is not touched. `B` is the longest time that a request takes: the host
has spent between 10.23 ms and 10.23 ms + 11 B on the device, and goes on. -/
theorem C76_given_up (op : Cfg.Op W) (dsp : Late W → PcieId → Bool) (lat : Nat → Tlp → Nat × Nat) (cid : PcieId) (setup : PcieId → CfgProg (α × Bool)) (n d : Nat)
    (w : Late W) (B : Nat) (hB : ∀ c t, (lat c t).1 + (lat c t).2 ≤ B) (hr : w.clock + patience + 11 * B < w.readyAt) :
    ∃ c, w.clock + patience ≤ c ∧ c ≤ w.clock + patience + 11 * B ∧
      scanDev (Late.op op lat true cid) dsp Late.wait setup n d w = .ok (⟨c, w.readyAt, w.inner⟩, none) := by
  rw [patience_eq] at *
  have hb := hB w.clock (Cfg.readTlp ⟨n, d, 0⟩ 0 4)
  unfold scanDev
  rw [readDword_late op lat true cid w _ (by omega)]
  simp only [if_true]
  rw [if_neg (by decide)]
  obtain ⟨c, h0, h1, h2⟩ := waitCrs_late op lat cid ⟨n, d, 0⟩ B hB 10 0 ⟨w.clock + (lat w.clock (Cfg.readTlp ⟨n, d, 0⟩ 0 4)).1 +
      (lat w.clock (Cfg.readTlp ⟨n, d, 0⟩ 0 4)).2, w.readyAt, w.inner⟩ rfl (by simp only [Nat.reducePow]; omega)
  simp only [Nat.reducePow] at h0 h1
  rw [h2]
  exact ⟨c, by omega, by omega, rfl⟩

/-- C76: where the root port does not show completion retry status, a device that is not ready when the host first looks is not found, and the host does not look
again. -/
theorem C76_hidden (op : Cfg.Op W) (dsp : Late W → PcieId → Bool) (lat : Nat → Tlp → Nat × Nat) (cid : PcieId) (setup : PcieId → CfgProg (α × Bool)) (n d : Nat)
    (w : Late W) (hr : w.clock + (lat w.clock (Cfg.readTlp ⟨n, d, 0⟩ 0 4)).1 < w.readyAt) :
    ∃ c, scanDev (Late.op op lat false cid) dsp Late.wait setup n d w = .ok (⟨c, w.readyAt, w.inner⟩, none) := by
  unfold scanDev
  rw [readDword_late op lat false cid w _ hr]
  exact ⟨_, rfl⟩

/-- C76: `enable_crs`, which the host calls before it looks below a bridge, makes a port that can show completion retry status do so; it changes nothing else, and
nothing in a port that cannot. -/
theorem C76_enable {p : CfgPort S} {c : Nat} {a : Attrs} (h : HasPcie p c a) (h9 : 9 ≤ p.fn.regs.common.caps.pci.len c) :
    ∃ p', p.enableCrs = .ok p' ∧ OnlyBits p p' (fun reg i => reg = rootReg p ∧ i = 4) ∧
      (regOf p' (rootReg p)).testBit 4 = ((regOf p (rootReg p)).testBit 4 || (regOf p (rootReg p)).testBit 16) := by
  have hlen := h.found.len
  have hf : CapFound p.toIrqPort 0x10 c 9 := ⟨h.found.found, h.found.isId, h.found.lies, h9⟩
  have hroot : rootReg p = p.fn.regs.common.caps.pci.off c + 7 := by
    unfold rootReg
    rw [h.found.found, Option.getD_some, Nat.mul_div_cancel_left _ (by omega : 0 < 4)]
  have hreg : regOf p (rootReg p) = pcie.read a 7 := by
    rw [hroot, h.reg (by omega)]
    rfl
  have hd : ∀ i, (7, i) ∉ pcieReadDev ∧ (7, i) ∉ pcieWriteDev := by
    intro i
    have e1 : ∀ x ∈ pcieReadDev, x.1 ≠ 7 := by decide +kernel
    have e2 : ∀ x ∈ pcieWriteDev, x.1 ≠ 7 := by decide +kernel
    exact ⟨fun h => e1 _ h rfl, fun h => e2 _ h rfl⟩
  unfold CfgPort.enableCrs
  rw [if_neg (by rw [h.has]; decide)]
  obtain ⟨f1, v, r1, r2, r3, r4⟩ := IrqPort.io_readDword_hi hf h.dev h.noShare h.own_lt (k := 7) (by omega) (by omega)
  rw [h.own] at r2
  rw [show (0x1e : Nat) = 4 * 7 + 2 from rfl, r1, ok_bind]
  simp only
  have hv : v &&& 1 = if v.testBit 0 then 1 else 0 := by
    rw [Nat.and_one_is_mod, Nat.testBit_zero]
    rcases Nat.mod_two_eq_zero_or_one v with e | e <;> simp [e]
  have hn1 := h.same r3 r4
  have hsame : ∀ r, regOf { p with fn := f1 } r = regOf p r := by
    intro r
    unfold regOf
    simp only [r3]
  by_cases hb : (pcie.read a 7).testBit 16 = true
  · rw [if_neg (by rw [hv, r2, hb]; decide)]
    have hf1 : CapFound ({ p with fn := f1 } : CfgPort S).toIrqPort 0x10 c 9 := Shows.found_same hf (by rw [r3])
    obtain ⟨f2, s1, s2, s3⟩ := IrqPort.io_readWord_lo hf1 hn1.dev hn1.noShare hn1.own_lt (k := 7) (by omega) (by omega)
    rw [hn1.own] at s1
    have s1' : (p.io 0x10).readWord f1 0x1c = .ok (f2, pcie.read a 7 % 2 ^ 16) := s1
    rw [s1', ok_bind]
    simp only
    have hn2 := hn1.same s2 s3
    have hsame2 : ∀ r, regOf { p with fn := f2 } r = regOf p r := by
      intro r
      rw [← hsame]
      unfold regOf
      simp only at s2
      simp only [s2]
    by_cases hw : pcie.read a 7 % 2 ^ 16 ||| 0x10 = pcie.read a 7 % 2 ^ 16
    · rw [if_neg (by rw [hw]; simp), ok_bind]
      refine ⟨_, rfl, ⟨rfl, fun r i _ => by rw [hsame2]⟩, ?_⟩
      rw [hsame2, hreg, hb, Bool.or_true]
      have := congrArg (fun x => x.testBit 4) hw
      simp only [Nat.testBit_or, Nat.testBit_mod_two_pow] at this
      have e4 : (0x10 : Nat).testBit 4 = true := by decide
      simpa [e4] using this
    · rw [if_pos hw]
      have hf2 : CapFound ({ p with fn := f2 } : CfgPort S).toIrqPort 0x10 c 9 := Shows.found_same hf1 (by simp only; simp only at s2; rw [s2])
      obtain ⟨f3, u, t1, t2, t3, t4⟩ := IrqPort.io_writeWord_lo hf2 hn2.dev hn2.noShare (k := 7) (v := pcie.read a 7 % 2 ^ 16 ||| 0x10)
        (Nat.or_lt_two_pow (Nat.mod_lt _ (by decide)) (by decide)) (by omega)
      have t1' : (p.io 0x10).writeWord f2 0x1c (pcie.read a 7 % 2 ^ 16 ||| 0x10) = .ok f3 := t1
      rw [t1', ok_bind]
      obtain ⟨emb, b, d⟩ := hn2.regs
      have hr : f3.regs = withCap f2.regs c (emb (pcie.write a 7 u 0x3)) := by
        rw [t4]
        simp only at d b ⊢
        rw [d, b.write]
      have hn3 := hn2.put b _ hr t2
      have hpci : f3.regs.common.caps.pci = p.fn.regs.common.caps.pci := by
        rw [hr, Shows.withCap_pci]
        simp only at s2
        rw [s2, r3]
      have hbit : ∀ i, (pcie.read (pcie.write a 7 u 0x3) 7).testBit i = if i = 4 then true else (pcie.read a 7).testBit i := by
        intro i
        have hw := C51_pcie_write_partial a 7 u 0x3 i (hd i).1 (hd i).2
        unfold WrittenAt at hw
        rw [hw]
        have hm : (0x3 : Nat).testBit (i / 8) = decide (i < 16) := by
          by_cases h16 : i < 16
          · have : i / 8 < 2 := by omega
            have : ∀ j, j < 2 → (0x3 : Nat).testBit j = true := by decide
            rw [this _ (by omega)]
            simp [h16]
          · rw [tb_big 3 (i / 8) 2 (by decide) (by omega)]
            simp [h16]
        rw [hm]
        by_cases h16 : i < 16
        · have hu : u.testBit i = ((pcie.read a 7).testBit i || decide (i = 4)) := by
            rw [t3 i h16, Nat.testBit_or, Nat.testBit_mod_two_pow]
            have : ∀ i, i < 16 → (0x10 : Nat).testBit i = decide (i = 4) := by decide
            rw [this i h16]
            simp [h16]
          have hacc : ∀ i, i < 16 → pcieMap.hasAcc .w1c 7 i = false ∧ (i = 4 → pcieMap.hasAcc .rw 7 i = true) := by decide +kernel
          obtain ⟨a1, a2⟩ := hacc i h16
          simp only [h16, decide_true, if_true, a1, hu]
          by_cases h4 : i = 4
          · simp [h4, a2 h4, h4 ▸ a2 h4]
          · simp [h4]
        · simp only [h16, decide_false]
          simp
          intro h; omega
      have hro : ∀ r, regOf { p with fn := f3 } r = if r = rootReg p then pcie.read (pcie.write a 7 u 0x3) 7 else regOf p r := by
        intro r
        by_cases ho : r < 64 ∧ Occupies p.fn.regs.common.caps.pci c r
        · obtain ⟨-, -, o1, o2⟩ := ho
          obtain ⟨k, rfl⟩ : ∃ k, r = p.fn.regs.common.caps.pci.off c + k := ⟨r - p.fn.regs.common.caps.pci.off c, by omega⟩
          have := hn3.reg (k := k) (by show k < f3.regs.common.caps.pci.len c; rw [hpci]; omega)
          rw [show ({ p with fn := f3 } : CfgPort S).fn.regs.common.caps.pci = p.fn.regs.common.caps.pci from hpci] at this
          have this' : regOf { p with fn := f3 } (p.fn.regs.common.caps.pci.off c + k) = _ := this
          rw [this', hroot]
          by_cases hk : k = 7
          · subst hk
            rw [if_pos rfl]
            rfl
          · rw [if_neg (by omega), h.reg (by omega)]
            have hw : ∀ j, j ≠ 7 → pcie.read (pcie.write a 7 u 0x3) j = pcie.read a j := fun j hj => C51_pcie_others a 7 j u 0x3 hj
            unfold shown
            split
            · rw [hw 0 (by omega)]
            · exact hw k hk
        · rw [if_neg (by
            intro e
            apply ho
            have := h.found.lies.hi
            have hm := h.found.lies.mem
            rw [e, hroot]
            exact ⟨by omega, hm, by omega, by omega⟩)]
          rw [← hsame2]
          show (Fn.ops (CapSpace.ops p.beh p.behx)).read f3.regs r = (Fn.ops (CapSpace.ops p.beh p.behx)).read f2.regs r
          have ho2 : ¬ (r < 64 ∧ Occupies f2.regs.common.caps.pci c r) := by
            simp only at s2
            rw [s2, r3]
            exact ho
          rw [hr, C59_apart p.beh p.behx _ c r _ ho2]
      refine ⟨_, rfl, ⟨rfl, fun r i hri => ?_⟩, ?_⟩
      · rw [hro]
        split
        · next e =>
          rw [hbit, e, hreg, if_neg (fun h => hri ⟨e, h⟩)]
        · rfl
      · rw [hro, if_pos rfl, hbit, if_pos rfl, hreg, hb, Bool.or_true]
  · have hb' : (pcie.read a 7).testBit 16 = false := by simpa using hb
    rw [if_pos (by rw [hv, r2, hb']; rfl)]
    refine ⟨_, rfl, ⟨rfl, fun r i _ => by rw [hsame]⟩, ?_⟩
    rw [hsame, hreg, hb', Bool.or_false]

/-! ### The hypotheses can be met -/

/-- A device with one function, which has the IDs 1234:5678. -/
private def exLateOp : Cfg.Op Unit := fun w t =>
  let d : List UInt8 := if t.address = 0 then [0x34, 0x12, 0x78, 0x56] else if t.address = 8 then [1, 0, 0, 2] else [0, 0, 0, 0]
  if t.completer_id.function = 0 then (w, [{ (t.createCompletionData ⟨1, 0, 0⟩).setData d with byte_count := 4 }], some true)
  else (w, [t.createUr ⟨1, 0, 0⟩], some true)
/-- The part of `setup` that reads the header type and the class code. -/
private def exLateSetup (id : PcieId) : CfgProg ((Nat × Nat) × Bool) := do
  let h ← Host.readByte id 0xe
  let v ← Host.readDword id 8
  return ((h &&& 0x7f, v >>> 8), h &&& 0x80 ≠ 0)
private def exLateLat (_ : Nat) (_ : Tlp) : Nat × Nat := (100, 200)

private theorem exLate_ok {β : Type} {x : Py β} {y : β} (h : x.toOption = some y) : x = .ok y := by
  cases x with
  | error e => cases h
  | ok z => injection h with h; rw [h]

private theorem exLate_id : (busIo exLateOp ⟨1, 0, 0⟩).readDword () 0 = .ok ((), 0x56781234) := exLate_ok (by decide +kernel)

/-- A device that is ready after 5 ms is found, with its IDs and class code. -/
example : ∃ c, 5000000 ≤ c ∧ scanDev (Late.op exLateOp exLateLat true ⟨1, 0, 0⟩) (fun _ _ => false) Late.wait exLateSetup 1 0 ⟨0, 5000000, ()⟩ =
    .ok (⟨c, 5000000, ()⟩, some [⟨⟨1, 0, 0⟩, 0x1234, 0x5678, 0, 0x20000⟩]) := by
  obtain ⟨c, h1, h2, h3⟩ := C76_found exLateOp (fun _ _ => false) exLateLat ⟨1, 0, 0⟩ exLateSetup 1 0 ⟨0, 5000000, ()⟩
    (by rw [patience_eq]; decide) exLate_id (by unfold ValidId; decide)
  refine ⟨c, h2, ?_⟩
  rw [h3, exLate_ok (x := scanDev exLateOp (fun _ _ => false) (fun _ w => w) exLateSetup 1 0 ())
    (y := ((), some [⟨⟨1, 0, 0⟩, 0x1234, 0x5678, 0, 0x20000⟩])) (by decide +kernel)]
  rfl

/-- One that takes 11 ms is not. -/
example : ∃ c, scanDev (Late.op exLateOp exLateLat true ⟨1, 0, 0⟩) (fun _ _ => false) Late.wait exLateSetup 1 0 ⟨0, 11000000, ()⟩ =
    .ok (⟨c, 11000000, ()⟩, none) := by
  obtain ⟨c, -, -, h⟩ := C76_given_up exLateOp (fun _ _ => false) exLateLat ⟨1, 0, 0⟩ exLateSetup 1 0 ⟨0, 11000000, ()⟩ 300
    (fun _ _ => Nat.le_refl 300) (by rw [patience_eq]; decide)
  exact ⟨c, h⟩

/-- Nor is one that takes a microsecond, where completion retry status is not visible. -/
example : ∃ c, scanDev (Late.op exLateOp exLateLat false ⟨1, 0, 0⟩) (fun _ _ => false) Late.wait exLateSetup 1 0 ⟨0, 1000, ()⟩ =
    .ok (⟨c, 1000, ()⟩, none) :=
  C76_hidden exLateOp (fun _ _ => false) exLateLat ⟨1, 0, 0⟩ exLateSetup 1 0 ⟨0, 1000, ()⟩ (by decide)

/-- A device that never gets ready is looked at ten times. -/
example : waitCrs (traceOp (fun (w : Unit) t => (w, [t.createCrs ⟨1, 0, 0⟩], some true))) (traceWait fun _ w => w) ⟨1, 0, 0⟩ 0 ((), []) =
    .ok (((), rounds ⟨1, 0, 0⟩ 10), false) := by
  have h : ∀ (j k : Nat), k + j = 10 → waitCrs (traceOp (fun (w : Unit) t => (w, [t.createCrs ⟨1, 0, 0⟩], some true))) (traceWait fun _ w => w) ⟨1, 0, 0⟩ k
      ((), rounds ⟨1, 0, 0⟩ k) = .ok (((), rounds ⟨1, 0, 0⟩ 10), false) := by
    obtain ⟨-, ha, hc, -⟩ := Cfg.readTlp_ok ⟨1, 0, 0⟩ 0 4 (by omega) (by omega)
    intro j
    induction j with
    | zero =>
      intro k hk
      obtain rfl : k = 10 := by omega
      unfold waitCrs
      rw [dif_pos (by decide)]
    | succ j ih =>
      intro k hk
      unfold waitCrs
      rw [dif_neg (pow_lt10 (by omega)), readDword0]
      have e : (traceOp (fun (w : Unit) t => (w, [t.createCrs ⟨1, 0, 0⟩], some true)) (traceWait (fun _ w => w) (10 * 2 ^ k) ((), rounds ⟨1, 0, 0⟩ k))
          (Cfg.readTlp ⟨1, 0, 0⟩ 0 4)) = (((), rounds ⟨1, 0, 0⟩ (k + 1)), [(Cfg.readTlp ⟨1, 0, 0⟩ 0 4).createCrs ⟨1, 0, 0⟩], some true) := by
        unfold traceOp traceWait
        simp only [ha, hc, rounds_succ, List.append_assoc]
        rfl
      rw [e]
      have hd : Cfg.dword (Cfg.readTlp ⟨1, 0, 0⟩ 0 4) [(Cfg.readTlp ⟨1, 0, 0⟩ 0 4).createCrs ⟨1, 0, 0⟩] (some true) = .ok [1, 0, 0xff, 0xff] := by
        unfold Cfg.dword
        simp only
        rw [if_pos ⟨rfl, by rw [ha], rfl⟩, if_pos trivial]
      rw [hd]
      simp only
      rw [if_pos (by decide)]
      exact ih (k + 1) (by omega)
  exact h 10 0 rfl

/-- A root port that can show completion retry status. -/
private def exCrsRoot : Attrs := fun x => if x = ("crs_software_visibility", 0) then 1 else if x = ("pme_interrupt_enable", 0) then 1 else exCfgRoot x
private def exCrsPort : CfgPort Attrs :=
  { exCfgRootPort with fn := ⟨⟨0, 1, 0⟩, .br true { capPtr := exCfgDone.ptr, caps := exCfgSpace exCrsRoot }⟩ }

private theorem exCrs_has : HasPcie exCrsPort 1 exCrsRoot := by
  obtain ⟨h, o0, o1, l0, l1, i1⟩ := exCfg_offs
  refine ⟨⟨rfl, rfl⟩, exCfg_noShare, ⟨?_, i1, exCfg_lies, ?_⟩, id, ⟨fun _ _ => rfl, fun _ _ _ _ => rfl⟩, rfl⟩
  · show _ = some (4 * exCfgDone.caps.off 1); rw [o1]; rfl
  · show 3 ≤ exCfgDone.caps.len 1; omega

example : ∃ p', exCrsPort.enableCrs = .ok p' ∧ (regOf p' (rootReg exCrsPort)).testBit 4 = true ∧ (regOf exCrsPort (rootReg exCrsPort)).testBit 4 = false ∧
    (regOf p' (rootReg exCrsPort)).testBit 3 = true := by
  obtain ⟨p', e1, e2, e3⟩ := C76_enable exCrs_has (by show 9 ≤ exCfgDone.caps.len 1; obtain ⟨h, o0, o1, l0, l1, i1⟩ := exCfg_offs; omega)
  refine ⟨p', e1, ?_, by decide +kernel, ?_⟩
  · rw [e3]; decide +kernel
  · rw [e2.regs _ 3 (by rintro ⟨-, h⟩; cases h)]; decide +kernel

/-- A device with two functions of which the second one is not ready: function 0 answers, function 1 asks for a retry. -/
private def exHalfOp : Cfg.Op Unit := fun w t =>
  let d : List UInt8 := if t.address = 0 then [0x34, 0x12, 0x78, 0x56] else [0, 0, 0x80, 0]
  if t.completer_id.function = 0 then (w, [{ (t.createCompletionData ⟨1, 0, 0⟩).setData d with byte_count := 4 }], some true)
  else if t.completer_id.function = 1 then (w, [t.createCrs ⟨1, 0, 1⟩], some true)
  else (w, [t.createUr ⟨1, 0, t.completer_id.function⟩], some true)

/-- Only function 0 is waited for. Another function that is not ready is recorded at once as a device with vendor ID 1 and device ID 0xffff, with whatever its
registers read as, all ones. -/
theorem C76_function_violated : (scanDev exHalfOp (fun _ _ => false) (fun _ w => w) exLateSetup 1 0 ()).toOption =
    some ((), some [⟨⟨1, 0, 0⟩, 0x1234, 0x5678, 0, 0x8000⟩, ⟨⟨1, 0, 1⟩, 1, 0xffff, 0x7f, 0xffffff⟩]) := by decide +kernel

end Pcie
