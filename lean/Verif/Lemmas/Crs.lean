/-
Helper lemmas: devices that are not ready yet.
-/
import Verif.Model.Crs
import Verif.Spec.Crs
import Verif.Lemmas.CfgAccess
import Verif.Lemmas.HostCfg
namespace Pcie
namespace Crs
variable {W α : Type}

theorem readReqs4 (dev : PcieId) : Cfg.readReqs dev 4 0 0 = [(0, Cfg.readTlp dev 0 4)] := by
  have hl : IoRegion.len 0 (4 - 0) = 4 := by decide
  rw [Cfg.readReqs.eq_1, dif_pos (by omega)]
  simp only [hl]
  rw [Cfg.readReqs.eq_1, dif_neg (by omega)]

/-- Reading register 0 takes one request. -/
theorem readDword0 (op : Cfg.Op W) (id : PcieId) (w : W) : (busIo op id).readDword w 0 =
    match Cfg.dword (Cfg.readTlp id 0 4) (op w (Cfg.readTlp id 0 4)).2.1 (op w (Cfg.readTlp id 0 4)).2.2 with
    | .error e => .error e
    | .ok d => .ok ((op w (Cfg.readTlp id 0 4)).1, fromBytes (slice (d.take 4) 0 4) .little) := by
  unfold ByteIo.readDword ByteIo.readDwords ByteIo.readWords busIo Cfg.read
  simp only [Nat.one_mul]
  rw [readReqs4]
  unfold Cfg.readAll
  simp only
  cases Cfg.dword (Cfg.readTlp id 0 4) (op w (Cfg.readTlp id 0 4)).2.1 (op w (Cfg.readTlp id 0 4)).2.2 with
  | error e => rfl
  | ok d => rfl

/-- The state of a device that was late is that of the device, and the time. -/
def lift (c r : Nat) {β : Type} (x : W × β) : Late W × β := (⟨c, r, x.1⟩, x.2)

variable (op : Cfg.Op W) (lat : Nat → Tlp → Nat × Nat) (vis : Bool) (cid : PcieId) (dsp : W → PcieId → Bool)

theorem Late.op_ready (w : Late W) (t : Tlp) (h : w.readyAt ≤ w.clock + (lat w.clock t).1) : Late.op op lat vis cid w t =
    (⟨w.clock + (lat w.clock t).1 + (lat w.clock t).2, w.readyAt, (op w.inner t).1⟩, (op w.inner t).2) := by
  unfold Late.op
  simp only
  rw [if_neg (by omega)]

theorem readAll_ready (l : List (Nat × Tlp)) : ∀ (w : Late W) (data : List UInt8), w.readyAt ≤ w.clock → ∃ c, w.clock ≤ c ∧
    Cfg.readAll (Late.op op lat vis cid) w l data = (Cfg.readAll op w.inner l data).map (lift c w.readyAt) := by
  induction l with
  | nil => intro w data h; exact ⟨w.clock, Nat.le_refl _, rfl⟩
  | cons x rest ih =>
    intro w data h
    obtain ⟨pad, t⟩ := x
    unfold Cfg.readAll
    rw [Late.op_ready op lat vis cid w t (by omega)]
    simp only
    cases Cfg.dword t (op w.inner t).2.1 (op w.inner t).2.2 with
    | error e => exact ⟨w.clock, Nat.le_refl _, rfl⟩
    | ok d =>
      obtain ⟨c, h1, h2⟩ := ih ⟨w.clock + (lat w.clock t).1 + (lat w.clock t).2, w.readyAt, (op w.inner t).1⟩ (data ++ d.drop pad) (by simp only; omega)
      exact ⟨c, by simp only at h1; omega, h2⟩

theorem read_ready (w : Late W) (h : w.readyAt ≤ w.clock) (dev : PcieId) (addr n : Nat) : ∃ c, w.clock ≤ c ∧
    Cfg.read (Late.op op lat vis cid) w dev addr n = (Cfg.read op w.inner dev addr n).map (lift c w.readyAt) := by
  obtain ⟨c, h1, h2⟩ := readAll_ready op lat vis cid (Cfg.readReqs dev n 0 addr) w [] h
  refine ⟨c, h1, ?_⟩
  unfold Cfg.read
  rw [h2]
  cases Cfg.readAll op w.inner (Cfg.readReqs dev n 0 addr) [] with
  | error e => rfl
  | ok x => rfl

theorem write_ready (w : Late W) (h : w.readyAt ≤ w.clock) (dev : PcieId) (addr : Nat) (data : List UInt8) : ∃ c, w.clock ≤ c ∧
    Cfg.write (Late.op op lat vis cid) w dev addr data = ⟨c, w.readyAt, Cfg.write op w.inner dev addr data⟩ := by
  unfold Cfg.write
  generalize Cfg.writeReqs dev data 0 addr = l
  induction l generalizing w with
  | nil => exact ⟨w.clock, Nat.le_refl _, rfl⟩
  | cons t ts ih =>
    simp only [List.foldl_cons]
    rw [Late.op_ready op lat vis cid w t (by omega)]
    obtain ⟨c, h1, h2⟩ := ih ⟨w.clock + (lat w.clock t).1 + (lat w.clock t).2, w.readyAt, (op w.inner t).1⟩ (by simp only; omega)
    exact ⟨c, by simp only at h1; omega, h2⟩

theorem exec_ready (p : CfgProg α) : ∀ (w : Late W), w.readyAt ≤ w.clock → ∃ c, w.clock ≤ c ∧
    exec (Late.op op lat vis cid) (fun w => dsp w.inner) p w = (exec op dsp p w.inner).map (lift c w.readyAt) := by
  induction p with
  | ret a => intro w h; exact ⟨w.clock, Nat.le_refl _, rfl⟩
  | raise e => intro w h; exact ⟨w.clock, Nat.le_refl _, rfl⟩
  | rd id addr len k ih =>
    intro w h
    unfold exec
    obtain ⟨c, h1, h2⟩ := read_ready op lat vis cid w h id addr len
    rw [h2]
    cases Cfg.read op w.inner id addr len with
    | error e => exact ⟨c, h1, rfl⟩
    | ok x =>
      obtain ⟨c', h3, h4⟩ := ih x.2 ⟨c, w.readyAt, x.1⟩ (by simp only; omega)
      exact ⟨c', by simp only at h3; omega, h4⟩
  | wr id addr data k ih =>
    intro w h
    unfold exec
    obtain ⟨c, h1, h2⟩ := write_ready op lat vis cid w h id addr data
    rw [h2]
    obtain ⟨c', h3, h4⟩ := ih ⟨c, w.readyAt, Cfg.write op w.inner id addr data⟩ (by simp only; omega)
    exact ⟨c', by simp only at h3; omega, h4⟩
  | dsp id k ih =>
    intro w h
    unfold exec
    exact ih _ w h

/-- One read of register 0 by the host, when the request arrives at a device that is ready. -/
theorem readDword_ready (w : Late W) (id : PcieId) (h : w.readyAt ≤ w.clock + (lat w.clock (Cfg.readTlp id 0 4)).1) : ∃ c, w.readyAt ≤ c ∧ w.clock ≤ c ∧
    (busIo (Late.op op lat vis cid) id).readDword w 0 = ((busIo op id).readDword w.inner 0).map (lift c w.readyAt) := by
  refine ⟨w.clock + (lat w.clock (Cfg.readTlp id 0 4)).1 + (lat w.clock (Cfg.readTlp id 0 4)).2, by omega, by omega, ?_⟩
  rw [readDword0, readDword0, Late.op_ready op lat vis cid w _ h]
  simp only
  cases Cfg.dword (Cfg.readTlp id 0 4) (op w.inner (Cfg.readTlp id 0 4)).2.1 (op w.inner (Cfg.readTlp id 0 4)).2.2 with
  | error e => rfl
  | ok d => rfl

/-- And when it is not. -/
theorem readDword_late (w : Late W) (id : PcieId) (h : w.clock + (lat w.clock (Cfg.readTlp id 0 4)).1 < w.readyAt) :
    (busIo (Late.op op lat vis cid) id).readDword w 0 =
      .ok (⟨w.clock + (lat w.clock (Cfg.readTlp id 0 4)).1 + (lat w.clock (Cfg.readTlp id 0 4)).2, w.readyAt, w.inner⟩, if vis then 0xffff0001 else 0xffffffff) := by
  obtain ⟨-, ha, -, -⟩ := Cfg.readTlp_ok id 0 4 (by omega) (by omega)
  have e : Late.op op lat vis cid w (Cfg.readTlp id 0 4) =
      (⟨w.clock + (lat w.clock (Cfg.readTlp id 0 4)).1 + (lat w.clock (Cfg.readTlp id 0 4)).2, w.readyAt, w.inner⟩,
        [(Cfg.readTlp id 0 4).createCrs cid], some vis) := by
    unfold Late.op
    simp only
    rw [if_pos h]
    unfold Region.collect
    rw [if_pos (by show CplStatus.CRS ≠ CplStatus.SC; decide)]
  rw [readDword0, e]
  unfold Cfg.dword
  simp only
  rw [if_pos ⟨rfl, by rw [ha], rfl⟩]
  cases vis
  · rw [if_neg (by decide)]
    rfl
  · rw [if_pos rfl]
    rfl

theorem scanFns_ready (setup : PcieId → CfgProg (α × Bool)) (n d : Nat) (l : List Nat) : ∀ (w : Late W), w.readyAt ≤ w.clock → ∃ c, w.clock ≤ c ∧
    scanFns (Late.op op lat vis cid) (fun w => dsp w.inner) setup n d l w = (scanFns op dsp setup n d l w.inner).map (lift c w.readyAt) := by
  induction l with
  | nil => intro w h; exact ⟨w.clock, Nat.le_refl _, rfl⟩
  | cons f fs ih =>
    intro w h
    unfold scanFns
    obtain ⟨c, -, h1, h2⟩ := readDword_ready op lat vis cid w ⟨n, d, f⟩ (by omega)
    rw [h2]
    cases (busIo op ⟨n, d, f⟩).readDword w.inner 0 with
    | error e => exact ⟨c, h1, rfl⟩
    | ok x =>
      obtain ⟨w1, v⟩ := x
      simp only [Except.map, lift]
      split
      · obtain ⟨c', h3, h4⟩ := ih ⟨c, w.readyAt, w1⟩ (by simp only; omega)
        exact ⟨c', by simp only at h3; omega, h4⟩
      · obtain ⟨c', h3, h4⟩ := exec_ready op lat vis cid dsp (setup ⟨n, d, f⟩) ⟨c, w.readyAt, w1⟩ (by simp only; omega)
        rw [h4]
        simp only at h3
        cases exec op dsp (setup ⟨n, d, f⟩) w1 with
        | error e => exact ⟨c', by omega, rfl⟩
        | ok y =>
          obtain ⟨w2, info, multi⟩ := y
          simp only [Except.map, lift]
          cases multi
          · exact ⟨c', by omega, rfl⟩
          · simp only [if_true]
            obtain ⟨c'', h5, h6⟩ := ih ⟨c', w.readyAt, w2⟩ (by simp only; omega)
            rw [h6]
            simp only at h5
            refine ⟨c'', by omega, ?_⟩
            cases scanFns op dsp setup n d fs w2 with
            | error e => rfl
            | ok z => rfl

theorem pow_lt10 {k : Nat} (h : k < 10) : ¬ 10000 < 10 * 2 ^ k := by
  have : 2 ^ k ≤ 2 ^ 9 := Nat.pow_le_pow_right (by omega) (by omega)
  omega

theorem waitCrs_ready (w1 : W) (v : Nat) (id : PcieId) (hv : v ≠ 0xffff0001) (m : Nat) : ∀ (k : Nat) (w : Late W), k + m = 9 →
    (busIo op id).readDword w.inner 0 = .ok (w1, v) → w.readyAt ≤ w.clock + 10000 * (2 ^ 10 - 2 ^ k) → ∃ c, w.readyAt ≤ c ∧ w.clock ≤ c ∧
    waitCrs (Late.op op lat true cid) Late.wait id k w = .ok (⟨c, w.readyAt, w1⟩, true) := by
  induction m with
  | zero =>
    intro k w hk hr ht
    obtain rfl : k = 9 := by omega
    unfold waitCrs
    rw [dif_neg (pow_lt10 (by omega))]
    obtain ⟨c, h0, h1, h2⟩ := readDword_ready op lat true cid (Late.wait (10 * 2 ^ 9) w) id (by
      unfold Late.wait
      simp only
      omega)
    unfold Late.wait at h0 h1 h2
    simp only at h0 h1
    rw [show (Late.wait (10 * 2 ^ 9) w) = { w with clock := w.clock + 1000 * (10 * 2 ^ 9) } from rfl, h2]
    simp only [hr, Except.map, lift]
    rw [if_neg hv]
    exact ⟨c, h0, by omega, rfl⟩
  | succ m ih =>
    intro k w hk hr ht
    have hp : 2 ^ k ≤ 2 ^ 9 := Nat.pow_le_pow_right (by omega) (by omega)
    unfold waitCrs
    rw [dif_neg (pow_lt10 (by omega))]
    rcases Nat.lt_or_ge ((Late.wait (10 * 2 ^ k) w).clock + (lat (Late.wait (10 * 2 ^ k) w).clock (Cfg.readTlp id 0 4)).1) w.readyAt with hl | hl
    · rw [readDword_late op lat true cid _ id hl]
      simp only [if_true]
      obtain ⟨c, h0, h1, h2⟩ := ih (k + 1) ⟨(Late.wait (10 * 2 ^ k) w).clock + (lat (Late.wait (10 * 2 ^ k) w).clock (Cfg.readTlp id 0 4)).1 +
          (lat (Late.wait (10 * 2 ^ k) w).clock (Cfg.readTlp id 0 4)).2, w.readyAt, w.inner⟩ (by omega) hr (by
        unfold Late.wait
        simp only
        rw [Nat.pow_succ]
        omega)
      unfold Late.wait at h1
      simp only at h0 h1
      exact ⟨c, h0, by omega, h2⟩
    · obtain ⟨c, h0, h1, h2⟩ := readDword_ready op lat true cid (Late.wait (10 * 2 ^ k) w) id hl
      unfold Late.wait at h0 h1 h2
      simp only at h0 h1
      rw [show (Late.wait (10 * 2 ^ k) w) = { w with clock := w.clock + 1000 * (10 * 2 ^ k) } from rfl, h2]
      simp only [hr, Except.map, lift]
      rw [if_neg hv]
      exact ⟨c, h0, by omega, rfl⟩

theorem waitCrs_late (id : PcieId) (B : Nat) (hB : ∀ c t, (lat c t).1 + (lat c t).2 ≤ B) (m : Nat) : ∀ (k : Nat) (w : Late W), k + m = 10 →
    w.clock + 10000 * (2 ^ 10 - 2 ^ k) + m * B < w.readyAt → ∃ c, w.clock + 10000 * (2 ^ 10 - 2 ^ k) ≤ c ∧ c ≤ w.clock + 10000 * (2 ^ 10 - 2 ^ k) + m * B ∧
    waitCrs (Late.op op lat true cid) Late.wait id k w = .ok (⟨c, w.readyAt, w.inner⟩, false) := by
  induction m with
  | zero =>
    intro k w hk ht
    obtain rfl : k = 10 := by omega
    unfold waitCrs
    rw [dif_pos (by decide)]
    exact ⟨w.clock, by omega, by omega, rfl⟩
  | succ m ih =>
    intro k w hk ht
    have hp : 2 ^ k ≤ 2 ^ 9 := Nat.pow_le_pow_right (by omega) (by omega)
    have em : (m + 1) * B = m * B + B := Nat.succ_mul m B
    rw [em] at ht
    unfold waitCrs
    rw [dif_neg (pow_lt10 (by omega))]
    have hb := hB (Late.wait (10 * 2 ^ k) w).clock (Cfg.readTlp id 0 4)
    have hc : (Late.wait (10 * 2 ^ k) w).clock = w.clock + 1000 * (10 * 2 ^ k) := rfl
    rw [readDword_late op lat true cid _ id (by
      show _ < w.readyAt
      omega)]
    simp only [if_true]
    obtain ⟨c, h0, h1, h2⟩ := ih (k + 1) ⟨(Late.wait (10 * 2 ^ k) w).clock + (lat (Late.wait (10 * 2 ^ k) w).clock (Cfg.readTlp id 0 4)).1 +
        (lat (Late.wait (10 * 2 ^ k) w).clock (Cfg.readTlp id 0 4)).2, w.readyAt, w.inner⟩ (by omega) (by
      simp only
      rw [Nat.pow_succ]
      omega)
    simp only at h0 h1
    rw [Nat.pow_succ] at h0 h1
    refine ⟨c, by omega, ?_, h2⟩
    rw [em]
    omega

end Crs

namespace IrqPort
open Spec
variable {S : Type} {p : IrqPort S} {id c L : Nat} (hf : CapFound p id c L)
  (hd : p.dev.device = p.fn.id.device ∧ p.dev.function = p.fn.id.function) (hs : NoShare p.fn.regs.common.caps.pci)
include hf hd hs

theorem io_readWord_lo (hown : ∀ k, (p.beh c).read (p.fn.regs.common.caps.st c) k < 2 ^ 32) {k : Nat} (h1 : k < L) (h0 : k ≠ 0) :
    ∃ fn', (p.io id).readWord p.fn (4 * k) = .ok (fn', (p.beh c).read (p.fn.regs.common.caps.st c) k % 2 ^ 16) ∧ fn'.regs = p.fn.regs ∧ Kept p.fn fn' := by
  obtain ⟨fn', b, e1, e2, e3, e4⟩ := io_read hf hd hs hown (j := 4 * k) (n := 2) (by omega)
  refine ⟨fn', ?_, e3, e4⟩
  unfold ByteIo.readWord ByteIo.readWords
  rw [e1]
  have hl := e2.1
  have hw : fromBytes b .little = (p.beh c).read (p.fn.regs.common.caps.st c) k % 2 ^ 16 := by
    apply word_val b _ 2 hl (by omega)
    intro i hi
    rw [List.getElem?_eq_getElem (by omega), e2.2 i (by omega)]
    unfold bytesOf shown
    rw [show (4 * k + i) / 4 = k by omega, if_neg h0, show (4 * k + i) % 4 = i by omega]
    generalize (p.beh c).read (p.fn.regs.common.caps.st c) k = R at *
    congr 1
    apply UInt8.toNat_inj.1
    simp only [UInt8.toNat_ofNat']
    have hi' : i = 0 ∨ i = 1 := by omega
    rcases hi' with rfl | rfl <;> simp only [Nat.reducePow] <;> omega
  have hsl : slice b (2 * 0) (2 * (0 + 1)) = b := by
    unfold slice
    simp [List.take_of_length_le (Nat.le_of_eq hl)]
  simp only [ok_bind, List.range_one, List.map_cons, List.map_nil, hsl, hw]
  rfl

/-- Of a dword read at the upper half of a register, bit 0 is bit 16 of the register. -/
theorem io_readDword_hi (hown : ∀ k, (p.beh c).read (p.fn.regs.common.caps.st c) k < 2 ^ 32) {k : Nat} (h1 : k + 1 < L) (h0 : k ≠ 0) :
    ∃ fn' v, (p.io id).readDword p.fn (4 * k + 2) = .ok (fn', v) ∧ v.testBit 0 = ((p.beh c).read (p.fn.regs.common.caps.st c) k).testBit 16 ∧
      fn'.regs = p.fn.regs ∧ Kept p.fn fn' := by
  obtain ⟨fn', b, e1, e2, e3, e4⟩ := io_read hf hd hs hown (j := 4 * k + 2) (n := 4) (by omega)
  have hl := e2.1
  refine ⟨fn', fromBytes b .little, ?_, ?_, e3, e4⟩
  · unfold ByteIo.readDword ByteIo.readDwords ByteIo.readWords
    rw [e1]
    have hsl : slice b (4 * 0) (4 * (0 + 1)) = b := by
      unfold slice
      simp [List.take_of_length_le (Nat.le_of_eq hl)]
    simp only [ok_bind, List.range_one, List.map_cons, List.map_nil, hsl]
    rfl
  · have h := e2.2 0 (by omega)
    unfold bytesOf shown at h
    rw [show (4 * k + 2 + 0) / 4 = k by omega, if_neg h0, show (4 * k + 2 + 0) % 4 = 2 by omega] at h
    cases b with
    | nil => simp at hl
    | cons x xs =>
      simp only [List.getElem_cons_zero] at h
      rw [h]
      generalize (p.beh c).read (p.fn.regs.common.caps.st c) k = R
      simp only [fromBytes, List.foldr_cons, UInt8.toNat_ofNat']
      generalize List.foldr (fun (b : UInt8) acc => b.toNat + 256 * acc) 0 xs = X
      rw [Nat.testBit_zero, show 16 = 16 + 0 from rfl, ← Nat.testBit_shiftRight, Nat.testBit_zero, Nat.shiftRight_eq_div_pow]
      congr 1
      simp only [Nat.reducePow]
      have : (R / 65536 % 256 + 256 * X) % 2 = R / 65536 % 2 := by omega
      rw [this]

theorem io_writeWord_lo {k v : Nat} (hv : v < 2 ^ 16) (h1 : k < L) :
    ∃ fn' u, (p.io id).writeWord p.fn (4 * k) v = .ok fn' ∧ Kept p.fn fn' ∧ (∀ i, i < 16 → u.testBit i = v.testBit i) ∧
      fn'.regs = withCap p.fn.regs c ((p.beh c).write (p.fn.regs.common.caps.st c) k u 0x3) := by
  have hl : (encWord .little 2 v).length = 2 := encWord_length _ _ _
  obtain ⟨fn', e1, e2, e3⟩ := io_write hf hd hs (j := 4 * k) (d := encWord .little 2 v) (by omega)
  obtain ⟨u, be, w1, w2, w3, w4, w5⟩ := Cfg.write_one (p.beh c) p.tag ⟨p.fn.id, p.fn.regs.common.caps.st c⟩ p.dev hd (4 * k) (encWord .little 2 v) (by omega) (by omega)
  have hbe : be = 0x3 := by
    apply Nat.eq_of_testBit_eq
    intro i
    by_cases hi : i < 4
    · have := w4 i hi
      rw [Bool.eq_iff_iff, this, hl]
      rw [show 4 * k % 4 = 0 by omega]
      interval_cases i <;> decide
    · rw [tb_big be i 4 w3 (by omega), tb_big 0x3 i 4 (by decide) (by omega)]
  refine ⟨fn', u, ?_, e2, ?_, by rw [e3, w1, hbe, Nat.mul_div_cancel_left _ (by omega : 0 < 4)]⟩
  · unfold ByteIo.writeWord ByteIo.writeWords
    rw [encode_ok .little 2 [v] [] (by simpa using hv), ok_bind]
    simpa using e1
  · intro i h16
    obtain ⟨b, b1, b2⟩ := digits_get 2 v (i / 8) (by omega)
    rw [w5 i (by omega) b (by omega) (by rw [show i / 8 - 4 * k % 4 = i / 8 by omega]; exact b1), b2]
    rw [show (256 : Nat) ^ (i / 8) = 2 ^ (8 * (i / 8)) by rw [show (256 : Nat) = 2 ^ 8 by rfl, ← Nat.pow_mul],
      show (256 : Nat) = 2 ^ 8 by rfl, Nat.testBit_mod_two_pow, ← Nat.shiftRight_eq_div_pow, Nat.testBit_shiftRight]
    simp only [show i % 8 < 8 by omega, decide_true, Bool.true_and]
    congr 1; omega

end IrqPort
end Pcie
