/-
C17: configuration accesses at byte granularity.
-/
import Verif.Lemmas.CfgAccess
import Verif.Props.Config
namespace Pcie
open Spec

/-- C17: the requests of `config_read` are configuration reads of one dword each, addressed to `dev`; the byte ranges they
enable follow one another and make up exactly `addr .. addr+length-1`. -/
theorem C17_read_requests (dev : PcieId) (addr length : Nat) :
    Segments addr length ((Cfg.readReqs dev length 0 addr).map Prod.snd) ∧
    ∀ t ∈ (Cfg.readReqs dev length 0 addr).map Prod.snd, IoOk .CFG_READ_1 t ∧ t.completer_id = dev ∧ t.data = [] := by
  simpa using Cfg.readReqs_segments dev length 0 addr (by omega)

/-- C17: likewise for `config_write`. -/
theorem C17_write_requests (dev : PcieId) (addr : Nat) (data : List UInt8) :
    Segments addr data.length (Cfg.writeReqs dev data 0 addr) ∧
    ∀ t ∈ Cfg.writeReqs dev data 0 addr, IoOk .CFG_WRITE_1 t ∧ t.completer_id = dev ∧ t.data.length = 4 := by
  simpa using Cfg.writeReqs_segments dev data 0 addr (by omega)

variable {σ : Type} (ops : CapOps σ)

/-- C17: `config_read` of a function returns exactly the bytes `addr .. addr+length-1` of its registers, for registers
that hold 32-bit values, and changes no register. -/
theorem C17_read (f : Cfg.Fn σ) (tag : Tlp → Nat) (dev : PcieId) (addr length : Nat)
    (hdev : dev.device = f.id.device ∧ dev.function = f.id.function)
    (hreg : ∀ a, addr ≤ a → a < addr + length → ops.read f.regs (a / 4) < 2 ^ 32) :
    ∃ f' bytes, Cfg.read (Cfg.Fn.op ops tag) f dev addr length = .ok (f', bytes) ∧
      Holds (cfgBytes ops f.regs) addr length bytes ∧ f'.regs = f.regs := by
  obtain ⟨w', h, hi⟩ := Cfg.read_ok (Cfg.Fn.op ops tag) (fun w => w.regs = f.regs ∧ w.id.device = f.id.device ∧ w.id.function = f.id.function)
    (cfgBytes ops f.regs) dev length addr f ⟨rfl, rfl, rfl⟩ (by
      rintro w a L ⟨w1, w2, w3⟩ h0 h1 h2 h3
      obtain ⟨hok, f1, f2, -⟩ := Cfg.readTlp_ok dev a L h0 h3
      generalize Cfg.readTlp dev a L = t at *
      obtain ⟨c, e1, e2, e3, e4, e5⟩ := Cfg.op_read ops w tag t hok.type (by rw [f2, w2, w3]; exact hdev) hok.aligned
        (by rw [f1, w1, Nat.mul_div_cancel _ (by omega)]; exact hreg a h1 (by omega))
      rw [e1]
      refine ⟨⟨w1, w2, w3⟩, c.data, ?_, e4, ?_⟩
      · unfold Cfg.dword
        simp only [e2, e3]
        rw [if_neg (by simp), if_neg (by simp), if_neg (by simp)]
      · intro i hi
        rw [e5 _ (by omega), w1, f1]
        congr 2; omega)
  exact ⟨w', _, h, Mem.read_holds _ _ _, hi.1⟩

/-- C17: a function with another device or function number is not read (the result is all ones) and not written. -/
theorem C17_other_function (f : Cfg.Fn σ) (tag : Tlp → Nat) (dev : PcieId) (addr length : Nat) (data : List UInt8)
    (hdev : ¬ (dev.device = f.id.device ∧ dev.function = f.id.function)) :
    Cfg.read (Cfg.Fn.op ops tag) f dev addr length = .ok (f, List.replicate length 0xff) ∧
    Cfg.write (Cfg.Fn.op ops tag) f dev addr data = f := by
  constructor
  · obtain ⟨w', h, hi⟩ := Cfg.read_ok (Cfg.Fn.op ops tag) (fun w => w = f)
      (fun _ => 0xff) dev length addr f rfl (by
        rintro w a L rfl h0 h1 h2 h3
        obtain ⟨hok, f1, f2, -⟩ := Cfg.readTlp_ok dev a L h0 h3
        generalize Cfg.readTlp dev a L = t at *
        obtain ⟨c, e1, e2⟩ := Cfg.op_mismatch ops w tag t (.inl hok.type) (by rw [f2]; exact hdev)
        rw [e1]
        refine ⟨rfl, [0xff, 0xff, 0xff, 0xff], ?_, rfl, ?_⟩
        · unfold Cfg.dword
          simp only [e2]
          rw [if_neg (by simp), if_pos (by decide)]
        · intro i hi
          generalize hx : a % 4 + i = x
          have hx4 : x < 4 := by omega
          clear hx
          revert hx4; revert x
          decide)
    rw [h, hi]
    congr 2
    apply List.ext_getElem (by simp [Mem.read_length])
    intro i h1 h2
    rw [Mem.read_getElem, List.getElem_replicate]
  · obtain ⟨-, hall⟩ := C17_write_requests dev addr data
    unfold Cfg.write
    revert hall
    generalize Cfg.writeReqs dev data 0 addr = l
    intro hall
    induction l with
    | nil => rfl
    | cons t ts ih =>
      obtain ⟨hok, h2, -⟩ := hall t (by simp)
      obtain ⟨c, e1, -⟩ := Cfg.op_mismatch ops f tag t (.inr hok.type) (by rw [h2]; exact hdev)
      rw [List.foldl_cons, e1]
      exact ih (fun t' ht => hall t' (by simp [ht]))

/-- C17: when no request is answered successfully (no completion, or one with an error status), `config_read` returns all ones: it never returns data of a failed
request. Only a register 0 that answers with a request to try again later reads differently (`C17_crs`). -/
theorem C17_failed {W : Type} (op : Cfg.Op W) (w : W) (dev : PcieId) (addr length : Nat)
    (hop : ∀ w t, (op w t).2.1 = [] ∨ ∃ c cs, (op w t).2.1 = c :: cs ∧ c.status ≠ CplStatus.SC ∧
      (c.status = CplStatus.CRS → t.address ≠ 0 ∨ (op w t).2.2 ≠ some true)) :
    ∃ w', Cfg.read op w dev addr length = .ok (w', List.replicate length 0xff) := by
  obtain ⟨w', h, -⟩ := Cfg.read_ok op (fun _ => True) (fun _ => 0xff) dev length addr w trivial (by
    intro w a L _ h0 h1 h2 h3
    refine ⟨trivial, [0xff, 0xff, 0xff, 0xff], ?_, rfl, ?_⟩
    · unfold Cfg.dword
      rcases hop w (Cfg.readTlp dev a L) with e | ⟨c, cs, e, e1, e2⟩
      · rw [e]
      · rw [e]
        simp only
        split
        · next hx =>
          rcases e2 hx.1 with h | h
          · exact absurd hx.2.1 h
          · rw [if_neg h]
        · first | rfl | rw [if_pos e1]
    · intro i hi
      generalize hx : a % 4 + i = x
      have hx4 : x < 4 := by omega
      clear hx
      revert hx4; revert x
      decide)
  refine ⟨w', ?_⟩
  rw [h]
  congr 2
  apply List.ext_getElem (by simp [Mem.read_length])
  intro i h1 h2
  rw [Mem.read_getElem, List.getElem_replicate]

/-- C17: a function that asks to try again later reads as vendor ID 1 in register 0, if software visibility of such answers is enabled at the port. -/
theorem C17_crs {W : Type} (op : Cfg.Op W) (w : W) (dev : PcieId) (hop : ∀ w t, (∃ c cs, (op w t).2.1 = c :: cs ∧ c.status = CplStatus.CRS) ∧ (op w t).2.2 = some true) :
    ∃ w', Cfg.read op w dev 0 4 = .ok (w', [0x01, 0x00, 0xff, 0xff]) := by
  obtain ⟨w', h, -⟩ := Cfg.read_ok op (fun _ => True) (fun a => if a = 0 then 0x01 else if a = 1 then 0x00 else 0xff) dev 4 0 w trivial (by
    intro w a L _ h0 h1 h2 h3
    obtain ⟨-, f1, -, -⟩ := Cfg.readTlp_ok dev a L h0 h3
    refine ⟨trivial, [0x01, 0x00, 0xff, 0xff], ?_, rfl, ?_⟩
    · obtain ⟨⟨c, cs, e, e1⟩, e2⟩ := hop w (Cfg.readTlp dev a L)
      unfold Cfg.dword
      rw [e, e2]
      simp only
      rw [if_pos ⟨e1, by rw [f1]; omega, rfl⟩, if_pos trivial]
    · intro i hi
      have ha : a % 4 + i = a + i := by omega
      rw [ha]
      generalize hx : a + i = x
      have hx4 : x < 4 := by omega
      clear hx ha
      revert hx4; revert x
      decide)
  refine ⟨w', ?_⟩
  rw [h]
  rfl

/-- The hypotheses of `C17_failed` and `C17_crs` can be met: a port that always answers with this status. -/
example : ∃ op : Cfg.Op Unit, ∀ w t, (∃ c cs, (op w t).2.1 = c :: cs ∧ c.status = CplStatus.CRS) ∧ (op w t).2.2 = some true :=
  ⟨fun _ _ => ((), [{ status := CplStatus.CRS }], some true), fun _ _ => ⟨⟨_, _, rfl, rfl⟩, rfl⟩⟩
example : ∃ op : Cfg.Op Unit, ∀ w t, ∃ c cs, (op w t).2.1 = c :: cs ∧ c.status ≠ CplStatus.SC ∧ (c.status = CplStatus.CRS → t.address ≠ 0 ∨ (op w t).2.2 ≠ some true) :=
  ⟨fun _ _ => ((), [{ status := CplStatus.UR }], some true), fun _ _ => ⟨_, _, rfl, by decide, fun h => absurd h (by decide)⟩⟩

/-- C17: `config_write` to a function whose registers behave, one at a time, as `rw` and `w1c` say, has exactly the effect
of writing the bytes `addr .. addr+len(data)-1` and nothing else; the function takes the bus number of the request. -/
theorem C17_write {I : σ → Prop} {regs : Nat → Prop} {rw_ w1c : Nat → Nat → Bool} (R : Regs ops I regs rw_ w1c)
    (f : Cfg.Fn σ) (hI : I f.regs) (tag : Tlp → Nat) (dev : PcieId) (addr : Nat) (data : List UInt8)
    (hdev : dev.device = f.id.device ∧ dev.function = f.id.function)
    (hr : ∀ a, addr ≤ a → a < addr + data.length → regs (a / 4)) :
    CfgWritten ops rw_ w1c f.regs (Cfg.write (Cfg.Fn.op ops tag) f dev addr data).regs addr data ∧
    (data ≠ [] → (Cfg.write (Cfg.Fn.op ops tag) f dev addr data).id = ⟨dev.bus, dev.device, dev.function⟩) := by
  obtain ⟨f', e1, -, e2, e3⟩ := Cfg.write_loop ops R tag dev data 0 addr (by omega) f hI hdev (by simpa using hr)
  have e1 : Cfg.write (Cfg.Fn.op ops tag) f dev addr data = f' := e1
  rw [e1]
  refine ⟨by simpa using e2, fun hne => ?_⟩
  rw [e3, if_pos (List.length_pos_iff.2 hne), hdev.1, hdev.2]

/-- C17: with read-write registers, `config_write` replaces exactly the bytes `addr .. addr+len(data)-1`. -/
theorem C17_write_bytes {I : σ → Prop} (R : Regs ops I (fun _ => True) (fun _ _ => true) (fun _ => noBits))
    (f : Cfg.Fn σ) (hI : I f.regs) (tag : Tlp → Nat) (dev : PcieId) (addr : Nat) (data : List UInt8)
    (hdev : dev.device = f.id.device ∧ dev.function = f.id.function) :
    Replaced (cfgBytes ops f.regs) (cfgBytes ops (Cfg.write (Cfg.Fn.op ops tag) f dev addr data).regs) addr data := by
  obtain ⟨h, -⟩ := C17_write ops R f hI tag dev addr data hdev (fun _ _ _ => trivial)
  generalize (Cfg.write (Cfg.Fn.op ops tag) f dev addr data).regs = s' at h
  have tb : ∀ (s : σ) a j, j < 8 → (cfgBytes ops s a).toNat.testBit j = (ops.read s (a / 4)).testBit (8 * (a % 4) + j) := by
    intro s a j hj
    unfold cfgBytes
    rw [UInt8.toNat_ofNat', show (256 : Nat) ^ (a % 4) = 2 ^ (8 * (a % 4)) by rw [Nat.pow_mul],
      Nat.testBit_mod_two_pow, Nat.testBit_div_two_pow]
    simp only [hj, decide_true, Bool.true_and]
    congr 1; omega
  have ext : ∀ x y : UInt8, (∀ j, j < 8 → x.toNat.testBit j = y.toNat.testBit j) → x = y := by
    intro x y hxy
    apply UInt8.toNat_inj.1
    apply Nat.eq_of_testBit_eq
    intro j
    by_cases hj : j < 8
    · exact hxy j hj
    · rw [Cfg.byte_tb x j (by omega), Cfg.byte_tb y j (by omega)]
  constructor
  · intro i hi
    apply ext
    intro j hj
    rw [tb _ _ _ hj, h _ _ (by omega)]
    rw [show 4 * ((addr + i) / 4) + (8 * ((addr + i) % 4) + j) / 8 = addr + i by omega, if_pos (by omega),
      show addr + i - addr = i by omega, List.getElem?_eq_getElem hi]
    simp only [if_true]
    congr 1; omega
  · intro a ha
    apply ext
    intro j hj
    rw [tb _ _ _ hj, tb _ _ _ hj, h _ _ (by omega)]
    rw [show 4 * (a / 4) + (8 * (a % 4) + j) / 8 = a by omega]
    rw [show (if addr ≤ a then data[a - addr]? else none) = none by
      split
      · exact List.getElem?_eq_none (by omega)
      · rfl]

/-- The header registers of an endpoint, apart from register 3, satisfy the hypothesis of `C17_write`. -/
theorem epRegs (bars : List BarReg) (rom : Nat) :
    Regs (σ := Ep σ) ⟨Ep.read ops, Ep.write ops⟩
      (fun f => (∀ n, (f.bars.getD n {}).mask = (bars.getD n {}).mask) ∧ f.romMask = rom) (fun reg => reg < 16 ∧ reg ≠ 3)
      (epRw (fun n => (bars.getD n {}).mask) rom) epW1c where
  inv := by
    rintro f reg data mask ⟨h1, h2⟩ ⟨hr, h3⟩ hm
    have hb : ∀ k n, ((writeBar f.bars k data mask).getD n {}).mask = (f.bars.getD n {}).mask := by
      intro k n
      by_cases hk : n = k
      · subst hk
        unfold writeBar
        by_cases hl : n < f.bars.length
        · simp [List.getD_eq_getElem?_getD, hl]
        · simp [List.getD_eq_getElem?_getD, hl]
      · rw [getD_writeBar_ne _ _ _ _ _ hk]
    have same : ∀ g : Ep σ, g.bars = f.bars → g.romMask = f.romMask →
        (∀ n, (g.bars.getD n {}).mask = (bars.getD n {}).mask) ∧ g.romMask = rom :=
      fun g e1 e2 => ⟨fun n => by rw [e1]; exact h1 n, by rw [e2]; exact h2⟩
    have bar : ∀ k, (∀ n, ((writeBar f.bars k data mask).getD n {}).mask = (bars.getD n {}).mask) ∧ f.romMask = rom :=
      fun k => ⟨fun n => by rw [hb, h1], h2⟩
    show (∀ n, ((f.write ops reg data mask).bars.getD n {}).mask = _) ∧ (f.write ops reg data mask).romMask = rom
    interval_cases reg
    case «4» => exact bar 0
    case «5» => exact bar 1
    case «6» => exact bar 2
    case «7» => exact bar 3
    case «8» => exact bar 4
    case «9» => exact bar 5
    all_goals exact same _ rfl rfl
  same := by
    rintro f reg data mask ⟨h1, h2⟩ ⟨hr, h3⟩ hm
    have := C35_endpoint_write_partial ops f reg data mask hm hr h3
    have e : (fun n => (f.bars.getD n {}).mask) = fun n => (bars.getD n {}).mask := funext h1
    rw [e, h2] at this
    exact this
  other := by
    rintro f reg reg' data mask ⟨h1, h2⟩ ⟨hr, h3⟩ hne
    exact C35_endpoint_other ops f reg reg' data mask hr hne

/-- C17 for an endpoint's header: a `config_write` to any byte range of the header that leaves out register 3 writes exactly
the writable bits of exactly these bytes. Missing: register 3 (start BIST, see C35_bist_violated). -/
theorem C17_endpoint_write_partial (f : Cfg.Fn (Ep σ)) (tag : Tlp → Nat) (dev : PcieId) (addr : Nat) (data : List UInt8)
    (hdev : dev.device = f.id.device ∧ dev.function = f.id.function)
    (hr : addr + data.length ≤ 64) (h3 : addr + data.length ≤ 12 ∨ 16 ≤ addr) :
    CfgWritten ⟨Ep.read ops, Ep.write ops⟩ (epRw (fun n => (f.regs.bars.getD n {}).mask) f.regs.romMask) epW1c f.regs
      (Cfg.write (Cfg.Fn.op ⟨Ep.read ops, Ep.write ops⟩ tag) f dev addr data).regs addr data :=
  (C17_write _ (epRegs ops f.regs.bars f.regs.romMask) f ⟨fun _ => rfl, rfl⟩ tag dev addr data hdev
    (fun a h1 h2 => ⟨by omega, by omega⟩)).1

/-- A RAM: registers that hold what is written, byte by byte. -/
def exRam : CapOps (Nat → Nat) :=
  ⟨fun s r => s r % 2 ^ 32, fun s r d m => fun r' => if r' = r then byteMaskUpdate (s r) m d else s r'⟩

/-- `exRam` satisfies the hypothesis of `C17_write_bytes`. -/
example : Regs exRam (fun _ => True) (fun _ => True) (fun _ _ => true) (fun _ => noBits) where
  inv := fun _ _ _ _ _ _ _ => trivial
  same := by
    intro s reg data mask _ _ hm i
    simp only [exRam, if_true, Nat.testBit_mod_two_pow, C02_byte_mask_update]
    by_cases h : mask.testBit (i / 8) = true
    · have hi : i < 32 := by
        by_contra hc
        have : mask.testBit (i / 8) = false :=
          Nat.testBit_lt_two_pow (Nat.lt_of_lt_of_le hm (show 2 ^ 4 ≤ 2 ^ (i / 8) from Nat.pow_le_pow_right (by omega) (by omega)))
        rw [this] at h; cases h
      simp [h, hi]
    · simp [h]
  other := by
    intro s reg reg' data mask _ _ hne
    simp [exRam, hne]

/-- An unaligned three-byte write across two registers, and the read of the five bytes around it. -/
example : (Cfg.read (Cfg.Fn.op exRam (fun _ => 0))
      (Cfg.write (Cfg.Fn.op exRam (fun _ => 0)) ⟨⟨0, 3, 1⟩, fun _ => 0x44332211⟩ ⟨7, 3, 1⟩ 0x42 [0xaa, 0xbb, 0xcc]) ⟨7, 3, 1⟩ 0x41 5).toOption.map
      (fun r => (r.1.id, r.2)) = some (⟨7, 3, 1⟩, [0x22, 0xaa, 0xbb, 0xcc, 0x22]) := by decide +kernel

end Pcie
