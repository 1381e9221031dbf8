/-
Helper lemmas: configuration requests and the completer's handlers.
-/
import Verif.Model.CfgAccess
import Verif.Lemmas.Io
import Verif.Spec.Config
namespace Pcie
open Tlp
namespace Cfg

theorem readTlp_ok (dev : PcieId) (addr L : Nat) (h0 : 0 < L) (h1 : addr % 4 + L ≤ 4) :
    Spec.IoOk .CFG_READ_1 (readTlp dev addr L) ∧ (readTlp dev addr L).address = addr / 4 * 4 ∧
    (readTlp dev addr L).completer_id = dev ∧ (readTlp dev addr L).data = [] := by
  unfold readTlp
  simp only [setAddrBe_one _ addr L h0 h1]
  refine ⟨⟨?_, by simp, ?_, by simp, rfl, rfl⟩, by simp, by simp [Tlp.setFmtType], by simp [Tlp.setFmtType]⟩
  · unfold Tlp.fmtType; simp only; decide
  · show addr / 4 * 4 % 4 = 0; omega

theorem readTlp_enabled (dev : PcieId) (addr L b : Nat) :
    Spec.byteEnabled (readTlp dev addr L) b ↔ addr ≤ b ∧ b < addr + L := by
  unfold readTlp
  exact C06_enabled_bytes _ _ _ _

/-- What `set_addr_be_data` does to any one-dword request. -/
theorem setAddrBeData_one (b : Tlp) (ty : TlpType) (hty : b.fmtType = some ty) (hat : b.attr = 0) (htc : b.tc = 0)
    (addr : Nat) (chunk : List UInt8) (h0 : 0 < chunk.length) (h1 : addr % 4 + chunk.length ≤ 4) :
    let t := b.setAddrBeData addr chunk
    Spec.IoOk ty t ∧ t.address = addr / 4 * 4 ∧ t.completer_id = b.completer_id ∧ t.data.length = 4 ∧
    (∀ i, (h : i < chunk.length) → t.data[addr % 4 + i]? = some chunk[i]) := by
  obtain ⟨p1, p2, p3⟩ := C07_payload b addr chunk
  rw [setAddrBe_one b addr chunk.length h0 h1] at p3
  intro t
  have ha : t.address = addr / 4 * 4 := congrArg Tlp.address p3
  have hl : t.length = 1 := congrArg Tlp.length p3
  have hcid := congrArg Tlp.completer_id p3
  simp only at hcid
  refine ⟨⟨(congrArg Tlp.fmtType p3).trans hty, hl, by rw [ha]; omega, congrArg Tlp.last_be p3,
    (congrArg Tlp.attr p3).trans hat, (congrArg Tlp.tc p3).trans htc⟩, ha, hcid, ?_, ?_⟩
  · rw [p1]; rw [show (b.setAddrBeData addr chunk).length = 1 from hl]
  · intro i h
    have := p2 i h
    rw [show (b.setAddrBeData addr chunk).address = addr / 4 * 4 from ha,
      show addr + i - addr / 4 * 4 = addr % 4 + i by omega] at this
    exact this

theorem writeTlp_ok (dev : PcieId) (addr : Nat) (chunk : List UInt8) (h0 : 0 < chunk.length)
    (h1 : addr % 4 + chunk.length ≤ 4) :
    let t := writeTlp dev addr chunk
    Spec.IoOk .CFG_WRITE_1 t ∧ t.address = addr / 4 * 4 ∧ t.completer_id = dev ∧ t.data.length = 4 ∧
    (∀ i, (h : i < chunk.length) → t.data[addr % 4 + i]? = some chunk[i]) :=
  setAddrBeData_one { (({} : Tlp).setFmtType .CFG_WRITE_1) with requester_id := ⟨0, 0, 0⟩, completer_id := dev } .CFG_WRITE_1
    (by unfold Tlp.fmtType; simp only; decide) rfl rfl addr chunk h0 h1

theorem writeTlp_enabled (dev : PcieId) (addr : Nat) (chunk : List UInt8) (b : Nat) :
    Spec.byteEnabled (writeTlp dev addr chunk) b ↔ addr ≤ b ∧ b < addr + chunk.length := by
  unfold writeTlp
  exact C07_other_bytes_disabled _ _ _ _

theorem C06_frame_writeTlp (dev : PcieId) (addr : Nat) (chunk : List UInt8) : (writeTlp dev addr chunk).first_be < 16 := by
  obtain ⟨-, -, h⟩ := C07_payload { (({} : Tlp).setFmtType .CFG_WRITE_1) with requester_id := ⟨0, 0, 0⟩, completer_id := dev } addr chunk
  have h2 := congrArg Tlp.first_be h
  obtain ⟨-, -, -, h3, -⟩ := C06_frame { (({} : Tlp).setFmtType .CFG_WRITE_1) with requester_id := ⟨0, 0, 0⟩, completer_id := dev } addr chunk.length
  exact Nat.lt_of_le_of_lt (Nat.le_of_eq h2) h3

theorem readReqs_segments (dev : PcieId) (length n addr : Nat) (hn : n ≤ length) :
    Spec.Segments addr (length - n) ((readReqs dev length n addr).map Prod.snd) ∧
    ∀ t ∈ (readReqs dev length n addr).map Prod.snd, Spec.IoOk .CFG_READ_1 t ∧ t.completer_id = dev ∧ t.data = [] := by
  induction hk : length - n using Nat.strongRecOn generalizing n addr with
  | ind k ih =>
    rw [readReqs]
    by_cases h : n < length
    · simp only [h, dite_true, List.map_cons]
      obtain ⟨l1, l2, l3, -⟩ := IoRegion.len_facts addr (length - n) (by omega)
      generalize IoRegion.len addr (length - n) = L at l1 l2 l3 ⊢
      obtain ⟨i1, i2⟩ := ih (length - (n + L)) (by omega) (n + L) (addr + L) (by omega) rfl
      constructor
      · rw [show k = L + (length - (n + L)) by omega]
        exact .cons _ _ _ _ _ l1 (readTlp_enabled dev addr L) i1
      · intro t ht
        rcases List.mem_cons.1 ht with rfl | ht
        · obtain ⟨a, -, b, d⟩ := readTlp_ok dev addr L l1 l3
          exact ⟨a, b, d⟩
        · exact i2 t ht
    · simp only [h, dite_false, List.map_nil]
      have : k = 0 := by omega
      subst this
      exact ⟨.nil _, by simp⟩

theorem writeReqs_segments (dev : PcieId) (data : List UInt8) (n addr : Nat) (hn : n ≤ data.length) :
    Spec.Segments addr (data.length - n) (writeReqs dev data n addr) ∧
    ∀ t ∈ writeReqs dev data n addr, Spec.IoOk .CFG_WRITE_1 t ∧ t.completer_id = dev ∧ t.data.length = 4 := by
  induction hk : data.length - n using Nat.strongRecOn generalizing n addr with
  | ind k ih =>
    rw [writeReqs]
    by_cases h : n < data.length
    · simp only [h, dite_true]
      obtain ⟨l1, l2, l3, -⟩ := IoRegion.len_facts addr (data.length - n) (by omega)
      generalize IoRegion.len addr (data.length - n) = L at l1 l2 l3 ⊢
      have hs : (slice data n (n + L)).length = L := by rw [slice_length _ _ _ (by omega)]; omega
      obtain ⟨i1, i2⟩ := ih (data.length - (n + L)) (by omega) (n + L) (addr + L) (by omega) rfl
      constructor
      · rw [show k = L + (data.length - (n + L)) by omega]
        refine .cons _ _ _ _ _ l1 ?_ i1
        intro b
        rw [writeTlp_enabled, hs]
      · intro t ht
        rcases List.mem_cons.1 ht with rfl | ht
        · obtain ⟨a, -, b, d, -⟩ := writeTlp_ok dev addr (slice data n (n + L)) (by omega) (by omega)
          exact ⟨a, b, d⟩
        · exact i2 t ht
    · simp only [h, dite_false]
      have : k = 0 := by omega
      subst this
      exact ⟨.nil _, by simp⟩

/-! ### The completer -/

theorem toType0_read (tag : Nat) (t : Tlp) (h : t.fmtType = some .CFG_READ_1) :
    (toType0 tag t).fmtType = some .CFG_READ_0 ∧ (toType0 tag t).address = t.address ∧
    (toType0 tag t).completer_id = t.completer_id ∧ (toType0 tag t).data = t.data := by
  have h' : ({ t with tag := tag } : Tlp).fmtType = some .CFG_READ_1 := h
  unfold toType0
  simp only [h', if_true]
  refine ⟨?_, rfl, rfl, rfl⟩
  unfold Tlp.fmtType Tlp.setFmtType; simp only; decide

theorem toType0_write (tag : Nat) (t : Tlp) (h : t.fmtType = some .CFG_WRITE_1) :
    (toType0 tag t).fmtType = some .CFG_WRITE_0 ∧ (toType0 tag t).address = t.address ∧
    (toType0 tag t).completer_id = t.completer_id ∧ (toType0 tag t).data = t.data ∧
    (toType0 tag t).first_be = t.first_be := by
  have h' : ({ t with tag := tag } : Tlp).fmtType = some .CFG_WRITE_1 := h
  unfold toType0
  simp only [h', Option.some.injEq, reduceCtorEq, if_false, if_true]
  refine ⟨?_, rfl, rfl, rfl, rfl⟩
  unfold Tlp.fmtType Tlp.setFmtType; simp only; decide

variable {σ : Type} (ops : CapOps σ)

theorem collect_false_one (c : Tlp) : Region.collect false [c] = ([c], []) := by
  unfold Region.collect; simp

/-- The function after capturing the bus number. -/
def Fn.capture (f : Fn σ) (dev : PcieId) : Fn σ := { f with id := { f.id with bus := dev.bus } }

theorem capture_eq (f : Fn σ) (b : Nat) :
    (if f.id.bus ≠ b then { f with id := { f.id with bus := b } } else f) = { f with id := { f.id with bus := b } } := by
  split
  · rfl
  · next h => cases f with | mk id regs => cases id; simp at h; simp [h]

theorem packLE_ok (v : Nat) (h : v < 2 ^ 32) : ∃ d, packLE v = .ok d ∧ d.length = 4 ∧
    ∀ i, i < 4 → d[i]? = some (UInt8.ofNat (v / 256 ^ i)) := by
  refine ⟨_, by unfold packLE; rw [if_pos h], rfl, ?_⟩
  intro i hi
  match i, hi with
  | 0, _ => simp
  | 1, _ => simp [Nat.shiftRight_eq_div_pow]
  | 2, _ => simp [Nat.shiftRight_eq_div_pow]
  | 3, _ => simp [Nat.shiftRight_eq_div_pow]

theorem op_read (f : Fn σ) (tag : Tlp → Nat) (t : Tlp) (hty : t.fmtType = some .CFG_READ_1)
    (hdev : t.completer_id.device = f.id.device ∧ t.completer_id.function = f.id.function)
    (ha : t.address % 4 = 0) (hreg : ops.read f.regs (t.address / 4) < 2 ^ 32) :
    ∃ c, Fn.op ops tag f t = ({ f with id := { f.id with bus := t.completer_id.bus } }, [c], none) ∧
      c.status = CplStatus.SC ∧ c.length = 1 ∧ c.data.length = 4 ∧
      ∀ i, i < 4 → c.data[i]? = some (Spec.cfgBytes ops f.regs (t.address + i)) := by
  obtain ⟨q1, q2, q3, -⟩ := toType0_read (tag t) t hty
  unfold Fn.op
  simp only [q1, if_true]
  unfold Fn.handleRead
  rw [q3, if_pos hdev]
  simp only [capture_eq, q2]
  rw [show t.address >>> 2 = t.address / 4 by rw [Nat.shiftRight_eq_div_pow]]
  obtain ⟨d, d1, d2, d3⟩ := packLE_ok _ hreg
  rw [d1]
  simp only
  have hmr : Region.isMemRead t = false := by unfold Region.isMemRead; rw [hty]; decide
  rw [hmr, collect_false_one]
  refine ⟨_, rfl, rfl, ?_, ?_, ?_⟩
  · simp only [Tlp.setData, d2]
  · simp only [Tlp.setData, d2]
  · intro i hi
    simp only [Tlp.setData]
    rw [d3 i hi]
    unfold Spec.cfgBytes
    rw [show (t.address + i) / 4 = t.address / 4 by omega, show (t.address + i) % 4 = i by omega]

theorem byte_tb (b : UInt8) (j : Nat) (h : 8 ≤ j) : b.toNat.testBit j = false :=
  Nat.testBit_lt_two_pow (Nat.lt_of_lt_of_le b.toNat_lt (Nat.pow_le_pow_right (n := 2) (by omega) h))

theorem unpackLE_ok (d : List UInt8) (h : d.length = 4) : ∃ v, unpackLE d = .ok v ∧
    ∀ i, i < 32 → ∀ b, d[i / 8]? = some b → v.testBit i = b.toNat.testBit (i % 8) := by
  match d, h with
  | [b0, b1, b2, b3], _ =>
    refine ⟨_, rfl, ?_⟩
    intro i hi b hb
    simp only [Nat.testBit_or, Nat.testBit_shiftLeft]
    have h4 : i / 8 = 0 ∨ i / 8 = 1 ∨ i / 8 = 2 ∨ i / 8 = 3 := by omega
    rcases h4 with h4 | h4 | h4 | h4 <;> rw [h4] at hb <;> simp at hb <;> subst hb
    · have e1 : ¬ 8 ≤ i := by omega
      have e2 : ¬ 16 ≤ i := by omega
      have e3 : ¬ 24 ≤ i := by omega
      simp [e1, e2, e3, show i % 8 = i by omega]
    · have e2 : ¬ 16 ≤ i := by omega
      have e3 : ¬ 24 ≤ i := by omega
      simp [e2, e3, show i % 8 = i - 8 by omega, byte_tb b0 i (by omega), show 8 ≤ i by omega]
    · have e3 : ¬ 24 ≤ i := by omega
      simp [e3, show i % 8 = i - 16 by omega, byte_tb b0 i (by omega), byte_tb b1 (i - 8) (by omega), show 16 ≤ i by omega]
    · simp [show i % 8 = i - 24 by omega, byte_tb b0 i (by omega), byte_tb b1 (i - 8) (by omega),
        byte_tb b2 (i - 16) (by omega), show 24 ≤ i by omega]

theorem op_write (f : Fn σ) (tag : Tlp → Nat) (t : Tlp) (hty : t.fmtType = some .CFG_WRITE_1)
    (hdev : t.completer_id.device = f.id.device ∧ t.completer_id.function = f.id.function)
    (hd : t.data.length = 4) :
    ∃ v c, Fn.op ops tag f t = (⟨{ f.id with bus := t.completer_id.bus }, ops.write f.regs (t.address / 4) v t.first_be⟩, [c], none) ∧
      c.status = CplStatus.SC ∧ ∀ i, i < 32 → ∀ b, t.data[i / 8]? = some b → v.testBit i = b.toNat.testBit (i % 8) := by
  obtain ⟨q1, q2, q3, q4, q5⟩ := toType0_write (tag t) t hty
  unfold Fn.op
  simp only [q1, Option.some.injEq, reduceCtorEq, if_false, if_true]
  unfold Fn.handleWrite
  rw [q3, if_pos hdev]
  simp only [capture_eq, q2, q4, q5]
  rw [show t.address >>> 2 = t.address / 4 by rw [Nat.shiftRight_eq_div_pow]]
  obtain ⟨v, v1, v2⟩ := unpackLE_ok _ hd
  rw [v1]
  simp only
  have hmr : Region.isMemRead t = false := by unfold Region.isMemRead; rw [hty]; decide
  rw [hmr, collect_false_one]
  exact ⟨v, _, rfl, rfl, v2⟩

theorem op_mismatch (f : Fn σ) (tag : Tlp → Nat) (t : Tlp) (hty : t.fmtType = some .CFG_READ_1 ∨ t.fmtType = some .CFG_WRITE_1)
    (hdev : ¬ (t.completer_id.device = f.id.device ∧ t.completer_id.function = f.id.function)) :
    ∃ c, Fn.op ops tag f t = (f, [c], none) ∧ c.status = CplStatus.UR := by
  have hmr : Region.isMemRead t = false := by unfold Region.isMemRead; rcases hty with h | h <;> rw [h] <;> decide
  have hcol : ∀ c : Tlp, (Region.collect false [c]).1 = [c] := fun c => by rw [collect_false_one]
  unfold Fn.op
  rcases hty with h | h
  · obtain ⟨q1, q2, q3, -⟩ := toType0_read (tag t) t h
    simp only [q1, if_true]
    unfold Fn.handleRead
    rw [q3, if_neg hdev]
    simp only [hmr, hcol]
    exact ⟨_, rfl, rfl⟩
  · obtain ⟨q1, q2, q3, -⟩ := toType0_write (tag t) t h
    simp only [q1, Option.some.injEq, reduceCtorEq, if_false, if_true]
    unfold Fn.handleWrite
    rw [q3, if_neg hdev]
    simp only [hmr, hcol]
    exact ⟨_, rfl, rfl⟩

/-! ### The loops -/

/-- Reading, for any system that answers every request with a dword that holds `M`'s bytes. -/
theorem readAll_ok {W : Type} (op : Op W) (Inv : W → Prop) (M : Mem) (dev : PcieId) (length n addr : Nat) (hn : n ≤ length)
    (acc : List UInt8) (w : W) (hw : Inv w)
    (hop : ∀ w a L, Inv w → 0 < L → addr ≤ a → a + L ≤ addr + (length - n) → a % 4 + L ≤ 4 →
      Inv (op w (readTlp dev a L)).1 ∧ ∃ d, dword (readTlp dev a L) (op w (readTlp dev a L)).2.1 (op w (readTlp dev a L)).2.2 = .ok d ∧
        d.length = 4 ∧ ∀ i, i < L → d[a % 4 + i]? = some (M (a + i))) :
    ∃ w' tail, readAll op w (readReqs dev length n addr) acc = .ok (w', acc ++ M.read addr (length - n) ++ tail) ∧ Inv w' := by
  induction hk : length - n using Nat.strongRecOn generalizing n addr acc w with
  | ind k ih =>
    rw [readReqs]
    by_cases h : n < length
    · simp only [h, dite_true]
      obtain ⟨l1, l2, l3, l4⟩ := IoRegion.len_facts addr (length - n) (by omega)
      generalize IoRegion.len addr (length - n) = L at l1 l2 l3 l4 ⊢
      obtain ⟨hi, d, e1, e4, e5⟩ := hop w addr L hw l1 (by omega) (by omega) l3
      have hdata : d.drop (addr % 4) = M.read addr L ++ d.drop (addr % 4 + L) := by
        apply List.ext_getElem?
        intro i
        by_cases hi : i < L
        · rw [List.getElem?_append_left (by rw [Mem.read_length]; exact hi), List.getElem?_drop]
          rw [e5 i hi, List.getElem?_eq_getElem (by rw [Mem.read_length]; exact hi), Mem.read_getElem]
        · rw [List.getElem?_append_right (by rw [Mem.read_length]; omega), Mem.read_length, List.getElem?_drop,
            List.getElem?_drop]
          congr 1; omega
      unfold readAll
      simp only [e1]
      by_cases hlast : L = length - n
      · rw [readReqs, dif_neg (by omega)]
        refine ⟨_, d.drop (addr % 4 + L), ?_, hi⟩
        unfold readAll
        rw [hdata, ← hk, hlast, List.append_assoc]
      · have hfull : d.drop (addr % 4 + L) = [] := List.drop_eq_nil_of_le (by rw [e4]; have := l4 (by omega); omega)
        obtain ⟨w', tail, ht, hi'⟩ := ih (length - (n + L)) (by omega) (n + L) (addr + L) (by omega)
          (acc ++ d.drop (addr % 4)) (op w (readTlp dev addr L)).1 hi
          (fun w a L' h0 h1 h2 h3 => hop w a L' h0 h1 (by omega) (by omega)) rfl
        refine ⟨w', tail, ?_, hi'⟩
        rw [ht, hdata, hfull, List.append_nil, List.append_assoc acc, Mem.read_append, show L + (length - (n + L)) = k by omega]
    · simp only [h, dite_false]
      have : k = 0 := by omega
      subst this
      exact ⟨w, [], by simp [readAll, Mem.read], hw⟩

theorem read_ok {W : Type} (op : Op W) (Inv : W → Prop) (M : Mem) (dev : PcieId) (length addr : Nat)
    (w : W) (hw : Inv w)
    (hop : ∀ w a L, Inv w → 0 < L → addr ≤ a → a + L ≤ addr + length → a % 4 + L ≤ 4 →
      Inv (op w (readTlp dev a L)).1 ∧ ∃ d, dword (readTlp dev a L) (op w (readTlp dev a L)).2.1 (op w (readTlp dev a L)).2.2 = .ok d ∧
        d.length = 4 ∧ ∀ i, i < L → d[a % 4 + i]? = some (M (a + i))) :
    ∃ w', read op w dev addr length = .ok (w', M.read addr length) ∧ Inv w' := by
  obtain ⟨w', tail, h, hi⟩ := readAll_ok op Inv M dev length 0 addr (by omega) [] w hw (by simpa using hop)
  refine ⟨w', ?_, hi⟩
  unfold read
  rw [h]
  simp only [List.nil_append, Nat.sub_zero]
  rw [List.take_append_of_le_length (by rw [Mem.read_length]; omega), List.take_of_length_le (by rw [Mem.read_length]; omega)]

theorem cfgWritten_append (rw_ w1c : Nat → Nat → Bool) (s s1 s2 : σ) (addr : Nat) (d1 d2 : List UInt8)
    (h1 : Spec.CfgWritten ops rw_ w1c s s1 addr d1) (h2 : Spec.CfgWritten ops rw_ w1c s1 s2 (addr + d1.length) d2) :
    Spec.CfgWritten ops rw_ w1c s s2 addr (d1 ++ d2) := by
  intro reg i hi
  rw [h2 reg i hi]
  have q1 := h1 reg i hi
  by_cases ha : addr ≤ 4 * reg + i / 8
  · rw [if_pos ha] at q1 ⊢
    by_cases hb : addr + d1.length ≤ 4 * reg + i / 8
    · rw [if_pos hb, List.getElem?_append_right (by omega)]
      rw [List.getElem?_eq_none (by omega)] at q1
      simp only at q1
      rw [q1, show 4 * reg + i / 8 - addr - d1.length = 4 * reg + i / 8 - (addr + d1.length) by omega]
    · rw [if_neg hb, List.getElem?_append_left (by omega)]
      exact q1
  · rw [if_neg ha] at q1 ⊢
    rw [if_neg (by omega)]
    exact q1

theorem cfgWritten_nil (rw_ w1c : Nat → Nat → Bool) (s : σ) (addr : Nat) : Spec.CfgWritten ops rw_ w1c s s addr [] := by
  intro reg i hi
  simp

theorem write_step {I : σ → Prop} {regs : Nat → Prop} {rw_ w1c : Nat → Nat → Bool} (R : Spec.Regs ops I regs rw_ w1c)
    (f : Fn σ) (hI : I f.regs) (tag : Tlp → Nat) (dev : PcieId)
    (hdev : dev.device = f.id.device ∧ dev.function = f.id.function) (addr : Nat) (chunk : List UInt8)
    (h0 : 0 < chunk.length) (h1 : addr % 4 + chunk.length ≤ 4) (hr : regs (addr / 4)) :
    ∃ f', (Fn.op ops tag f (writeTlp dev addr chunk)).1 = f' ∧ f'.id = { f.id with bus := dev.bus } ∧ I f'.regs ∧
      Spec.CfgWritten ops rw_ w1c f.regs f'.regs addr chunk := by
  obtain ⟨hok, f1, f2, f3, f4⟩ := writeTlp_ok dev addr chunk h0 h1
  have hen := writeTlp_enabled dev addr chunk
  have hbe : (writeTlp dev addr chunk).first_be < 16 := (C06_frame_writeTlp dev addr chunk)
  generalize writeTlp dev addr chunk = t at *
  obtain ⟨v, c, e1, -, e3⟩ := op_write ops f tag t hok.type (by rw [f2]; exact hdev) f3
  rw [e1, f2, f1, Nat.mul_div_cancel _ (by omega : 0 < 4)]
  refine ⟨_, rfl, rfl, R.inv _ _ _ _ hI hr hbe, ?_⟩
  intro reg i hi
  by_cases hreg : reg = addr / 4
  · subst hreg
    have hl := hok.one_dword
    have hm : t.first_be.testBit (i / 8) = true ↔ addr ≤ 4 * (addr / 4) + i / 8 ∧ 4 * (addr / 4) + i / 8 < addr + chunk.length := by
      rw [← hen]
      unfold Spec.byteEnabled
      simp only [f1, hl]
      rw [show (4 * (addr / 4) + i / 8 - addr / 4 * 4) = i / 8 by omega, show i / 8 / 4 = 0 by omega, show i / 8 % 4 = i / 8 by omega]
      constructor
      · intro h; exact ⟨by omega, by omega, by simpa using h⟩
      · rintro ⟨-, -, h⟩; simpa using h
    have := R.same f.regs (addr / 4) v t.first_be hI hr hbe i
    rw [this]
    by_cases hen' : addr ≤ 4 * (addr / 4) + i / 8 ∧ 4 * (addr / 4) + i / 8 < addr + chunk.length
    · rw [if_pos (hm.2 hen'), if_pos hen'.1]
      have hlt : 4 * (addr / 4) + i / 8 - addr < chunk.length := by omega
      have hb := f4 _ hlt
      rw [show addr % 4 + (4 * (addr / 4) + i / 8 - addr) = i / 8 by omega] at hb
      rw [List.getElem?_eq_getElem hlt]
      simp only
      rw [e3 i hi _ hb]
    · rw [if_neg (fun h => hen' (hm.1 h))]
      split
      · next h =>
        rw [show (if addr ≤ 4 * (addr / 4) + i / 8 then chunk[4 * (addr / 4) + i / 8 - addr]? else none) = none by
          split
          · exact List.getElem?_eq_none (by omega)
          · rfl] at h
        cases h
      · rfl
  · rw [R.other _ _ _ _ _ hI hr hreg]
    rw [show (if addr ≤ 4 * reg + i / 8 then chunk[4 * reg + i / 8 - addr]? else none) = none by
      split
      · exact List.getElem?_eq_none (by omega)
      · rfl]

theorem write_loop {I : σ → Prop} {regs : Nat → Prop} {rw_ w1c : Nat → Nat → Bool} (R : Spec.Regs ops I regs rw_ w1c)
    (tag : Tlp → Nat) (dev : PcieId) (data : List UInt8) (n addr : Nat) (hn : n ≤ data.length)
    (f : Fn σ) (hI : I f.regs) (hdev : dev.device = f.id.device ∧ dev.function = f.id.function)
    (hr : ∀ a, addr ≤ a → a < addr + (data.length - n) → regs (a / 4)) :
    ∃ f', (writeReqs dev data n addr).foldl (fun w req => (Fn.op ops tag w req).1) f = f' ∧ I f'.regs ∧
      Spec.CfgWritten ops rw_ w1c f.regs f'.regs addr (data.drop n) ∧
      f'.id = if n < data.length then { f.id with bus := dev.bus } else f.id := by
  induction hk : data.length - n using Nat.strongRecOn generalizing n addr f with
  | ind k ih =>
    rw [writeReqs]
    by_cases h : n < data.length
    · simp only [h, dite_true, List.foldl_cons]
      obtain ⟨l1, l2, l3, l4⟩ := IoRegion.len_facts addr (data.length - n) (by omega)
      generalize IoRegion.len addr (data.length - n) = L at l1 l2 l3 l4 ⊢
      have hs : (slice data n (n + L)).length = L := by rw [slice_length _ _ _ (by omega)]; omega
      obtain ⟨f', e1, e2, e3, e4⟩ := write_step ops R f hI tag dev hdev addr (slice data n (n + L)) (by omega) (by omega)
        (hr addr (by omega) (by omega))
      rw [e1]
      obtain ⟨f2, i1, i2, i3, i4⟩ := ih (data.length - (n + L)) (by omega) (n + L) (addr + L) (by omega) f' e3
        (by rw [e2]; exact hdev) (fun a h1 h2 => hr a (by omega) (by omega)) rfl
      refine ⟨f2, i1, i2, ?_, ?_⟩
      · have := cfgWritten_append ops rw_ w1c _ _ _ addr (slice data n (n + L)) (data.drop (n + L)) e4 (by rw [hs]; exact i3)
        rw [slice_append_drop] at this
        exact this
      · rw [i4, if_pos trivial, e2]; split <;> rfl
    · simp only [h, dite_false, List.foldl_nil]
      refine ⟨f, rfl, hI, ?_, by simp⟩
      rw [List.drop_eq_nil_of_le (by omega)]
      exact cfgWritten_nil ops _ _ _ _

end Cfg
end Pcie
