import Verif.Spec.CfgOut
import Verif.Lemmas.CapRegs
import Verif.Lemmas.EnumHdr
import Verif.Lemmas.Msi
/-
Lemmas for C66: where each bit of the configuration outputs comes from, and what the host reads.
-/
namespace Pcie
open CapRegs

/-- A bit of an attribute of an object, now or one cycle ago. -/
abbrev HSrc := Bool × CfgObj × Src

def HSrc.val (f f' : CfgFn) (x : HSrc) : Bool := x.2.2.val ((if x.1 then f' else f).attrs x.2.1)

/-- Where bit `i` of a statement comes from; `prev`: the register saved. -/
def OutS.srcs (prev : Option Nat) (i : Nat) : OutS → List HSrc
  | rd o r => (r.srcAt i).toList.map fun s => (false, o, s)
  | sl o a k m => if m.testBit i then [(false, o, .bit a (k + i))] else []
  | raw o a => [(false, o, .bit a i)]
  | aer reg => (CapRegs.aer.srcs reg i).map fun s => (false, .aer, s)
  | aerLo reg => if i < 16 then (CapRegs.aer.srcs reg i).map fun s => (false, .aer, s) else []
  | savedHi => match prev with
    | some reg => if i < 16 then (CapRegs.aer.srcs reg (16 + i)).map fun s => (true, .aer, s) else []
    | none => []

theorem OutS.eval_bit (f f' : CfgFn) (saved : Nat) (prev : Option Nat) (s : OutS) (i : Nat)
    (h : s = .savedHi → ∃ reg, prev = some reg ∧ saved = CapRegs.aer.read f'.aer reg) :
    (s.eval f saved).testBit i = (s.srcs prev i).any (HSrc.val f f') := by
  cases s with
  | rd o r =>
    show (r.eval (f.attrs o)).testBit i = _
    rw [RdS.eval_bit]
    cases h : r.srcAt i <;> simp [OutS.srcs, h, HSrc.val]
  | sl o a k m =>
    show ((f.attrs o a >>> k) &&& m).testBit i = _
    rw [Nat.testBit_and, Nat.testBit_shiftRight]
    by_cases hm : m.testBit i = true <;> simp [OutS.srcs, hm, HSrc.val, Src.val]
  | raw o a => simp [OutS.eval, OutS.srcs, HSrc.val, Src.val]
  | aer reg =>
    show (CapRegs.aer.read f.aer reg).testBit i = _
    rw [RegCap.read_bit]; simp [OutS.srcs, List.any_map, HSrc.val, CfgFn.attrs, Function.comp_def]
  | aerLo reg =>
    show (CapRegs.aer.read f.aer reg &&& 0xffff).testBit i = _
    rw [show (0xffff : Nat) = 2 ^ 16 - 1 from rfl, tb_field0, RegCap.read_bit]
    by_cases hi : i < 16 <;> simp [OutS.srcs, hi, List.any_map, HSrc.val, CfgFn.attrs, Function.comp_def]
  | savedHi =>
    obtain ⟨reg, rfl, rfl⟩ := h rfl
    show ((CapRegs.aer.read f'.aer reg >>> 16) &&& 0xffff).testBit i = _
    rw [show (0xffff : Nat) = 2 ^ 16 - 1 from rfl, tb_field0, Nat.testBit_shiftRight, RegCap.read_bit]
    by_cases hi : i < 16 <;> simp [OutS.srcs, hi, List.any_map, HSrc.val, CfgFn.attrs, Function.comp_def]

theorem evalOut_bit (f f' : CfgFn) (saved : Nat) (prev : Option Nat) (l : List OutS) (i : Nat)
    (h : .savedHi ∈ l → ∃ reg, prev = some reg ∧ saved = CapRegs.aer.read f'.aer reg) :
    (evalOut f saved l).testBit i = (l.flatMap (OutS.srcs prev i)).any (HSrc.val f f') := by
  have : ∀ v : Nat, (l.foldl (fun (v : Nat) (s : OutS) => v ||| s.eval f saved) v).testBit i =
      (v.testBit i || (l.flatMap (OutS.srcs prev i)).any (HSrc.val f f')) := by
    clear * - h
    induction l with
    | nil => intro v; simp
    | cons s l ih =>
      intro v
      rw [List.foldl_cons, ih (fun hm => h (List.mem_cons_of_mem _ hm)), Nat.testBit_or, OutS.eval_bit f f' saved prev s i (fun he => h (by simp [he]))]
      simp [List.flatMap_cons, List.any_append, Bool.or_assoc]
  simp [evalOut, this]

/-! ### What the host reads -/

/-- Where the bit that the host reads comes from. -/
def hostSrcs (i : Nat) : Spec.HostReg → List (CfgObj × Src)
  | .command => if i = 1 then [(.fn, .truth ("memory_space_enable", 0))] else if i = 2 then [(.fn, .truth ("bus_master_enable", 0))]
    else if i = 6 then [(.fn, .truth ("parity_error_response_enable", 0))] else if i = 8 then [(.fn, .truth ("serr_enable", 0))]
    else if i = 10 then [(.fn, .truth ("interrupt_disable", 0))] else []
  | .pm reg => (CapRegs.pm.srcs reg i).map fun s => (.pm, s)
  | .pcie reg => (CapRegs.pcie.srcs reg i).map fun s => (.pcie, s)
  | .aer reg => (CapRegs.aer.srcs reg i).map fun s => (.aer, s)
  | .msi => if i = 16 then [(.msi, .truth ("msi_enable", 0))] else if i = 23 then [(.msi, .truth ("msi_64bit_address_capable", 0))]
    else if i = 26 then [(.msi, .truth ("msi_extended_message_data_enable", 0))]
    else if 20 ≤ i ∧ i < 23 then [(.msi, .bit ("msi_multiple_message_enable", 0) (i - 20))] else []
  | .msix => if i = 31 then [(.msix, .truth ("msix_enable", 0))] else if i = 30 then [(.msix, .truth ("msix_function_mask", 0))] else []
  | .msiAddr => [(.msi, .bit ("msi_message_address", 0) i)]
  | .msiData => [(.msi, .bit ("msi_message_data", 0) i)]
  | .msiMask => [(.msi, .bit ("msi_mask_bits", 0) i)]
  | .bus => [(.id, .bit ("bus", 0) i)]
  | .device => [(.id, .bit ("device", 0) i)]

/-- The bits for which this is so. -/
def hostKnown (i : Nat) : Spec.HostReg → Bool
  | .command => [1, 2, 6, 8, 10].contains i
  | .msi => [16, 20, 21, 22, 23, 26].contains i
  | .msix => [30, 31].contains i
  | _ => true

theorem toNat_ne_zero (b : Bool) : (b.toNat != 0) = b := by cases b <;> rfl

theorem tb_ffff0000_or (x h i : Nat) (hi : 16 ≤ i) (h2 : i < 32) : ((x &&& 0xffff0000) ||| (h &&& 0xffff)).testBit i = x.testBit i := by
  rw [Nat.testBit_or, Nat.testBit_and, hi16, show (0xffff : Nat) = 2 ^ 16 - 1 from rfl, tb_field0]
  simp [hi, h2]

theorem msiAddr_eq {c : MsiCap} (h : Spec.MsiOk c) : Spec.msiAddrRead c = c.addr := by
  have ha := h.addr; have hal := h.align
  unfold Spec.msiAddrRead
  have e1 : (c.read 1).getD 0 = c.addr % 2 ^ 32 := by
    show (some (c.addr &&& 0xfffffffc)).getD 0 = _
    have := addr_mask (a := c.addr % 2 ^ 32) (Nat.mod_lt _ (by decide)) (by omega)
    rw [Option.getD_some, ← this]
    apply Nat.eq_of_testBit_eq; intro i
    rw [Nat.testBit_and, Nat.testBit_and, Nat.testBit_mod_two_pow]
    by_cases hi : i < 32
    · simp [hi]
    · rw [tb_big 0xfffffffc i 32 (by decide) (by omega)]; simp
  cases hc : c.cap64 with
  | false => rw [hc] at ha; simp at ha; simp [e1]; omega
  | true =>
    rw [hc] at ha; simp at ha
    have e2 : (c.read 2).getD 0 = c.addr / 2 ^ 32 := by
      simp [MsiCap.read, hc]
      rw [show (4294967295 : Nat) = 2 ^ 32 - 1 from rfl, Nat.and_two_pow_sub_one_eq_mod, Nat.shiftRight_eq_div_pow]
      exact Nat.mod_eq_of_lt (by omega)
    simp [e1, e2]; omega

theorem msiData_eq {c : MsiCap} (h : Spec.MsiOk c) : Spec.msiDataRead c = c.data := by
  have hd := h.data
  unfold Spec.msiDataRead
  cases hc : c.cap64 <;> cases he : c.extCap <;> rw [he] at hd <;> simp at hd <;> simp [MsiCap.read, hc, he]
  · rw [show (65535 : Nat) = 2 ^ 16 - 1 from rfl, Nat.and_two_pow_sub_one_eq_mod]; exact Nat.mod_eq_of_lt hd
  · rw [show (4294967295 : Nat) = 2 ^ 32 - 1 from rfl, Nat.and_two_pow_sub_one_eq_mod]; exact Nat.mod_eq_of_lt hd
  · rw [show (65535 : Nat) = 2 ^ 16 - 1 from rfl, Nat.and_two_pow_sub_one_eq_mod]; exact Nat.mod_eq_of_lt hd
  · rw [show (4294967295 : Nat) = 2 ^ 32 - 1 from rfl, Nat.and_two_pow_sub_one_eq_mod]; exact Nat.mod_eq_of_lt hd

theorem msiMask_eq {c : MsiCap} (h : Spec.MsiOk c) : Spec.msiMaskRead c = c.maskBits := by
  have hd := h.mask
  unfold Spec.msiMaskRead
  cases hm : c.maskCap
  · rw [hm] at hd; simp at hd; simp [hd]
  · rw [hm] at hd; simp at hd
    cases hc : c.cap64 <;> simp [MsiCap.read, hc, hm]
    all_goals rw [show (4294967295 : Nat) = 2 ^ 32 - 1 from rfl, Nat.and_two_pow_sub_one_eq_mod]; exact Nat.mod_eq_of_lt hd

theorem msiCtl_bit (c : MsiCap) (i : Nat) (hi : 16 ≤ i) (h2 : i < 32) : ((c.read 0).getD 0).testBit i = c.control.testBit i := by
  show ((c.control &&& 0xffff0000) ||| (c.head &&& 0xffff)).testBit i = _
  exact tb_ffff0000_or _ _ _ hi h2

theorem msixCtl_bit (c : MsixCap) (i : Nat) (hi : 16 ≤ i) (h2 : i < 32) : ((c.read 0).getD 0).testBit i = c.control.testBit i := by
  show ((c.control &&& 0xffff0000) ||| (c.head &&& 0xffff)).testBit i = _
  exact tb_ffff0000_or _ _ _ hi h2

theorem host_bit (f : CfgFn) (hm : Spec.MsiOk f.msi) (i : Nat) (r : Spec.HostReg) (hk : hostKnown i r = true) :
    r.bit f i = (hostSrcs i r).any fun x => x.2.val (f.attrs x.1) := by
  cases r with
  | pm reg => simp [Spec.HostReg.bit, hostSrcs, RegCap.read_bit, List.any_map, CfgFn.attrs, Function.comp_def]
  | pcie reg => simp [Spec.HostReg.bit, hostSrcs, RegCap.read_bit, List.any_map, CfgFn.attrs, Function.comp_def]
  | aer reg => simp [Spec.HostReg.bit, hostSrcs, RegCap.read_bit, List.any_map, CfgFn.attrs, Function.comp_def]
  | msiAddr => simp [Spec.HostReg.bit, hostSrcs, msiAddr_eq hm, CfgFn.attrs, Src.val]
  | msiData => simp [Spec.HostReg.bit, hostSrcs, msiData_eq hm, CfgFn.attrs, Src.val]
  | msiMask => simp [Spec.HostReg.bit, hostSrcs, msiMask_eq hm, CfgFn.attrs, Src.val]
  | bus => simp [Spec.HostReg.bit, hostSrcs, CfgFn.attrs, Src.val]
  | device => simp [Spec.HostReg.bit, hostSrcs, CfgFn.attrs, Src.val]
  | command =>
    have : i = 1 ∨ i = 2 ∨ i = 6 ∨ i = 8 ∨ i = 10 := by simpa [hostKnown] using hk
    simp only [Spec.HostReg.bit]
    rw [cmd_bits _ _ _ (by omega)]
    rcases this with rfl | rfl | rfl | rfl | rfl <;> simp [hostSrcs, CfgFn.attrs, Src.val, toNat_ne_zero]
  | msi =>
    have : i = 16 ∨ i = 20 ∨ i = 21 ∨ i = 22 ∨ i = 23 ∨ i = 26 := by simpa [hostKnown] using hk
    simp only [Spec.HostReg.bit]
    rw [msiCtl_bit _ _ (by omega) (by omega)]
    simp only [MsiCap.control, Nat.testBit_or, tb_bool, show (7 : Nat) = 2 ^ 3 - 1 from rfl, tb_field]
    rcases this with rfl | rfl | rfl | rfl | rfl | rfl <;> simp [hostSrcs, CfgFn.attrs, Src.val, toNat_ne_zero]
  | msix =>
    have : i = 30 ∨ i = 31 := by simpa [hostKnown] using hk
    simp only [Spec.HostReg.bit]
    rw [msixCtl_bit _ _ (by omega) (by omega)]
    simp only [MsixCap.control, Nat.testBit_or, tb_bool, show (0x7ff : Nat) = 2 ^ 11 - 1 from rfl, tb_field]
    rcases this with rfl | rfl <;> simp [hostSrcs, CfgFn.attrs, Src.val, toNat_ne_zero]

/-! ### The tables -/

/-- The register that is saved before register `r`. -/
def prevReg (regs : List (List OutS)) (r : Nat) : Option Nat :=
  if r = 0 then none else match regs[r - 1]? with
    | some [.aerLo reg] => some reg
    | _ => none

/-- Bit `i` of output register `r` comes from where the specification says; `keep` are the sources considered. -/
def outOk (keep : HSrc → Bool) (regs : List (List OutS)) (map : List (List Spec.OutField)) (r i : Nat) : Bool :=
  let have_ := (((regs.getD r []).flatMap (OutS.srcs (prevReg regs r) i))).filter keep
  match (map.getD r []).find? fun x => decide (x.lsb ≤ i) && decide (i < x.lsb + x.width) with
  | some x => hostKnown (x.start + (i - x.lsb)) x.src &&
      have_ == ((hostSrcs (x.start + (i - x.lsb)) x.src).map fun s => ((x.old, s.1, s.2) : HSrc)).filter keep
  | none => have_ == []

theorem any_keep (keep : HSrc → Bool) (p : HSrc → Bool) (l : List HSrc) (h : ∀ x, keep x = false → p x = false) : (l.filter keep).any p = l.any p := by
  induction l with
  | nil => rfl
  | cons x l ih =>
    rw [List.filter_cons]
    cases hk : keep x
    · simp [h x hk, ih]
    · simp [ih]

theorem outOk_bit (keep : HSrc → Bool) (regs map) (r i : Nat) (h : outOk keep regs map r i = true) (f f' : CfgFn) (hm : Spec.MsiOk f.msi) (hm' : Spec.MsiOk f'.msi)
    (hkeep : ∀ x, keep x = false → x.val f f' = false) (saved : Nat)
    (hs : .savedHi ∈ regs.getD r [] → ∃ reg, prevReg regs r = some reg ∧ saved = CapRegs.aer.read f'.aer reg) :
    (evalOut f saved (regs.getD r [])).testBit i = Spec.shownBit (map.getD r []) f f' i := by
  rw [evalOut_bit f f' saved (prevReg regs r) _ i hs, ← any_keep keep _ _ hkeep]
  unfold Spec.shownBit
  unfold outOk at h
  simp only at h
  cases hf : (map.getD r []).find? fun x => decide (x.lsb ≤ i) && decide (i < x.lsb + x.width) with
  | none => rw [hf] at h; simp only [beq_iff_eq] at h; rw [h]; simp
  | some x =>
    rw [hf] at h; simp only [Bool.and_eq_true, beq_iff_eq] at h
    rw [h.2, any_keep keep _ _ hkeep, List.any_map]
    show _ = x.src.bit _ _
    rw [host_bit (if x.old then f' else f) (by split <;> assumption) _ _ h.1]
    rfl

/-- The statement makes at most 32 bits. -/
def OutS.fits : OutS → Bool
  | rd _ r => r.fits
  | sl _ _ _ m => decide (m < 2 ^ 32)
  | raw o a => o == .msi && a == ("msi_mask_bits", 0)
  | aer reg => (CapRegs.aer.rd reg).all RdS.fits
  | aerLo _ => true
  | savedHi => true

theorem OutS.fits_bit (f : CfgFn) (hm : Spec.MsiOk f.msi) (saved i : Nat) (hi : 32 ≤ i) (s : OutS) (h : s.fits = true) : (s.eval f saved).testBit i = false := by
  cases s with
  | rd o r =>
    show (r.eval (f.attrs o)).testBit i = _
    rw [RdS.eval_bit, RdS.fits_src r i hi h]; rfl
  | sl o a k m =>
    show ((f.attrs o a >>> k) &&& m).testBit i = _
    rw [Nat.testBit_and, tb_big m i 32 (by simpa [OutS.fits] using h) hi]; simp
  | raw o a =>
    have : o = .msi ∧ a = ("msi_mask_bits", 0) := by simpa [OutS.fits] using h
    obtain ⟨rfl, rfl⟩ := this
    show f.msi.maskBits.testBit i = _
    have hd := hm.mask
    refine tb_big _ i 32 (Nat.lt_of_lt_of_le hd ?_) hi
    split <;> simp
  | aer reg =>
    show (CapRegs.aer.read f.aer reg).testBit i = _
    rw [RegCap.read_bit, srcs_fits CapRegs.aer reg i hi h]; rfl
  | aerLo reg =>
    show (CapRegs.aer.read f.aer reg &&& 0xffff).testBit i = _
    rw [Nat.testBit_and, tb_big 0xffff i 32 (by decide) hi]; simp
  | savedHi =>
    show ((saved >>> 16) &&& 0xffff).testBit i = _
    rw [Nat.testBit_and, tb_big 0xffff i 32 (by decide) hi]; simp

theorem evalOut_fits (f : CfgFn) (hm : Spec.MsiOk f.msi) (saved i : Nat) (hi : 32 ≤ i) (l : List OutS) (h : l.all OutS.fits = true) : (evalOut f saved l).testBit i = false := by
  have : ∀ v : Nat, v.testBit i = false → (l.foldl (fun (v : Nat) (s : OutS) => v ||| s.eval f saved) v).testBit i = false := by
    induction l with
    | nil => intro v hv; exact hv
    | cons s l ih =>
      intro v hv
      simp only [List.all_cons, Bool.and_eq_true] at h
      rw [List.foldl_cons]
      apply ih h.2
      rw [Nat.testBit_or, hv, OutS.fits_bit f hm saved i hi s h.1]; rfl
  exact this 0 (by simp)

theorem shown_fits (fields : List Spec.OutField) (h : fields.all (fun x => decide (x.lsb + x.width ≤ 32)) = true) (f f' : CfgFn) (i : Nat) (hi : 32 ≤ i) :
    Spec.shownBit fields f f' i = false := by
  unfold Spec.shownBit
  rw [List.find?_eq_none.2 ?_]
  intro x hx
  have := List.all_eq_true.1 h x hx
  simp at this ⊢; omega

/-! ### The cycles -/

/-- The function that is shown in cycle `n`. -/
def shownFn (R m n : Nat) : Nat := n / R % m

theorem div_succ_same {n R : Nat} (h : n % R + 1 < R) : (n + 1) / R = n / R ∧ (n + 1) % R = n % R + 1 := by
  have hR : 0 < R := by omega
  have e : n + 1 = (n % R + 1) + R * (n / R) := by have := Nat.mod_add_div n R; omega
  constructor
  · rw [e, Nat.add_mul_div_left _ _ hR, Nat.div_eq_of_lt h]; omega
  · rw [e, Nat.add_mul_mod_self_left, Nat.mod_eq_of_lt h]

theorem div_succ_next {n R : Nat} (hR : 0 < R) (h : ¬ n % R + 1 < R) : (n + 1) / R = n / R + 1 ∧ (n + 1) % R = 0 := by
  have hl := Nat.mod_lt n hR
  have e : n + 1 = R * (n / R + 1) := by have := Nat.mod_add_div n R; rw [Nat.mul_add]; omega
  constructor
  · rw [e, Nat.mul_div_cancel_left _ hR]
  · rw [e, Nat.mul_mod_right]

theorem mod_succ_turn {a m : Nat} (hm : 0 < m) : (a + 1) % m = if a % m + 1 < m then a % m + 1 else 0 := by
  by_cases h : a % m + 1 < m
  · rw [if_pos h]; exact (div_succ_same h).2
  · rw [if_neg h]; exact (div_succ_next hm h).2

/-- What is known of the position in cycle `n`. -/
structure PosOk (regs : List (List OutS)) (fns : Nat → List CfgFn) (m n : Nat) (p : CfgPos) : Prop where
  k : p.k = n / regs.length % m
  r : p.r = n % regs.length
  func : n % regs.length ≠ 0 → ∃ f, (fns (n - n % regs.length))[p.k]? = some f ∧ p.func = f.id.function
  saved : ∀ reg, prevReg regs (n % regs.length) = some reg → ∃ f', (fns (n - 1))[p.k]? = some f' ∧ p.saved = CapRegs.aer.read f'.aer reg

theorem getElem?_lt {α} (l : List α) (k : Nat) (h : k < l.length) : ∃ x, l[k]? = some x := ⟨l[k], List.getElem?_eq_getElem h⟩

theorem pos_step (regs : List (List OutS)) (fns : Nat → List CfgFn) (m n : Nat) (hm : 0 < m) (hR : 0 < regs.length) (hl : ∀ n, (fns n).length = m) (p : CfgPos)
    (h : PosOk regs fns m n p) : ∃ out p', p.step regs (fns n) = some (out, p') ∧ PosOk regs fns m (n + 1) p' ∧
      ∃ f f0, (fns n)[p.k]? = some f ∧ (fns (n - n % regs.length))[p.k]? = some f0 ∧ out = ⟨f0.id.function, n % regs.length, evalOut f p.saved (regs.getD (n % regs.length) [])⟩ := by
  have hk : p.k < (fns n).length := by rw [h.k, hl]; exact Nat.mod_lt _ hm
  obtain ⟨f, hf⟩ := getElem?_lt (fns n) p.k hk
  have hr : p.r < regs.length := by rw [h.r]; exact Nat.mod_lt _ hR
  obtain ⟨l, hlr⟩ := getElem?_lt regs p.r hr
  have hgd : regs.getD (n % regs.length) [] = l := by rw [← h.r, List.getD_eq_getElem?_getD, hlr]; rfl
  have hf0 : ∃ f0, (fns (n - n % regs.length))[p.k]? = some f0 ∧ (if p.r = 0 then f.id.function else p.func) = f0.id.function := by
    by_cases h0 : n % regs.length = 0
    · refine ⟨f, ?_, ?_⟩
      · rw [h0, Nat.sub_zero, hf]
      · rw [if_pos (by rw [h.r, h0])]
    · obtain ⟨f0, h1, h2⟩ := h.func h0
      exact ⟨f0, h1, by rw [if_neg (by rw [h.r]; exact h0), h2]⟩
  obtain ⟨f0, hf0, hfe⟩ := hf0
  refine ⟨_, _, by simp only [CfgPos.step, hf, hlr]; rfl, ?_, f, f0, hf, hf0, ?_⟩
  · by_cases hn : n % regs.length + 1 < regs.length
    · obtain ⟨e1, e2⟩ := div_succ_same hn
      have hn' : p.r + 1 < regs.length := by rw [h.r]; exact hn
      refine ⟨?_, ?_, ?_, ?_⟩
      · simp only [if_pos hn', e1, h.k]
      · simp only [if_pos hn']; rw [e2, h.r]
      · intro _
        simp only [if_pos hn']
        refine ⟨f0, ?_, hfe⟩
        have : n + 1 - (n + 1) % regs.length = n - n % regs.length := by rw [e2]; omega
        rw [this]; exact hf0
      · intro reg hreg
        simp only [if_pos hn']
        refine ⟨f, by simpa using hf, ?_⟩
        rw [e2] at hreg
        unfold prevReg at hreg
        rw [if_neg (by omega), Nat.add_sub_cancel, ← h.r, hlr] at hreg
        split at hreg
        · rename_i heq; cases heq; cases hreg; rfl
        · cases hreg
    · obtain ⟨e1, e2⟩ := div_succ_next hR hn
      have hn' : ¬ p.r + 1 < regs.length := by rw [h.r]; exact hn
      refine ⟨?_, ?_, ?_, ?_⟩
      · simp only [if_neg hn', e1, h.k, hl, mod_succ_turn hm]
      · simp only [if_neg hn', e2]
      · intro h0; exact absurd e2 h0
      · intro reg hreg; rw [e2] at hreg; simp [prevReg] at hreg
  · rw [hfe, hgd, h.r]

theorem pos_ok (regs : List (List OutS)) (fns : Nat → List CfgFn) (m : Nat) (hm : 0 < m) (hR : 0 < regs.length) (hl : ∀ n, (fns n).length = m) (n : Nat) :
    ∃ p, cfgPos regs fns n = some p ∧ PosOk regs fns m n p := by
  induction n with
  | zero => exact ⟨{}, rfl, by simp, by simp, by simp, by simp [prevReg]⟩
  | succ n ih =>
    obtain ⟨p, hp, ho⟩ := ih
    obtain ⟨out, p', hs, ho', _⟩ := pos_step regs fns m n hm hR hl p ho
    exact ⟨p', by simp [cfgPos, hp, hs], ho'⟩

end Pcie
