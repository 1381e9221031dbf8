/-
Helper lemmas: the settings that the host makes in a function.
-/
import Verif.Spec.HostCfg
import Verif.Lemmas.MsiSetup
import Verif.Props.CapRegs
import Verif.Props.Config
namespace Pcie
open Spec CapRegs
variable {S : Type}

theorem pcie_read_lt (s : Attrs) (k : Nat) : pcie.read s k < 2 ^ 32 := by
  apply Nat.lt_pow_two_of_testBit
  intro i hi
  have hdev : (k, i) ∉ pcieReadDev := by
    intro h
    have : ∀ x ∈ pcieReadDev, x.2 < 32 := by decide +kernel
    have := this _ h
    simp only at this
    omega
  rw [C51_pcie_read_partial s k i hdev]
  unfold RegMap.reported
  have hf : ∀ f ∈ pcieMap k, f.lsb + f.width ≤ 32 := by
    by_cases hk : k < 16
    · have : ∀ k, k < 16 → ∀ f ∈ pcieMap k, f.lsb + f.width ≤ 32 := by decide +kernel
      exact this k hk
    · intro f h
      have : pcieMap k = [] := by
        unfold pcieMap
        split <;> first | omega | rfl
      rw [this] at h
      cases h
  have hn : (pcieMap k).find? (·.covers i) = none := by
    rw [List.find?_eq_none]
    intro f h
    have := hf f h
    unfold RegField.covers
    simp only [Bool.and_eq_true, decide_eq_true_eq, not_and]
    omega
  rw [hn]

theorem pcie2_bits (s : Attrs) (d i : Nat) : (pcie.read (pcie.write s 2 d 0xf) 2).testBit i =
    if pcieMap.hasAcc .rw 2 i then d.testBit i else if errBit i then (pcie.read s 2).testBit i && !d.testBit i else (pcie.read s 2).testBit i := by
  by_cases hi : i < 32
  · have h := C51_pcie_write_partial s 2 d 0xf i (by
      intro h; have : ∀ x ∈ pcieReadDev, x.1 ≠ 2 := by decide +kernel
      exact this _ h rfl) (by
      intro h; have : ∀ x ∈ pcieWriteDev, x.1 ≠ 2 := by decide +kernel
      exact this _ h rfl)
    unfold WrittenAt at h
    have hm : (0xf : Nat).testBit (i / 8) = true := by
      have : i / 8 < 4 := by omega
      generalize i / 8 = j at *
      interval_cases j <;> decide
    rw [hm, if_pos rfl] at h
    exact h
  · have hn : (pcieMap 2).find? (·.covers i) = none := by
      rw [List.find?_eq_none]
      intro f h
      have : ∀ f ∈ pcieMap 2, f.lsb + f.width ≤ 32 := by decide +kernel
      have := this f h
      unfold RegField.covers
      simp only [Bool.and_eq_true, decide_eq_true_eq, not_and]
      omega
    unfold errBit RegMap.hasAcc
    simp only [hn]
    rw [tb_big _ i 32 (pcie_read_lt _ _) (by omega), tb_big _ i 32 (pcie_read_lt _ _) (by omega)]
    rfl

theorem rw2_iff (i : Nat) : pcieMap.hasAcc .rw 2 i = decide (i < 15) := by
  by_cases hi : i < 32
  · have : ∀ i, i < 32 → pcieMap.hasAcc .rw 2 i = decide (i < 15) := by decide +kernel
    exact this i hi
  · have hn : (pcieMap 2).find? (·.covers i) = none := by
      rw [List.find?_eq_none]
      intro f h
      have : ∀ f ∈ pcieMap 2, f.lsb + f.width ≤ 32 := by decide +kernel
      have := this f h
      unfold RegField.covers
      simp only [Bool.and_eq_true, decide_eq_true_eq, not_and]
      omega
    unfold RegMap.hasAcc
    simp only [hn]
    symm; simp; omega

theorem err_ge {i : Nat} (h : errBit i = true) : 16 ≤ i ∧ i < 32 := by
  by_cases hi : i < 32
  · have : ∀ i, i < 32 → errBit i = true → 16 ≤ i ∧ i < 32 := by decide +kernel
    exact this i hi h
  · have hn : (pcieMap 2).find? (·.covers i) = none := by
      rw [List.find?_eq_none]
      intro f h
      have : ∀ f ∈ pcieMap 2, f.lsb + f.width ≤ 32 := by decide +kernel
      have := this f h
      unfold RegField.covers
      simp only [Bool.and_eq_true, decide_eq_true_eq, not_and]
      omega
    unfold errBit RegMap.hasAcc at h
    simp only [hn] at h
    cases h

/-- The register of device control and status. -/
def devCtl (p : CfgPort S) (c : Nat) : Nat := p.fn.regs.common.caps.pci.off c + 2

namespace Spec.HasPcie
open IrqPort
variable {p : CfgPort S} {c : Nat} {a : Attrs}

theorem same (h : HasPcie p c a) {fn : Cfg.Fn (Fn (CapSpace S))} (hr : fn.regs = p.fn.regs) (hk : Kept p.fn fn) : HasPcie { p with fn } c a where
  dev := ⟨h.dev.1.trans hk.1.symm, h.dev.2.trans hk.2.symm⟩
  noShare := by show NoShare fn.regs.common.caps.pci; rw [hr]; exact h.noShare
  found := Shows.found_same h.found (by rw [hr])
  regs := by
    obtain ⟨emb, b, d⟩ := h.regs
    exact ⟨emb, b, by show fn.regs.common.caps.st c = _; rw [hr]; exact d⟩

theorem put (h : HasPcie p c a) {emb : Attrs → S} (hb : Behaves (p.beh c) emb pcie.read pcie.write) (a' : Attrs) {fn : Cfg.Fn (Fn (CapSpace S))}
    (hr : fn.regs = withCap p.fn.regs c (emb a')) (hk : Kept p.fn fn) : HasPcie { p with fn } c a' where
  dev := ⟨h.dev.1.trans hk.1.symm, h.dev.2.trans hk.2.symm⟩
  noShare := by show NoShare fn.regs.common.caps.pci; rw [hr, Shows.withCap_pci]; exact h.noShare
  found := Shows.found_same h.found (by rw [hr, Shows.withCap_pci])
  regs := ⟨emb, hb, by show fn.regs.common.caps.st c = _; rw [hr, Shows.withCap_st, if_pos rfl]⟩

theorem ctlReg_eq (h : HasPcie p c a) : ctlReg p = devCtl p c := by
  unfold ctlReg devCtl
  rw [h.found.found, Option.getD_some, Nat.mul_div_cancel_left _ (by omega : 0 < 4)]

theorem has (h : HasPcie p c a) : p.has 0x10 = true := by
  unfold IrqPort.has
  rw [h.found.found]
  have := h.found.lies.lo
  obtain ⟨o, ho⟩ : ∃ o, 4 * p.fn.regs.common.caps.pci.off c = o + 1 := ⟨4 * p.fn.regs.common.caps.pci.off c - 1, by omega⟩
  rw [ho]
  rfl

theorem own (h : HasPcie p c a) (k : Nat) : (p.beh c).read (p.fn.regs.common.caps.st c) k = pcie.read a k := by
  obtain ⟨emb, b, d⟩ := h.regs
  rw [d, b.read]

theorem own_lt (h : HasPcie p c a) (k : Nat) : (p.beh c).read (p.fn.regs.common.caps.st c) k < 2 ^ 32 := by
  rw [h.own]; exact pcie_read_lt _ _

/-- The registers of the capability in the configuration space. -/
theorem reg (h : HasPcie p c a) {k : Nat} (hk : k < p.fn.regs.common.caps.pci.len c) :
    regOf p (p.fn.regs.common.caps.pci.off c + k) = shown p.fn.regs.common.caps.pci c (pcie.read a) k := by
  have hlo := h.found.lies.lo
  have hhi := h.found.lies.hi
  unfold regOf
  rw [Fn.read_caps _ _ _ (by omega) (by omega)]
  rw [CapSpace.read_shown p.beh p.behx h.noShare h.found.lies hk]
  congr 1
  funext j
  exact h.own j

theorem ctl (h : HasPcie p c a) : regOf p (devCtl p c) = pcie.read a 2 := by
  have := h.found.len
  unfold devCtl
  rw [h.reg (by omega)]
  rfl

/-- Reading the register. -/
theorem rd (h : HasPcie p c a) {k : Nat} (hk : k < 3) (h0 : k ≠ 0) : ∃ fn', (p.io 0x10).readDword p.fn (4 * k) = .ok (fn', pcie.read a k) ∧
    fn'.regs = p.fn.regs ∧ HasPcie { p with fn := fn' } c a := by
  obtain ⟨fn', e1, e2, e3⟩ := io_readDword h.found h.dev h.noShare h.own_lt (k := k) hk
  refine ⟨fn', ?_, e2, h.same e2 e3⟩
  rw [e1]
  unfold shown
  rw [if_neg h0, h.own]

/-- Writing it. -/
theorem wr (h : HasPcie p c a) {v : Nat} (hv : v < 2 ^ 32) : ∃ fn', (p.io 0x10).writeDword p.fn 8 v = .ok fn' ∧
    HasPcie { p with fn := fn' } c (pcie.write a 2 v 0xf) ∧ (∀ r, r ≠ devCtl p c → regOf { p with fn := fn' } r = regOf p r) ∧
    fn'.regs.common.caps.pci = p.fn.regs.common.caps.pci ∧ ∀ q f, p.fn.regs = .br q f → ∃ f', fn'.regs = .br q f' := by
  obtain ⟨fn', e1, e2, e3⟩ := io_writeDword h.found h.dev h.noShare (k := 2) (by omega) hv
  obtain ⟨emb, b, d⟩ := h.regs
  have hr : fn'.regs = withCap p.fn.regs c (emb (pcie.write a 2 v 0xf)) := by rw [e3, d, b.write]
  have hn := h.put b _ hr e2
  have hpci : fn'.regs.common.caps.pci = p.fn.regs.common.caps.pci := by rw [hr, Shows.withCap_pci]
  refine ⟨fn', e1, hn, ?_, hpci, fun q f hbr => by rw [hr, hbr]; exact ⟨_, rfl⟩⟩
  intro r hne
  by_cases ho : r < 64 ∧ Occupies p.fn.regs.common.caps.pci c r
  · obtain ⟨-, -, o1, o2⟩ := ho
    obtain ⟨k, rfl⟩ : ∃ k, r = p.fn.regs.common.caps.pci.off c + k := ⟨r - p.fn.regs.common.caps.pci.off c, by omega⟩
    have := hn.reg (k := k) (by show k < fn'.regs.common.caps.pci.len c; rw [hpci]; omega)
    rw [show ({ p with fn := fn' } : CfgPort S).fn.regs.common.caps.pci = p.fn.regs.common.caps.pci from hpci] at this
    rw [this, h.reg (by omega)]
    have hk : k ≠ 2 := fun e => hne (by rw [e]; rfl)
    have hw : ∀ j, j ≠ 2 → pcie.read (pcie.write a 2 v 0xf) j = pcie.read a j := fun j hj => C51_pcie_others a 2 j v 0xf hj
    unfold shown
    split
    · rw [hw 0 (by omega)]
    · exact hw k hk
  · show (Fn.ops (CapSpace.ops p.beh p.behx)).read fn'.regs r = _
    rw [hr, C59_apart p.beh p.behx _ c r _ ho]
    rfl

end Spec.HasPcie

namespace CfgPort
open HasPcie
variable {p : CfgPort S} {c : Nat} {a : Attrs}

/-- The new value is written if it is another one: `g` says which one. -/
def update (p : CfgPort S) (g : Nat → Nat) : Py (CfgPort S) := do
  let (fn, old) ← (p.io 0x10).readDword p.fn 8
  let fn ← if g old ≠ old then (p.io 0x10).writeDword fn 8 (g old) else .ok fn
  return { p with fn }

theorem update_ok (h : HasPcie p c a) (g : Nat → Nat) (hg : ∀ x, x < 2 ^ 32 → g x < 2 ^ 32) (hk : ∀ x i, 15 ≤ i → (g x).testBit i = x.testBit i) :
    ∃ p' a', p.update g = .ok p' ∧ HasPcie p' c a' ∧ (devCtl p' c = devCtl p c ∧ ∀ q f, p.fn.regs = .br q f → ∃ f', p'.fn.regs = .br q f') ∧
      OnlyBits p p' (fun r i => r = devCtl p c ∧ (i < 15 ∨ errBit i = true)) ∧
      (∀ i, i < 15 → (regOf p' (devCtl p c)).testBit i = (g (regOf p (devCtl p c))).testBit i) ∧
      ∀ i, errBit i = true → (regOf p' (devCtl p c)).testBit i =
        ((regOf p (devCtl p c)).testBit i && decide (g (regOf p (devCtl p c)) = regOf p (devCtl p c))) := by
  obtain ⟨fn1, e1, e2, e3⟩ := h.rd (k := 2) (by omega) (by omega)
  have hc := h.ctl
  have hsame : ∀ r, regOf { p with fn := fn1 } r = regOf p r := by
    intro r
    show (Fn.ops (CapSpace.ops p.beh p.behx)).read fn1.regs r = _
    rw [e2]; rfl
  have hd1 : devCtl { p with fn := fn1 } c = devCtl p c := by unfold devCtl; show fn1.regs.common.caps.pci.off c + 2 = _; rw [e2]
  unfold update
  rw [show (8 : Nat) = 4 * 2 from rfl, e1]
  simp only [ok_bind]
  rw [hc]
  by_cases hne : g (pcie.read a 2) = pcie.read a 2
  · rw [if_neg (by simpa using hne)]
    refine ⟨{ p with fn := fn1 }, a, rfl, e3, ⟨hd1, fun q f hbr => ⟨f, e2.trans hbr⟩⟩, ⟨rfl, fun r i _ => by rw [hsame]⟩, ?_, ?_⟩
    · intro i _; rw [hsame, hc, hne]
    · intro i _; rw [hsame, hc]; simp [hne]
  · rw [if_pos hne]
    have hlt := hg _ (pcie_read_lt a 2)
    obtain ⟨fn2, w1, w2, w3, w4, w5⟩ := e3.wr hlt
    have hio : ({ p with fn := fn1 } : CfgPort S).io 0x10 = p.io 0x10 := rfl
    rw [hio] at w1
    have w1' : (p.io 0x10).writeDword fn1 (4 * 2) (g (pcie.read a 2)) = .ok fn2 := w1
    rw [w1']
    have hd2 : devCtl { p with fn := fn2 } c = devCtl p c := by
      unfold devCtl; show fn2.regs.common.caps.pci.off c + 2 = _; rw [w4]; show fn1.regs.common.caps.pci.off c + 2 = _; rw [e2]
    have hctl : regOf { p with fn := fn2 } (devCtl p c) = pcie.read (pcie.write a 2 (g (pcie.read a 2)) 0xf) 2 := by
      have := w2.ctl
      rw [show devCtl { ({ p with fn := fn1 } : CfgPort S) with fn := fn2 } c = devCtl p c from hd2] at this
      exact this
    refine ⟨{ p with fn := fn2 }, _, rfl, w2, ⟨hd2, fun q f hbr => w5 q f (e2.trans hbr)⟩, ⟨rfl, ?_⟩, ?_, ?_⟩
    · intro r i hch
      by_cases hr : r = devCtl p c
      · subst hr
        rw [hctl, hc, pcie2_bits, rw2_iff]
        have h15 : ¬ i < 15 := fun x => hch ⟨rfl, .inl x⟩
        have herr : errBit i = false := by
          cases he : errBit i with
          | false => rfl
          | true => exact absurd ⟨rfl, .inr he⟩ hch
        simp [h15, herr]
      · have := w3 r (by rw [hd1]; exact hr)
        rw [hsame] at this
        rw [show regOf { p with fn := fn2 } r = regOf p r from this]
    · intro i hi
      rw [hctl, pcie2_bits, rw2_iff]
      simp [hi]
    · intro i hi
      have := err_ge hi
      rw [hctl, pcie2_bits, rw2_iff, hk _ _ (by omega)]
      have h15 : ¬ i < 15 := by omega
      simp [h15, hi, hne]

/-- Fields of the register. -/
theorem field_eq (v lsb w x : Nat) (hv : v < 2 ^ w) (h : ∀ i, i < w → x.testBit (lsb + i) = v.testBit i) : x / 2 ^ lsb % 2 ^ w = v := by
  apply Nat.eq_of_testBit_eq
  intro i
  rw [Nat.testBit_mod_two_pow, ← Nat.shiftRight_eq_div_pow, Nat.testBit_shiftRight]
  by_cases hi : i < w
  · simp [hi, h i hi]
  · rw [tb_big v i w hv (by omega)]; simp [hi]

theorem put_bits (x m v lsb w i : Nat) (hm : ∀ i, m.testBit i = (decide (lsb ≤ i) && decide (i < lsb + w))) (hv : v < 2 ^ w) :
    (andNot x m ||| v <<< lsb).testBit i = if lsb ≤ i ∧ i < lsb + w then v.testBit (i - lsb) else x.testBit i := by
  rw [Nat.testBit_or, andNot_testBit, hm, Nat.testBit_shiftLeft]
  by_cases h : lsb ≤ i ∧ i < lsb + w
  · simp [h]
  · rw [if_neg h]
    by_cases h1 : lsb ≤ i
    · have h2 : ¬ i < lsb + w := fun x => h ⟨h1, x⟩
      rw [tb_big v (i - lsb) w hv (by omega)]
      simp [h1, h2]
    · simp [h1]

theorem mask_bits {m lsb w : Nat} (h : m < 2 ^ 32) (hw : lsb + w ≤ 32) (ht : ∀ i, i < 32 → m.testBit i = (decide (lsb ≤ i) && decide (i < lsb + w))) (i : Nat) :
    m.testBit i = (decide (lsb ≤ i) && decide (i < lsb + w)) := by
  by_cases hi : i < 32
  · exact ht i hi
  · rw [tb_big m i 32 h (by omega)]
    have : ¬ i < lsb + w := by omega
    simp [this]

/-- Writing a field of the device control. -/
theorem put_ok (h : HasPcie p c a) {m lsb w v : Nat} (hm : ∀ i, m.testBit i = (decide (lsb ≤ i) && decide (i < lsb + w))) (hv : v < 2 ^ w) (hw : lsb + w ≤ 15) :
    ∃ p' a', p.update (fun old => andNot old m ||| v <<< lsb) = .ok p' ∧ HasPcie p' c a' ∧ (devCtl p' c = devCtl p c ∧ ∀ q f, p.fn.regs = .br q f → ∃ f', p'.fn.regs = .br q f') ∧
      OnlyBits p p' (fun r i => r = devCtl p c ∧ ((lsb ≤ i ∧ i < lsb + w) ∨ errBit i = true)) ∧
      fieldOf p' (devCtl p c) lsb w = v ∧
      ∀ i, errBit i = true → (regOf p' (devCtl p c)).testBit i = ((regOf p (devCtl p c)).testBit i && decide (fieldOf p (devCtl p c) lsb w = v)) := by
  have hb := fun x i => put_bits x m v lsb w i hm hv
  obtain ⟨p', a', e1, e2, e3, e4, e5, e6⟩ := update_ok h (fun old => andNot old m ||| v <<< lsb)
    (by
      intro x hx
      apply Nat.lt_pow_two_of_testBit
      intro i hi
      rw [hb, if_neg (by omega), tb_big x i 32 hx hi])
    (by intro x i hi; rw [hb, if_neg (by omega)])
  refine ⟨p', a', e1, e2, e3, ⟨e4.host, ?_⟩, ?_, ?_⟩
  · intro r i hch
    by_cases hr : r = devCtl p c
    · subst hr
      by_cases h15 : i < 15
      · rw [e5 i h15, hb, if_neg fun x => hch ⟨rfl, .inl x⟩]
      · exact e4.regs _ i fun x => x.2.elim h15 fun y => hch ⟨rfl, .inr y⟩
    · exact e4.regs r i fun x => hr x.1
  · refine field_eq v lsb w _ hv fun i hi => ?_
    rw [e5 _ (by omega), hb, if_pos (by omega)]
    congr 1; omega
  · intro i hi
    rw [e6 i hi]
    congr 2
    rw [eq_iff_iff]
    constructor
    · intro he
      refine field_eq v lsb w _ hv fun j hj => ?_
      rw [← he, hb, if_pos (by omega)]
      congr 1; omega
    · intro he
      apply Nat.eq_of_testBit_eq
      intro j
      rw [hb]
      split
      · next hj =>
        rw [← he]
        unfold fieldOf
        rw [Nat.testBit_mod_two_pow, ← Nat.shiftRight_eq_div_pow, Nat.testBit_shiftRight]
        simp only [show j - lsb < w by omega, decide_true, Bool.true_and]
        congr 1; omega
      · rfl

theorem mps_mask (i : Nat) : (0xe0 : Nat).testBit i = (decide (5 ≤ i) && decide (i < 5 + 3)) := mask_bits (by decide) (by decide) (by decide) i
theorem rrq_mask (i : Nat) : (0x7000 : Nat).testBit i = (decide (12 ≤ i) && decide (i < 12 + 3)) := mask_bits (by decide) (by decide) (by decide) i

theorem setMps_eq (p : CfgPort S) {v : Int} (h0 : 0 ≤ v) (h5 : v ≤ 5) (hm : v ≤ p.mpss) : p.setMps v = p.update (fun old => andNot old 0xe0 ||| v.toNat <<< 5) := by
  unfold setMps update
  rw [if_neg (by omega)]

theorem setReadrq_eq (p : CfgPort S) {v : Int} (h0 : 0 ≤ v) (h5 : v ≤ 5) : p.setReadrq v = p.update (fun old => andNot old 0x7000 ||| v.toNat <<< 12) := by
  unfold setReadrq update
  rw [if_neg (by omega)]

/-- Reading a field of it. -/
theorem get_ok (h : HasPcie p c a) : ∃ fn', (p.io 0x10).readDword p.fn 8 = .ok (fn', regOf p (devCtl p c)) ∧ HasPcie { p with fn := fn' } c a ∧
    (∀ r, regOf { p with fn := fn' } r = regOf p r) ∧ devCtl { p with fn := fn' } c = devCtl p c := by
  obtain ⟨fn1, e1, e2, e3⟩ := h.rd (k := 2) (by omega) (by omega)
  refine ⟨fn1, by rw [h.ctl]; exact e1, e3, fun r => ?_, ?_⟩
  · show (Fn.ops (CapSpace.ops p.beh p.behx)).read fn1.regs r = _
    rw [e2]; rfl
  · unfold devCtl; show fn1.regs.common.caps.pci.off c + 2 = _; rw [e2]

theorem shr_and7 (x k : Nat) : x >>> k &&& 7 = x / 2 ^ k % 2 ^ 3 := by
  rw [show (7 : Nat) = 2 ^ 3 - 1 from rfl, Nat.and_two_pow_sub_one_eq_mod, Nat.shiftRight_eq_div_pow]

theorem and_bit0 (x k : Nat) : (x &&& 1 <<< k = 0) ↔ x.testBit k = false := by
  have := and_ne_bit x k
  cases h : x.testBit k with
  | false => simp [h] at this ⊢; exact this
  | true => simp [h] at this ⊢; exact this

theorem or_bit (x k i : Nat) : (x ||| 1 <<< k).testBit i = (x.testBit i || decide (i = k)) := by
  rw [Nat.testBit_or, Nat.shiftLeft_eq, Nat.one_mul, Nat.testBit_two_pow]
  congr 1
  rw [Bool.eq_iff_iff]; simp [eq_comm]

theorem tags_eq (p : CfgPort S) (h1 : p.has 0x10 = true) (h2 : p.devcap.testBit 5 = true) : p.configureTags = p.update (fun old => old ||| 1 <<< 8) := by
  unfold configureTags update
  have : ¬ p.devcap &&& 1 <<< 5 = 0 := by rw [and_bit0, h2]; simp
  rw [if_neg (by simp [h1]), if_neg this]
  congr 1
  funext x
  obtain ⟨fn, old⟩ := x
  have : (old &&& 1 <<< 8 = 0) ↔ (old ||| 1 <<< 8 ≠ old) := by
    rw [and_bit0]
    constructor
    · intro h e
      have := congrArg (·.testBit 8) e
      simp only [or_bit, h] at this
      simp at this
    · intro h
      cases hb : old.testBit 8 with
      | false => rfl
      | true =>
        exfalso; apply h
        apply Nat.eq_of_testBit_eq
        intro i
        rw [or_bit]
        by_cases hi : i = 8
        · subst hi; simp [hb]
        · simp [hi]
  simp only [this]

theorem tags_ok (h : HasPcie p c a) (h1 : p.has 0x10 = true) (h2 : p.devcap.testBit 5 = true) :
    ∃ p' a', p.configureTags = .ok p' ∧ HasPcie p' c a' ∧ (devCtl p' c = devCtl p c ∧ ∀ q f, p.fn.regs = .br q f → ∃ f', p'.fn.regs = .br q f') ∧
      OnlyBits p p' (fun r i => r = devCtl p c ∧ (i = 8 ∨ errBit i = true)) ∧ (regOf p' (devCtl p c)).testBit 8 = true ∧
      ∀ i, errBit i = true → (regOf p' (devCtl p c)).testBit i = ((regOf p (devCtl p c)).testBit i && (regOf p (devCtl p c)).testBit 8) := by
  have hb := fun x i => or_bit x 8 i
  obtain ⟨p', a', e1, e2, e3, e4, e5, e6⟩ := update_ok h (fun old => old ||| 1 <<< 8)
    (fun x hx => Nat.or_lt_two_pow hx (by decide))
    (by intro x i hi; rw [hb]; simp [show i ≠ 8 by omega])
  refine ⟨p', a', by rw [tags_eq p h1 h2]; exact e1, e2, e3, ⟨e4.host, ?_⟩, by rw [e5 8 (by omega), hb]; simp, ?_⟩
  · intro r i hch
    by_cases hr : r = devCtl p c
    · subst hr
      by_cases h15 : i < 15
      · rw [e5 i h15, hb]
        have : i ≠ 8 := fun x => hch ⟨rfl, .inl x⟩
        simp [this]
      · exact e4.regs _ i fun x => x.2.elim h15 fun y => hch ⟨rfl, .inr y⟩
    · exact e4.regs r i fun x => hr x.1
  · intro i hi
    rw [e6 i hi]
    congr 1
    rw [Bool.eq_iff_iff, decide_eq_true_eq]
    constructor
    · intro he; rw [← he, hb]; simp
    · intro he
      apply Nat.eq_of_testBit_eq
      intro j
      rw [hb]
      by_cases hj : j = 8
      · subst hj; simp [he]
      · simp [hj]

theorem br15_lt {σ} (ops : CapOps σ) (f : Br σ) : f.read ops 15 < 2 ^ 32 := by
  show f.intLine &&& 0xff ||| (f.intPin &&& 0xff) <<< 8 ||| f.brParityResp.toNat <<< 16 ||| f.brSerr.toNat <<< 17 ||| f.secReset.toNat <<< 22 < 2 ^ 32
  have hb : ∀ (b : Bool) (k : Nat), k ≤ 22 → b.toNat <<< k < 2 ^ 32 := by
    intro b k hk
    rw [Nat.shiftLeft_eq]
    have h1 : b.toNat ≤ 1 := Bool.toNat_le b
    have hp : 2 ^ k ≤ 2 ^ 22 := Nat.pow_le_pow_right (by omega) hk
    calc b.toNat * 2 ^ k ≤ 1 * 2 ^ 22 := Nat.mul_le_mul h1 hp
      _ < 2 ^ 32 := by decide
  have h8 : (f.intPin &&& 0xff) <<< 8 < 2 ^ 32 := by
    rw [Nat.shiftLeft_eq]
    have : f.intPin &&& 0xff ≤ 0xff := Nat.and_le_right
    omega
  have h0 : f.intLine &&& 0xff < 2 ^ 32 := Nat.lt_of_le_of_lt Nat.and_le_right (by decide)
  exact Nat.or_lt_two_pow (Nat.or_lt_two_pow (Nat.or_lt_two_pow (Nat.or_lt_two_pow h0 h8) (hb _ _ (by omega))) (hb _ _ (by omega))) (hb _ _ (by omega))

theorem br15_caps {σ} (ops : CapOps σ) (f : Br σ) (d m : Nat) : (f.write ops 15 d m).caps = f.caps := rfl

/-- Reading and writing the bridge control. -/
theorem rdCtl (p : CfgPort S) (hd : p.dev.device = p.fn.id.device ∧ p.dev.function = p.fn.id.function) (hlt : regOf p 15 < 2 ^ 32) :
    ∃ fn', p.cfgIo.readWord p.fn 0x3e = .ok (fn', regOf p 15 >>> 16) ∧ fn'.regs = p.fn.regs ∧ IrqPort.Kept p.fn fn' := by
  obtain ⟨fn', b, e1, e2, e3, e4, e5⟩ := Cfg.fn_read (Fn.ops (CapSpace.ops p.beh p.behx)) p.fn p.tag p.dev 0x3e 2 hd (by
    intro x h1 h2
    rw [show x / 4 = 15 by omega]
    exact hlt)
  refine ⟨fn', ?_, e3, Cfg.read_id _ _ _ _ _ _ _ _ e1⟩
  unfold ByteIo.readWord ByteIo.readWords
  have e1' : p.cfgIo.read p.fn 0x3e (1 * 2) = .ok (fn', b) := e1
  rw [e1']
  have hl := e2.1
  have hw : fromBytes b .little = regOf p 15 >>> 16 := by
    rw [Nat.shiftRight_eq_div_pow]
    apply word_val b _ 2 hl (by omega)
    intro i hi
    rw [List.getElem?_eq_getElem (by omega), e2.2 i (by omega)]
    unfold cfgBytes
    have hi' : i = 0 ∨ i = 1 := by omega
    rw [show (0x3e + i) / 4 = 15 by omega]
    show some (UInt8.ofNat (regOf p 15 / _)) = _
    congr 2
    rcases hi' with rfl | rfl <;> simp only [Nat.reduceAdd, Nat.reduceMod, Nat.reducePow] <;> omega
  have hsl : slice b (2 * 0) (2 * (0 + 1)) = b := by
    unfold slice
    simp [List.take_of_length_le (Nat.le_of_eq hl)]
  simp only [ok_bind, List.range_one, List.map_cons, List.map_nil, hsl, hw]
  rfl

theorem wrCtl (p : CfgPort S) (hd : p.dev.device = p.fn.id.device ∧ p.dev.function = p.fn.id.function) {v : Nat} (hv : v < 2 ^ 16) :
    ∃ fn' u, p.cfgIo.writeWord p.fn 0x3e v = .ok fn' ∧ fn'.regs = Fn.write (CapSpace.ops p.beh p.behx) p.fn.regs 15 u 0xc ∧ IrqPort.Kept p.fn fn' ∧
      ∀ i, 16 ≤ i → i < 32 → u.testBit i = v.testBit (i - 16) := by
  have hl : (encWord .little 2 v).length = 2 := encWord_length _ _ _
  obtain ⟨u, be, w1, w2, w3, w4, w5⟩ := Cfg.write_one (Fn.ops (CapSpace.ops p.beh p.behx)) p.tag p.fn p.dev hd 0x3e (encWord .little 2 v) (by omega) (by omega)
  have hbe : be = 0xc := by
    apply Nat.eq_of_testBit_eq
    intro i
    by_cases hi : i < 4
    · have := w4 i hi
      rw [Bool.eq_iff_iff, this, hl]
      interval_cases i <;> decide
    · rw [tb_big be i 4 w3 (by omega), tb_big 0xc i 4 (by decide) (by omega)]
  refine ⟨_, u, ?_, by rw [w1, hbe]; rfl, Cfg.write_id _ _ _ _ _ _, ?_⟩
  · unfold ByteIo.writeWord ByteIo.writeWords
    rw [encode_ok .little 2 [v] [] (by simpa using hv), ok_bind]
    simp only [List.map_cons, List.map_nil, List.flatten_cons, List.flatten_nil, List.append_nil, List.nil_append]
    rfl
  · intro i h16 h32
    obtain ⟨b, b1, b2⟩ := digits_get 2 v (i / 8 - 2) (by omega)
    rw [w5 i h32 b (by omega) b1, b2]
    rw [show (256 : Nat) ^ (i / 8 - 2) = 2 ^ (8 * (i / 8 - 2)) by rw [show (256 : Nat) = 2 ^ 8 by rfl, ← Nat.pow_mul],
      show (256 : Nat) = 2 ^ 8 by rfl, Nat.testBit_mod_two_pow, ← Nat.shiftRight_eq_div_pow, Nat.testBit_shiftRight]
    simp only [show i % 8 < 8 by omega, decide_true, Bool.true_and]
    congr 1; omega

theorem serr_ok (p : CfgPort S) (hd : p.dev.device = p.fn.id.device ∧ p.dev.function = p.fn.id.function) {q f} (hbr : p.fn.regs = .br q f) (ht : p.headerType = 1) :
    ∃ p', p.configureSerr = .ok p' ∧ OnlyBits p p' (fun r i => r = 15 ∧ i = 17) ∧ (regOf p' 15).testBit 17 = true ∧
      p'.fn.regs.common.caps = p.fn.regs.common.caps ∧ IrqPort.Kept p.fn p'.fn ∧ ∃ f', p'.fn.regs = .br q f' := by
  have h15 : regOf p 15 = f.read (CapSpace.ops p.beh p.behx) 15 := by
    show Fn.read _ p.fn.regs 15 = _; rw [hbr]; rfl
  have hlt : regOf p 15 < 2 ^ 32 := by rw [h15]; exact br15_lt _ _
  obtain ⟨fn1, e1, e2, e3⟩ := rdCtl p hd hlt
  have hsame : ∀ r, regOf { p with fn := fn1 } r = regOf p r := by
    intro r
    show (Fn.ops (CapSpace.ops p.beh p.behx)).read fn1.regs r = _
    rw [e2]; rfl
  unfold configureSerr
  rw [if_neg (by simpa using ht), e1]
  simp only [ok_bind]
  have hbit : (regOf p 15 >>> 16 &&& 2 = 0) ↔ (regOf p 15).testBit 17 = false := by
    rw [show (2 : Nat) = 1 <<< 1 from rfl, and_bit0, Nat.testBit_shiftRight]
  by_cases hs : (regOf p 15).testBit 17 = true
  · rw [if_neg (by rw [hbit, hs]; simp)]
    exact ⟨{ p with fn := fn1 }, rfl, ⟨rfl, fun r i _ => by rw [hsame]⟩, by rw [hsame]; exact hs, by show fn1.regs.common.caps = _; rw [e2], e3, f, e2.trans hbr⟩
  · have hs' : (regOf p 15).testBit 17 = false := by simpa using hs
    rw [if_pos (hbit.2 hs')]
    have hv : regOf p 15 >>> 16 ||| 2 < 2 ^ 16 := by
      apply Nat.or_lt_two_pow _ (by decide)
      rw [Nat.shiftRight_eq_div_pow]; omega
    obtain ⟨fn2, u, w1, w2, w3, w4⟩ := wrCtl { p with fn := fn1 } ⟨hd.1.trans e3.1.symm, hd.2.trans e3.2.symm⟩ hv
    have w1' : p.cfgIo.writeWord fn1 0x3e (regOf p 15 >>> 16 ||| 2) = .ok fn2 := w1
    rw [w1']
    have hr2 : fn2.regs = .br q (f.write (CapSpace.ops p.beh p.behx) 15 u 0xc) := by
      rw [w2]; show Fn.write _ fn1.regs 15 u 0xc = _; rw [e2, hbr]; rfl
    have hW := C35_bridge_write_partial (CapSpace.ops p.beh p.behx) f 15 u 0xc (by decide) (by decide) (by decide)
    have hbits : ∀ i, (regOf { p with fn := fn2 } 15).testBit i = ((regOf p 15).testBit i || decide (i = 17)) := by
      intro i
      have e : regOf { p with fn := fn2 } 15 = (f.write (CapSpace.ops p.beh p.behx) 15 u 0xc).read (CapSpace.ops p.beh p.behx) 15 := by
        show Fn.read _ fn2.regs 15 = _; rw [hr2]; rfl
      rw [e, hW i, ← h15]
      by_cases h : 16 ≤ i ∧ i < 32
      · have hm : (0xc : Nat).testBit (i / 8) = true := by
          have : i / 8 = 2 ∨ i / 8 = 3 := by omega
          rcases this with h | h <;> rw [h] <;> decide
        rw [if_pos hm, w4 i h.1 h.2, show (2 : Nat) = 1 <<< 1 from rfl, or_bit, Nat.testBit_shiftRight, show 16 + (i - 16) = i by omega]
        have hd17 : decide (i - 16 = 1) = decide (i = 17) := by rw [decide_eq_decide]; omega
        rw [hd17]
        by_cases h17 : i = 17
        · subst h17; simp [brRw]
        · simp [h17, brW1c]
      · have hm : (0xc : Nat).testBit (i / 8) = false := by
          by_cases h2 : i / 8 < 2
          · generalize i / 8 = j at *
            interval_cases j <;> decide
          · rw [tb_big 0xc (i / 8) 4 (by decide) (by omega)]
        rw [hm]
        have : i ≠ 17 := by omega
        simp [this]
    refine ⟨{ p with fn := fn2 }, rfl, ⟨rfl, ?_⟩, by rw [hbits]; simp, ?_, ⟨w3.1.trans e3.1, w3.2.trans e3.2⟩, _, hr2⟩
    · intro r i hch
      by_cases hr : r = 15
      · subst hr
        rw [hbits]
        have : i ≠ 17 := fun x => hch ⟨rfl, x⟩
        simp [this]
      · have := C35_bridge_other (CapSpace.ops p.beh p.behx) f 15 r u 0xc (by decide) hr
        have e : regOf { p with fn := fn2 } r = regOf p r := by
          show Fn.read _ fn2.regs r = Fn.read _ p.fn.regs r
          rw [hr2, hbr]; exact this
        rw [e]
    · show fn2.regs.common.caps = _
      rw [hr2, hbr]; rfl

theorem same_host {p' : CfgPort S} (h : p' = { p with fn := p'.fn }) : p'.has 0x10 = p.has 0x10 ∧ p'.mpss = p.mpss ∧ p'.devcap = p.devcap ∧ p'.capsReg = p.capsReg ∧
    p'.headerType = p.headerType ∧ ctlReg p' = ctlReg p := by
  rw [h]; exact ⟨rfl, rfl, rfl, rfl, rfl, rfl⟩

theorem known_of {p' : CfgPort S} {c a a'} (hk : KnownFn p) (h : HasPcie p c a) (h' : HasPcie p' c a') (hh : p' = { p with fn := p'.fn })
    (hb : ∀ q f, p.fn.regs = .br q f → ∃ f', p'.fn.regs = .br q f') : KnownFn p' where
  dev := h'.dev
  hdr := fun ht => by
    rw [(same_host hh).2.2.2.2.1] at ht
    obtain ⟨q, f, hf⟩ := hk.hdr ht
    exact ⟨q, hb q f hf⟩
  pcie := fun _ => ⟨c, a', h'⟩

theorem mpsOf_same {p' : CfgPort S} (hh : p' = { p with fn := p'.fn }) : mpsOf p' = { mpsOf p with mps := fieldOf p' (ctlReg p) 5 3 } := by
  obtain ⟨e1, e2, -, e4, -, e6⟩ := same_host hh
  unfold mpsOf
  rw [e1, e2, e4, e6]

theorem _root_.Pcie.Spec.OnlyBits.trans {p p' p'' : CfgPort S} {ch ch' : Nat → Nat → Prop} (h : OnlyBits p p' ch) (h' : OnlyBits p' p'' ch') :
    OnlyBits p p'' (fun r i => ch r i ∨ ch' r i) where
  host := by
    have h1 := h.host
    have h2 := h'.host
    rw [h2, h1]
  regs := fun r i hn => by rw [h'.regs r i fun x => hn (.inr x), h.regs r i fun x => hn (.inl x)]

theorem _root_.Pcie.Spec.OnlyBits.mono {p p' : CfgPort S} {ch ch' : Nat → Nat → Prop} (h : OnlyBits p p' ch) (hc : ∀ r i, ch r i → ch' r i) : OnlyBits p p' ch' :=
  ⟨h.host, fun r i hn => h.regs r i fun x => hn (hc r i x)⟩

theorem _root_.Pcie.Spec.OnlyBits.refl (p : CfgPort S) (ch : Nat → Nat → Prop) : OnlyBits p p ch := ⟨rfl, fun _ _ _ => rfl⟩

/-- `set_mps` is the update of the field. -/
theorem setMps_view (hk : KnownFn p) (hp : p.has 0x10 = true) (v : Nat) :
    (p.setMps v = .error "ValueError" ∧ (mpsOf p).setMps v = .error "ValueError") ∨
    ∃ p', p.setMps v = .ok p' ∧ (mpsOf p).setMps v = .ok (mpsOf p') ∧ KnownFn p' ∧ OnlyBits p p' (mpsBits p) := by
  obtain ⟨c, a, h⟩ := hk.pcie hp
  by_cases hv : 5 < v ∨ p.mpss < v
  · left
    constructor
    · unfold setMps; rw [if_pos (by omega)]
    · unfold MFn.setMps; rw [if_pos (show 5 < v ∨ (mpsOf p).mpss < v from hv)]
  · right
    obtain ⟨p', a', e1, e2, e3, e4, e5, e6⟩ := put_ok h mps_mask (v := v) (by omega) (by omega)
    rw [← h.ctlReg_eq] at e4 e5
    refine ⟨p', ?_, ?_, known_of hk h e2 e4.host e3.2, e4.mono fun _ _ x => ⟨hp, x⟩⟩
    · rw [setMps_eq p (by omega) (by omega) (by omega)]; exact e1
    · unfold MFn.setMps
      rw [if_neg (show ¬ (5 < v ∨ (mpsOf p).mpss < v) from hv), mpsOf_same e4.host, e5]

theorem getMps_view (hk : KnownFn p) (hp : p.has 0x10 = true) : ∃ p', p.getMps = .ok (p', (mpsOf p).mps) ∧ mpsOf p' = mpsOf p ∧ KnownFn p' ∧
    OnlyBits p p' (fun _ _ => False) := by
  obtain ⟨c, a, h⟩ := hk.pcie hp
  obtain ⟨fn, e1, e2, e3⟩ := h.rd (k := 2) (by omega) (by omega)
  have e1' : (p.io 0x10).readDword p.fn 8 = .ok (fn, pcie.read a 2) := e1
  have hs : ∀ r, regOf { p with fn } r = regOf p r := by
    intro r
    show (Fn.ops (CapSpace.ops p.beh p.behx)).read fn.regs r = _
    rw [e2]; rfl
  refine ⟨{ p with fn }, ?_, ?_, known_of hk h e3 rfl (fun q f hb => ⟨f, e2.trans hb⟩), ⟨rfl, fun r i _ => by rw [hs]⟩⟩
  · unfold getMps
    rw [e1']
    simp only [ok_bind, shr_and7]
    show _ = Except.ok (_, fieldOf p (ctlReg p) 5 3)
    unfold fieldOf
    rw [h.ctlReg_eq, h.ctl]
    rfl
  · rw [mpsOf_same (p := p) (p' := { p with fn }) rfl]
    unfold fieldOf
    rw [hs]; rfl

theorem known_serr {p' : CfgPort S} (hk : KnownFn p) (hh : p' = { p with fn := p'.fn }) (hc : p'.fn.regs.common.caps = p.fn.regs.common.caps) (hkept : IrqPort.Kept p.fn p'.fn)
    (hb : ∃ q f, p'.fn.regs = .br q f) : KnownFn p' := by
  have hd : p'.dev = p.dev ∧ p'.beh = p.beh := by rw [hh]; exact ⟨rfl, rfl⟩
  refine ⟨by rw [hd.1]; exact ⟨hk.dev.1.trans hkept.1.symm, hk.dev.2.trans hkept.2.symm⟩, fun _ => hb, fun hp => ?_⟩
  rw [(same_host hh).1] at hp
  obtain ⟨c, a, h⟩ := hk.pcie hp
  refine ⟨c, a, by rw [hd.1]; exact ⟨hk.dev.1.trans hkept.1.symm, hk.dev.2.trans hkept.2.symm⟩, by rw [hc]; exact h.noShare, ?_, ?_⟩
  · have := Shows.found_same h.found (fn := p'.fn) (by rw [hc])
    have e : ({ p.toIrqPort with fn := p'.fn } : IrqPort S) = p'.toIrqPort := by rw [hh]
    rw [e] at this
    exact this
  · obtain ⟨emb, b, d⟩ := h.regs
    exact ⟨emb, by rw [hd.2]; exact b, by rw [hc]; exact d⟩

theorem known_ctl (hk : KnownFn p) : ctlReg p ≠ 15 := by
  by_cases hp : p.has 0x10 = true
  · obtain ⟨c, a, h⟩ := hk.pcie hp
    have := h.found.lies.lo
    rw [h.ctlReg_eq]; unfold devCtl; omega
  · unfold ctlReg
    unfold IrqPort.has at hp
    split at hp
    · next h => rw [h]; decide
    · next h => rw [h]; decide
    · exact absurd rfl hp

theorem field_of_bits {p p' : CfgPort S} {reg lsb w : Nat} (h : ∀ i, lsb ≤ i → i < lsb + w → (regOf p' reg).testBit i = (regOf p reg).testBit i) :
    fieldOf p' reg lsb w = fieldOf p reg lsb w := by
  unfold fieldOf
  apply Nat.eq_of_testBit_eq
  intro i
  rw [Nat.testBit_mod_two_pow, Nat.testBit_mod_two_pow, ← Nat.shiftRight_eq_div_pow, ← Nat.shiftRight_eq_div_pow, Nat.testBit_shiftRight, Nat.testBit_shiftRight]
  by_cases hi : i < w
  · rw [h _ (by omega) (by omega)]
  · simp [hi]

end CfgPort
end Pcie
