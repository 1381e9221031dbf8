/- `setup` of one function: the host's record, and the registers after BAR sizing. -/
import Verif.Lemmas.HostEmb
import Verif.Spec.HostEnum
namespace Pcie
open Spec Phys
variable {σ τ τ' : Type}

theorem pack2 (a b k : Nat) (ha : a < 2 ^ k) : (a ||| b <<< k) % 2 ^ k = a ∧ (a ||| b <<< k) >>> k = b := by
  have e : a ||| b <<< k = b * 2 ^ k + a := by
    rw [Nat.or_comm, ← Nat.shiftLeft_add_eq_or_of_lt ha, Nat.shiftLeft_eq]
  rw [e, Nat.shiftRight_eq_div_pow]
  constructor
  · rw [Nat.mul_comm, Nat.mul_add_mod, Nat.mod_eq_of_lt ha]
  · rw [Nat.mul_comm, Nat.mul_add_div (Nat.two_pow_pos k), Nat.div_eq_of_lt ha, Nat.add_zero]

theorem and_mod (a k : Nat) : a &&& (2 ^ k - 1) = a % 2 ^ k := Nat.and_two_pow_sub_one_eq_mod a k

theorem words_reg (a b : Nat) : (a &&& 0xffff ||| (b &&& 0xffff) <<< 16) &&& 0xffff = a % 2 ^ 16 ∧
    (a &&& 0xffff ||| (b &&& 0xffff) <<< 16) >>> 16 &&& 0xffff = b % 2 ^ 16 := by
  rw [show (0xffff : Nat) = 2 ^ 16 - 1 from rfl]
  simp only [and_mod]
  obtain ⟨h1, h2⟩ := pack2 (a % 2 ^ 16) (b % 2 ^ 16) 16 (Nat.mod_lt _ (by decide))
  rw [h1, h2, Nat.mod_mod]
  exact ⟨rfl, rfl⟩

theorem class_reg (a b : Nat) : (a &&& 0xff ||| (b &&& 0xffffff) <<< 8) &&& 0xff = a % 2 ^ 8 ∧
    (a &&& 0xff ||| (b &&& 0xffffff) <<< 8) >>> 8 = b % 2 ^ 24 := by
  rw [show (0xff : Nat) = 2 ^ 8 - 1 from rfl, show (0xffffff : Nat) = 2 ^ 24 - 1 from rfl]
  simp only [and_mod]
  exact pack2 (a % 2 ^ 8) (b % 2 ^ 24) 8 (Nat.mod_lt _ (by decide))

theorem class_lt (a b : Nat) : (a &&& 0xff ||| (b &&& 0xffffff) <<< 8) < 2 ^ 32 := by
  apply Nat.or_lt_two_pow
  · exact and_lt32 _ _ (by decide)
  · rw [Nat.shiftLeft_eq]
    have : b &&& 0xffffff ≤ 0xffffff := Nat.and_le_right
    omega

theorem words_lt (a b : Nat) : (a &&& 0xffff ||| (b &&& 0xffff) <<< 16) < 2 ^ 32 := by
  apply Nat.or_lt_two_pow
  · exact and_lt32 _ _ (by decide)
  · rw [Nat.shiftLeft_eq]
    have : b &&& 0xffff ≤ 0xffff := Nat.and_le_right
    omega

theorem hdr_reg (ops : CapOps σ) (c : Common σ) : ((c.read ops 3 >>> 16 &&& 0xff) &&& 0x7f = c.headerLayout % 2 ^ 7) ∧
    ((c.read ops 3 >>> 16 &&& 0xff) &&& 0x80 = 0 ↔ c.multifunction = false) := by
  have a1 : c.cacheLine &&& 0xff < 2 ^ 8 := Nat.lt_of_le_of_lt Nat.and_le_right (by decide)
  have a2 : c.latency &&& 0xff < 2 ^ 8 := Nat.lt_of_le_of_lt Nat.and_le_right (by decide)
  have a3 : c.headerLayout &&& 0x7f < 2 ^ 7 := Nat.lt_of_le_of_lt Nat.and_le_right (by decide)
  have a4 : c.headerLayout &&& 0x7f = c.headerLayout % 2 ^ 7 := and_mod c.headerLayout 7
  have := hdr_split _ c.multifunction a3
  simp only [Common.read, show ¬ ((3 : Nat) = 0) by decide, show ¬ ((3 : Nat) = 1) by decide,
    show ¬ ((3 : Nat) = 2) by decide, if_false, if_true]
  rw [reg3_hdr _ _ _ _ _ _ _ c.multifunction a1 a2 a3 rfl, ← a4]
  exact this

theorem describes_congr {id : PcieId} {p : Host.Device} : (∀ {f g : Ep σ}, f.ident = g.ident → Describes id (.ep f) p → Describes id (.ep g) p) ∧
    ∀ {dsp} {f g : Br σ}, f.toCommon.ident = g.toCommon.ident → Describes id (.br dsp f) p → Describes id (.br dsp g) p := by
  refine ⟨fun {f g} h d => ?_, fun {dsp f g} h d => ?_⟩
  · simp only [Ep.ident, Common.ident, Prod.mk.injEq] at h
    obtain ⟨⟨h1, h2, h3, h4, h5, h6⟩, h7, h8⟩ := h
    obtain ⟨d0, d1, d2, d3, d4, d5, d6, d7, d8⟩ := d
    refine ⟨d0, ?_, ?_, ?_, ?_, ?_, ?_, ?_, d8⟩
    · exact d1.trans (congrArg (· % 2 ^ 16) h1)
    · exact d2.trans (congrArg (· % 2 ^ 16) h2)
    · exact d3.trans (congrArg (· % 2 ^ 7) h5)
    · exact d4.trans h6
    · exact d5.trans (congrArg (· % 2 ^ 8) h3)
    · exact d6.trans (congrArg (· % 2 ^ 24) h4)
    · intro g' hg
      cases hg
      rw [← h7, ← h8]
      exact d7 f rfl
  · simp only [Common.ident, Prod.mk.injEq] at h
    obtain ⟨h1, h2, h3, h4, h5, h6⟩ := h
    obtain ⟨d0, d1, d2, d3, d4, d5, d6, d7, d8⟩ := d
    refine ⟨d0, ?_, ?_, ?_, ?_, ?_, ?_, (fun g' hg => nomatch hg), d8⟩
    · exact d1.trans (congrArg (· % 2 ^ 16) h1)
    · exact d2.trans (congrArg (· % 2 ^ 16) h2)
    · exact d3.trans (congrArg (· % 2 ^ 7) h5)
    · exact d4.trans h6
    · exact d5.trans (congrArg (· % 2 ^ 8) h3)
    · exact d6.trans (congrArg (· % 2 ^ 24) h4)

theorem Describes.bars {id : PcieId} {x : Fn σ} {p : Host.Device} (h : Describes id x p) (d : DevBars) : Describes id x { p with bars := d } :=
  ⟨h.id, h.vendor, h.device, h.header, h.multi, h.revision, h.cls, h.subsys, h.dsp⟩

theorem setupRegs_ep (ops : CapOps σ) (tag : Tlp → Nat) (id : PcieId) {f f' : Ep σ} {d : DevBars} (ht : f.headerLayout % 128 = 0)
    (h : readBars (Ep.regs ops) 6 12 f {} = .ok (f', d)) :
    ∃ p, (Host.setupRegs id (idDword (.ep f))).onFn ops tag id (.ep f) = .ok (.ep f', p) ∧
      Describes id (.ep f) { p with dsp := false } ∧ p.bars = d ∧ f'.ident = f.ident := by
  have E := emb_ep ops f.ident
  have hc2 : (Fn.ep f).read ops 2 = f.revisionId &&& 0xff ||| (f.classCode &&& 0xffffff) <<< 8 := rfl
  have hc11 : (Fn.ep f).read ops 11 = f.subsysVendor &&& 0xffff ||| (f.subsysId &&& 0xffff) <<< 16 := rfl
  have hc3 : (Fn.ep f).read ops 3 = f.toCommon.read ops 3 := rfl
  have r2 := readDword_on (tag := tag) id (Fn.ep f) (r := 2) (ops := ops) (by rw [hc2]; exact class_lt _ _)
  have r11 := readDword_on (tag := tag) id (Fn.ep f) (r := 11) (ops := ops) (by rw [hc11]; exact words_lt _ _)
  have r3 := readByte_on (tag := tag) id (Fn.ep f) (read_hdr_lt ops _)
  obtain ⟨q1, q2⟩ := readBars_on (tag := tag) E id 6 12 f {} rfl (.inl rfl) (.inr (.inr rfl)) (fun i hi => .inr (.inl ⟨by omega, by omega⟩))
  obtain ⟨a1, a2⟩ := hdr_reg ops f.toCommon
  unfold Host.setupRegs
  rw [hc3] at r3
  simp only [CfgProg.onFn_bind, r3, r2, a1]
  rw [if_pos (show f.headerLayout % 2 ^ 7 = 0 from ht)]
  simp only [CfgProg.onFn_bind, r11, q1, h, liftFn, pure_on]
  refine ⟨_, rfl, ?_, rfl, q2 _ _ h⟩
  obtain ⟨b1, b2⟩ := words_reg f.vendorId f.deviceId
  obtain ⟨c1, c2⟩ := class_reg f.revisionId f.classCode
  obtain ⟨s1, s2⟩ := words_reg f.subsysVendor f.subsysId
  refine ⟨rfl, b1, b2, rfl, ?_, ?_, ?_, ?_, rfl⟩
  · simp only [common, ne_eq]
    cases hm : f.multifunction with
    | true => rw [decide_eq_true]; intro hz; rw [a2.1 hz] at hm; cases hm
    | false => rw [decide_eq_false]; exact fun hz => hz (a2.2 hm)
  · rw [hc2]; exact c1
  · rw [hc2]; exact c2
  · intro g hg
    cases hg
    rw [hc11]
    exact ⟨s1, s2⟩

theorem setupRegs_br (ops : CapOps σ) (tag : Tlp → Nat) (id : PcieId) {dsp : Bool} {f f' : Br σ} {d : DevBars} (ht : f.headerLayout % 128 = 1)
    (hb : BarsLt f.bars) (h : readBars (Br.regs ops) 2 14 f {} = .ok (f', d)) :
    ∃ p, (Host.setupRegs id (idDword (.br dsp f))).onFn ops tag id (.br dsp f) = .ok (.br dsp f', p) ∧
      Describes id (.br dsp f) { p with dsp := dsp } ∧ p.bars = d ∧ f'.toCommon.ident = f.toCommon.ident ∧ BarsLt f'.bars := by
  have E := emb_br ops dsp f.toCommon.ident
  have hc2 : (Fn.br dsp f).read ops 2 = f.revisionId &&& 0xff ||| (f.classCode &&& 0xffffff) <<< 8 := rfl
  have hc3 : (Fn.br dsp f).read ops 3 = f.toCommon.read ops 3 := rfl
  have r2 := readDword_on (tag := tag) id (Fn.br dsp f) (r := 2) (ops := ops) (by rw [hc2]; exact class_lt _ _)
  have r3 := readByte_on (tag := tag) id (Fn.br dsp f) (read_hdr_lt ops _)
  obtain ⟨q1, q2⟩ := readBars_on (tag := tag) E id 2 14 f {} ⟨hb, rfl⟩ (.inl rfl) (.inr (.inr (.inr (.inr rfl)))) (fun i hi => by
    have : i = 0 ∨ i = 1 := by omega
    rcases this with rfl | rfl
    · exact .inr (.inl rfl)
    · exact .inr (.inr (.inl rfl)))
  obtain ⟨a1, a2⟩ := hdr_reg ops f.toCommon
  unfold Host.setupRegs
  rw [hc3] at r3
  have ht' : f.headerLayout % 2 ^ 7 = 1 := ht
  simp only [CfgProg.onFn_bind, r3, r2, a1]
  rw [if_neg (by rw [ht']; decide), if_pos ht']
  simp only [CfgProg.onFn_bind, q1, h, liftFn, pure_on]
  obtain ⟨i1, i2⟩ := q2 _ _ h
  refine ⟨_, rfl, ?_, rfl, i2, i1⟩
  obtain ⟨b1, b2⟩ := words_reg f.vendorId f.deviceId
  obtain ⟨c1, c2⟩ := class_reg f.revisionId f.classCode
  refine ⟨rfl, b1, b2, rfl, ?_, ?_, ?_, (fun g hg => nomatch hg), rfl⟩
  · simp only [common, ne_eq]
    cases hm : f.multifunction with
    | true => rw [decide_eq_true]; intro hz; rw [a2.1 hz] at hm; cases hm
    | false => rw [decide_eq_false]; exact fun hz => hz (a2.2 hm)
  · rw [hc2]; exact c1
  · rw [hc2]; exact c2

/-! ### BAR sizing does not depend on the bus numbers -/

/-- The result with other registers. -/
def mapRegs {α : Type} (h : τ → τ') : Py (τ × α) → Py (τ' × α)
  | .ok (s, a) => .ok (h s, a)
  | .error x => .error x

section
variable {R : CapOps τ} {R' : CapOps τ'} {h : τ → τ'} {W : Nat → Prop}

theorem readBarsFrom_hom (hr : ∀ s r, W r → R'.read (h s) r = R.read s r) (hw : ∀ s r v m, W r → R'.write (h s) r v m = h (R.write s r v m)) (n : Nat) :
    ∀ (bar : Nat) (s : τ) (d : DevBars), (∀ i, bar ≤ i → i < bar + n → W (4 + i)) →
    readBarsFrom R' n bar (h s) d = mapRegs h (readBarsFrom R n bar s d) := by
  induction n using Nat.strongRecOn with
  | ind n ih =>
    intro bar s d hW
    cases n with
    | zero => rfl
    | succ n =>
      have w0 := hW bar (Nat.le_refl _) (by omega)
      rw [readBarsFrom.eq_def, readBarsFrom.eq_def]
      simp only [hr _ _ w0, hw _ _ _ _ w0]
      have hn := fun s d => ih n (by omega) (bar + 1) s d (fun i h1 h2 => hW i (by omega) (by omega))
      split
      · exact hn _ _
      · split
        · exact hn _ _
        · split
          · cases n with
            | zero => rfl
            | succ n =>
              have w1 := hW (bar + 1) (by omega) (by omega)
              simp only [hr _ _ w1, hw _ _ _ _ w1]
              exact ih n (by omega) (bar + 2) _ _ (fun i h1 h2 => hW i (by omega) (by omega))
          · exact hn _ _

theorem readBars_hom (hr : ∀ s r, W r → R'.read (h s) r = R.read s r) (hw : ∀ s r v m, W r → R'.write (h s) r v m = h (R.write s r v m))
    {cnt rom : Nat} (h1 : W 1) (hrom : W rom) (hW : ∀ i, i < cnt → W (4 + i)) (s : τ) (d : DevBars) :
    readBars R' cnt rom (h s) d = mapRegs h (readBars R cnt rom s d) := by
  unfold readBars
  have hd : disableDecode R' (h s) = h (disableDecode R s) := by
    unfold disableDecode
    simp only [hr _ _ h1, hw _ _ _ _ h1]
    split <;> rfl
  rw [hd, readBarsFrom_hom hr hw cnt 0 _ _ (fun i _ hi => hW i (by omega))]
  cases readBarsFrom R cnt 0 (disableDecode R s) d with
  | error x => rfl
  | ok r =>
    obtain ⟨s2, d2⟩ := r
    simp only [mapRegs, readRomInfo, hr _ _ hrom, hw _ _ _ _ hrom]
    split <;> rfl
end

/-- The bridge with other bus numbers. -/
def Br.renum (p s u : Nat) (f : Br σ) : Br σ := { f with priBus := p, secBus := s, subBus := u }

theorem readBars_renum (ops : CapOps σ) (p s u : Nat) (f : Br σ) (d : DevBars) :
    readBars (Br.regs ops) 2 14 (f.renum p s u) d = mapRegs (Br.renum p s u) (readBars (Br.regs ops) 2 14 f d) := by
  refine readBars_hom (W := fun r => r = 1 ∨ r = 4 ∨ r = 5 ∨ r = 14) ?_ ?_ (.inl rfl) (.inr (.inr (.inr rfl))) (fun i hi => ?_) f d
  · rintro f r (rfl | rfl | rfl | rfl) <;> rfl
  · rintro f r v m (rfl | rfl | rfl | rfl) <;> rfl
  · have : i = 0 ∨ i = 1 := by omega
    rcases this with rfl | rfl
    · exact .inr (.inl rfl)
    · exact .inr (.inr (.inl rfl))

end Pcie
