import Verif.Lemmas.CapSpace
namespace Pcie
open Spec

namespace Cfg

/-- `C17_read`, with the numbers of the function. -/
theorem fn_read {σ} (ops : CapOps σ) (f : Fn σ) (tag : Tlp → Nat) (dev : PcieId) (addr length : Nat)
    (hdev : dev.device = f.id.device ∧ dev.function = f.id.function)
    (hreg : ∀ a, addr ≤ a → a < addr + length → ops.read f.regs (a / 4) < 2 ^ 32) :
    ∃ f' bytes, Cfg.read (Cfg.Fn.op ops tag) f dev addr length = .ok (f', bytes) ∧
      Holds (cfgBytes ops f.regs) addr length bytes ∧ f'.regs = f.regs ∧ dev.device = f'.id.device ∧ dev.function = f'.id.function := by
  obtain ⟨w', h, hi⟩ := Cfg.read_ok (Cfg.Fn.op ops tag) (fun w => w.regs = f.regs ∧ w.id.device = f.id.device ∧ w.id.function = f.id.function)
    (cfgBytes ops f.regs) dev length addr f ⟨rfl, rfl, rfl⟩ (by
      rintro w a L ⟨w1, w2, w3⟩ h0 h1 h2 h3
      obtain ⟨hok, f1, f2, -⟩ := Cfg.readTlp_ok dev a L h0 h3
      generalize Cfg.readTlp dev a L = t at *
      obtain ⟨c, e1, e2, e3, e4, e5⟩ := Cfg.op_read ops w tag t hok.type (by rw [f2, w2, w3]; exact hdev) hok.aligned
        (by rw [f1, w1, Nat.mul_div_cancel _ (by omega)]; exact hreg a h1 (by omega))
      rw [e1]
      refine ⟨⟨w1, w2, w3⟩, c.data, ?_, e4, ?_⟩
      · unfold Cfg.dword
        simp only [e2, e3]
        rw [if_neg (by simp), if_neg (by simp), if_neg (by simp)]
      · intro i hi
        rw [e5 _ (by omega), w1, f1]
        congr 2; omega)
  exact ⟨w', _, h, Mem.read_holds _ _ _, hi.1, by rw [hi.2.1]; exact hdev.1, by rw [hi.2.2]; exact hdev.2⟩

end Cfg

variable {S : Type} (beh behx : Nat → CapOps S)

/-- The state of a function of which the host has the right number. -/
def AtDev {σ} (dev : PcieId) (x : σ) (f : Cfg.Fn σ) : Prop := f.regs = x ∧ dev.device = f.id.device ∧ dev.function = f.id.function

theorem read_at {x : Fn (CapSpace S)} {ops : CapOps (Fn (CapSpace S))} (tag : Tlp → Nat) (dev : PcieId) (f : Cfg.Fn (Fn (CapSpace S))) (hf : AtDev dev x f)
    (addr n : Nat) (hreg : ∀ a, addr ≤ a → a < addr + n → ops.read x (a / 4) < 2 ^ 32) :
    ∃ f' bytes, Cfg.read (Cfg.Fn.op ops tag) f dev addr n = .ok (f', bytes) ∧ Holds (cfgBytes ops x) addr n bytes ∧ AtDev dev x f' := by
  obtain ⟨rfl, h1, h2⟩ := hf
  obtain ⟨f', b, e1, e2, e3, e4, e5⟩ := Cfg.fn_read ops f tag dev addr n ⟨h1, h2⟩ hreg
  exact ⟨f', b, e1, e2, e3, e4, e5⟩

theorem shown_lt (l : CapList) (c : Nat) (own : Nat → Nat) (k : Nat) (h : own k < 2 ^ 32) : shown l c own k < 2 ^ 32 := by
  unfold shown
  split <;> omega
theorem shownExt_lt (l : CapList) (c : Nat) (own : Nat → Nat) (k : Nat) (h : own k < 2 ^ 32) : shownExt l c own k < 2 ^ 32 := by
  unfold shownExt
  split <;> omega

theorem byte0 (v : Nat) : (UInt8.ofNat v).toNat = v % 256 := by simp
theorem and_fc (v : Nat) : v % 256 &&& 0xfc = v % 256 / 4 * 4 := by
  have h : v % 256 < 256 := Nat.mod_lt _ (by decide)
  generalize v % 256 = w at h
  exact (by decide +kernel : ∀ w < 256, w &&& 0xfc = w / 4 * 4) w h

theorem two_bytes {m : Mem} {a : Nat} {bytes : List UInt8} (h : Holds m a 2 bytes) : bytes = [m a, m (a + 1)] := by
  obtain ⟨h1, h2⟩ := h
  match bytes, h1 with
  | [b0, b1], _ =>
    have e0 := h2 0 (by simp)
    have e1 := h2 1 (by simp)
    simp at e0 e1
    rw [e0, e1]

theorem host_walk_chained {x : Fn (CapSpace S)} (tag : Tlp → Nat) (dev : PcieId) (hs : NoShare x.common.caps.pci)
    (hl : ∀ c, 1 ≤ x.common.caps.pci.len c) (hown : ∀ c, (beh c).read (x.common.caps.st c) 0 < 2 ^ 32)
    (l : List Nat) : ∀ {fuel : Nat} (f : Cfg.Fn (Fn (CapSpace S))), AtDev dev x f → (∀ c ∈ l, c ∈ x.common.caps.pci.list) →
    (∀ c ∈ l, 16 ≤ x.common.caps.pci.off c ∧ x.common.caps.pci.off c < 64) → CapList.Chained x.common.caps.pci l → l.length ≤ fuel →
    ∃ f', HostCaps.walkFrom (Cfg.Fn.op (Fn.ops (CapSpace.ops beh behx)) tag) dev fuel f (CapList.ptrTo x.common.caps.pci l) =
      .ok (f', l.map fun c => ((x.common.caps.pci.objs c).capId % 256, 4 * x.common.caps.pci.off c)) ∧ AtDev dev x f' := by
  induction l with
  | nil =>
    intro fuel f hf _ _ _ _
    refine ⟨f, ?_, hf⟩
    unfold HostCaps.walkFrom; rfl
  | cons a l ih =>
    intro fuel f hf hm ho hch hlen
    obtain ⟨hnx, hch⟩ := CapList.chained_next hch
    have ho' : ∀ c ∈ l, 1 ≤ x.common.caps.pci.off c ∧ x.common.caps.pci.off c < 64 := fun c hc => by have := ho c (by simp [hc]); omega
    obtain ⟨n, hn, hn64⟩ := CapList.ptrTo_lt (s := x.common.caps.pci) (N := 64) (by decide) (l := l) ho'
    have hoa := ho a (by simp)
    have hfind := CapList.find_of_noShare hs (hm a (by simp)) (Nat.le_refl _) (by have := hl a; omega)
    cases fuel with
    | zero => simp at hlen
    | succ fuel =>
      have hrd : (Fn.ops (CapSpace.ops beh behx)).read x (x.common.caps.pci.off a) = shown x.common.caps.pci a ((beh a).read (x.common.caps.st a)) 0 := by
        rw [Fn.read_caps _ _ _ hoa.1 (by omega)]
        show CapSpace.read _ _ _ _ = _
        unfold CapSpace.read CapList.read
        rw [if_pos hoa.2, CapSpace.fill_find, hfind]
        simp only [CapSpace.fill_off, Nat.sub_self, if_true]
        unfold shown
        rw [if_pos rfl]
        exact CapSpace.head_arith _ _ _
      obtain ⟨f', bytes, e1, e2, e3⟩ := read_at (ops := Fn.ops (CapSpace.ops beh behx)) tag dev f hf (x.common.caps.pci.off a * 4) 2 (by
        intro b h1 h2
        rw [show b / 4 = x.common.caps.pci.off a by omega, hrd]
        exact shown_lt _ _ _ _ (hown a))
      have hb := two_bytes e2
      obtain ⟨f2, i1, i2⟩ := ih (fuel := fuel) f' e3 (fun c hc => hm c (by simp [hc])) (fun c hc => ho c (by simp [hc])) hch (by simpa using hlen)
      have hne : ¬ CapList.ptrTo x.common.caps.pci (a :: l) = 0 := by show ¬ _ * 4 = 0; omega
      unfold HostCaps.walkFrom
      rw [if_neg hne]
      rw [show CapList.ptrTo x.common.caps.pci (a :: l) = x.common.caps.pci.off a * 4 from rfl]
      simp only [e1, hb]
      have hb0 : (cfgBytes (Fn.ops (CapSpace.ops beh behx)) x (x.common.caps.pci.off a * 4)).toNat = (x.common.caps.pci.objs a).capId % 256 := by
        unfold cfgBytes
        rw [byte0, show x.common.caps.pci.off a * 4 / 4 = x.common.caps.pci.off a by omega, show x.common.caps.pci.off a * 4 % 4 = 0 by omega, hrd]
        unfold shown
        rw [if_pos rfl]; omega
      have hb1 : (cfgBytes (Fn.ops (CapSpace.ops beh behx)) x (x.common.caps.pci.off a * 4 + 1)).toNat &&& 0xfc = CapList.ptrTo x.common.caps.pci l := by
        unfold cfgBytes
        rw [byte0, show (x.common.caps.pci.off a * 4 + 1) / 4 = x.common.caps.pci.off a by omega, show (x.common.caps.pci.off a * 4 + 1) % 4 = 1 by omega, hrd, and_fc, hn]
        unfold shown
        rw [if_pos rfl, hnx, hn]; omega
      rw [hb0, hb1, i1]
      refine ⟨f2, ?_, i2⟩
      rw [List.map_cons, Nat.mul_comm]

theorem four_bytes {ops : CapOps (Fn (CapSpace S))} {x : Fn (CapSpace S)} {r : Nat} {bytes : List UInt8} (h : Holds (cfgBytes ops x) (4 * r) 4 bytes)
    (hlt : ops.read x r < 2 ^ 32) : Cfg.unpackLE bytes = .ok (ops.read x r) := by
  obtain ⟨h1, h2⟩ := h
  match bytes, h1 with
  | [b0, b1, b2, b3], _ =>
    have e0 := h2 0 (by simp)
    have e1 := h2 1 (by simp)
    have e2 := h2 2 (by simp)
    have e3 := h2 3 (by simp)
    simp [cfgBytes] at e0 e1 e2 e3
    rw [show (4 * r + 1) / 4 = r by omega] at e1
    rw [show (4 * r + 2) / 4 = r by omega] at e2
    rw [show (4 * r + 3) / 4 = r by omega] at e3
    generalize ops.read x r = v at *
    obtain ⟨w, w1, w2⟩ := Cfg.unpackLE_ok [b0, b1, b2, b3] rfl
    have hw : w < 2 ^ 32 := by
      unfold Cfg.unpackLE at w1
      have : w = b0.toNat ||| b1.toNat <<< 8 ||| b2.toNat <<< 16 ||| b3.toNat <<< 24 := by injection w1 with w1; exact w1.symm
      rw [this]
      have l0 := b0.toNat_lt
      have l1 := b1.toNat_lt
      have l2 := b2.toNat_lt
      have l3 := b3.toNat_lt
      refine Nat.or_lt_two_pow (Nat.or_lt_two_pow (Nat.or_lt_two_pow (by omega) ?_) ?_) ?_ <;> rw [Nat.shiftLeft_eq] <;> omega
    rw [w1]
    congr 1
    apply Nat.eq_of_testBit_eq
    intro i
    by_cases hi : i < 32
    · have key : ∀ b, [b0, b1, b2, b3][i / 8]? = some b → b = UInt8.ofNat (v / 256 ^ (i / 8)) → w.testBit i = v.testBit i := by
        intro b hb hb'
        rw [w2 i hi b hb, hb', byte0, show (256 : Nat) = 2 ^ 8 by decide, ← Nat.pow_mul, Nat.testBit_mod_two_pow, Nat.testBit_div_two_pow]
        simp only [show i % 8 < 8 by omega, decide_true, Bool.true_and]
        congr 1; omega
      have h4 : i / 8 = 0 ∨ i / 8 = 1 ∨ i / 8 = 2 ∨ i / 8 = 3 := by omega
      rcases h4 with h4 | h4 | h4 | h4 <;> rw [h4] at key
      · exact key b0 rfl (by simpa using e0)
      · exact key b1 rfl (by simpa using e1)
      · exact key b2 rfl (by simpa using e2)
      · exact key b3 rfl (by simpa using e3)
    · rw [Nat.testBit_lt_two_pow (Nat.lt_of_lt_of_le hw (Nat.pow_le_pow_right (by decide) (by omega))),
        Nat.testBit_lt_two_pow (Nat.lt_of_lt_of_le hlt (Nat.pow_le_pow_right (by decide) (by omega)))]

theorem host_walkExt_chained {x : Fn (CapSpace S)} (tag : Tlp → Nat) (dev : PcieId) (hs : NoShare x.common.caps.ext)
    (hl : ∀ c, 1 ≤ x.common.caps.ext.len c) (hown : ∀ c, (behx c).read (x.common.caps.stx c) 0 < 2 ^ 32)
    (l : List Nat) : ∀ {fuel : Nat} (f : Cfg.Fn (Fn (CapSpace S))), AtDev dev x f → (∀ c ∈ l, c ∈ x.common.caps.ext.list) →
    (∀ c ∈ l, 64 ≤ x.common.caps.ext.off c ∧ x.common.caps.ext.off c < 1024) → (∀ c ∈ l, (x.common.caps.ext.objs c).capId % 2 ^ 16 ≠ 0) →
    CapList.Chained x.common.caps.ext l → l.length ≤ fuel →
    ∃ f', HostCaps.walkExtFrom (Cfg.Fn.op (Fn.ops (CapSpace.ops beh behx)) tag) dev fuel f (CapList.ptrTo x.common.caps.ext l) =
      .ok (f', l.map fun c => ((x.common.caps.ext.objs c).capId % 2 ^ 16, 4 * x.common.caps.ext.off c)) ∧ AtDev dev x f' := by
  induction l with
  | nil =>
    intro fuel f hf _ _ _ _ _
    refine ⟨f, ?_, hf⟩
    unfold HostCaps.walkExtFrom; rfl
  | cons a l ih =>
    intro fuel f hf hm ho hid hch hlen
    obtain ⟨hnx, hch⟩ := CapList.chained_next hch
    have ho' : ∀ c ∈ l, 1 ≤ x.common.caps.ext.off c ∧ x.common.caps.ext.off c < 1024 := fun c hc => by have := ho c (by simp [hc]); omega
    obtain ⟨n, hn, hn64⟩ := CapList.ptrTo_lt (s := x.common.caps.ext) (N := 1024) (by decide) (l := l) ho'
    have hoa := ho a (by simp)
    have hfind := CapList.find_of_noShare hs (hm a (by simp)) (Nat.le_refl _) (by have := hl a; omega)
    cases fuel with
    | zero => simp at hlen
    | succ fuel =>
      have hrd : (Fn.ops (CapSpace.ops beh behx)).read x (x.common.caps.ext.off a) = shownExt x.common.caps.ext a ((behx a).read (x.common.caps.stx a)) 0 := by
        rw [Fn.read_caps _ _ _ (by omega) (by omega)]
        show CapSpace.read _ _ _ _ = _
        unfold CapSpace.read CapList.readExt
        rw [if_neg (by omega), CapSpace.fill_find, hfind]
        simp only [CapSpace.fill_off, Nat.sub_self, if_true]
        unfold shownExt
        rw [if_pos rfl]
        exact CapSpace.headExt_arith _ _ _
      have hlt : (Fn.ops (CapSpace.ops beh behx)).read x (x.common.caps.ext.off a) < 2 ^ 32 := by rw [hrd]; exact shownExt_lt _ _ _ _ (hown a)
      obtain ⟨f', bytes, e1, e2, e3⟩ := read_at (ops := Fn.ops (CapSpace.ops beh behx)) tag dev f hf (4 * x.common.caps.ext.off a) 4 (by
        intro b h1 h2
        rw [show b / 4 = x.common.caps.ext.off a by omega]; exact hlt)
      have hv := four_bytes e2 hlt
      obtain ⟨f2, i1, i2⟩ := ih (fuel := fuel) f' e3 (fun c hc => hm c (by simp [hc])) (fun c hc => ho c (by simp [hc])) (fun c hc => hid c (by simp [hc]))
        hch (by simpa using hlen)
      have hne : ¬ CapList.ptrTo x.common.caps.ext (a :: l) = 0 := by show ¬ _ * 4 = 0; omega
      have hida := hid a (by simp)
      have hb := CapList.ext_bits n (x.common.caps.ext.objs a).ver (x.common.caps.ext.objs a).capId hn64
      rw [CapSpace.headExt_arith] at hb
      have hsh : shownExt x.common.caps.ext a ((behx a).read (x.common.caps.stx a)) 0 =
          n * 4 % 2 ^ 12 * 2 ^ 20 + (x.common.caps.ext.objs a).ver % 2 ^ 4 * 2 ^ 16 + (x.common.caps.ext.objs a).capId % 2 ^ 16 := by
        unfold shownExt; rw [if_pos rfl, hnx, hn]
      unfold HostCaps.walkExtFrom
      rw [if_neg hne, show CapList.ptrTo x.common.caps.ext (a :: l) = 4 * x.common.caps.ext.off a from Nat.mul_comm _ _]
      simp only [e1, hv, hrd, hsh]
      rw [if_neg (by rintro (h | h) <;> omega), hb.1, hb.2.1, ← hn, i1]
      refine ⟨f2, ?_, i2⟩
      rw [List.map_cons, show (x.common.caps.ext.objs a).capId &&& 0xffff = (x.common.caps.ext.objs a).capId % 2 ^ 16 from Nat.and_two_pow_sub_one_eq_mod _ 16]

end Pcie
