/-
C75: the settings that the host makes in a function.
-/
import Verif.Lemmas.HostCfg
namespace Pcie
open Spec CapRegs CfgPort
variable {S : Type} {p : CfgPort S} {c : Nat} {a : Attrs}

/-- C75: the fields of device control are the attributes of the capability. -/
theorem C75_attributes (h : HasPcie p c a) : fieldOf p (ctlReg p) 5 3 = a ("max_payload_size", 0) % 8 ∧
    fieldOf p (ctlReg p) 12 3 = a ("max_read_request_size", 0) % 8 ∧ (regOf p (ctlReg p)).testBit 8 = (a ("extended_tag_field_enable", 0) != 0) := by
  have hd : ∀ i, (2, i) ∉ pcieReadDev := by
    intro i h
    have : ∀ x ∈ pcieReadDev, x.1 ≠ 2 := by decide +kernel
    exact this _ h rfl
  have hb := fun i => C51_pcie_read_partial a 2 i (hd i)
  have hm : ∀ x i : Nat, i < 3 → (x % 8).testBit i = x.testBit i := by
    intro x i hi
    rw [show (8 : Nat) = 2 ^ 3 from rfl, Nat.testBit_mod_two_pow]; simp [hi]
  rw [h.ctlReg_eq]
  unfold fieldOf
  rw [h.ctl]
  refine ⟨field_eq _ 5 3 _ (by omega) fun i hi => ?_, field_eq _ 12 3 _ (by omega) fun i hi => ?_, ?_⟩
  · rw [hb, hm _ i hi]
    interval_cases i <;> rfl
  · rw [hb, hm _ i hi]
    interval_cases i <;> rfl
  · rw [hb]; rfl

/-- C75: `get_mps` and `get_readrq` return the settings and change nothing. -/
theorem C75_get (h : HasPcie p c a) :
    (∃ p', p.getMps = .ok (p', fieldOf p (ctlReg p) 5 3) ∧ HasPcie p' c a ∧ OnlyBits p p' fun _ _ => False) ∧
    ∃ p', p.getReadrq = .ok (p', fieldOf p (ctlReg p) 12 3) ∧ HasPcie p' c a ∧ OnlyBits p p' fun _ _ => False := by
  obtain ⟨fn, e1, e2, e3, -⟩ := get_ok h
  rw [h.ctlReg_eq]
  unfold getMps getReadrq
  rw [e1]
  refine ⟨⟨_, ?_, e2, ⟨rfl, fun r i _ => by rw [e3]⟩⟩, ⟨_, ?_, e2, ⟨rfl, fun r i _ => by rw [e3]⟩⟩⟩
  · simp only [ok_bind, shr_and7]; rfl
  · simp only [ok_bind, shr_and7]; rfl

/-- C75: `set_mps` sets the maximum payload size and changes nothing else. Missing: the write clears the error bits of the device status that are set, unless the
maximum payload size is the old one. -/
theorem C75_set_mps_partial (h : HasPcie p c a) {v : Nat} (h5 : v ≤ 5) (hm : v ≤ p.mpss) :
    ∃ p' a', p.setMps v = .ok p' ∧ HasPcie p' c a' ∧ fieldOf p' (ctlReg p) 5 3 = v ∧ OnlyBits p p' (mpsBits p) ∧
      ∀ i, errBit i = true → (regOf p' (ctlReg p)).testBit i = ((regOf p (ctlReg p)).testBit i && decide (fieldOf p (ctlReg p) 5 3 = v)) := by
  obtain ⟨p', a', e1, e2, -, e4, e5, e6⟩ := put_ok h mps_mask (v := v) (by omega) (by omega)
  rw [← h.ctlReg_eq] at e4 e5 e6
  refine ⟨p', a', ?_, e2, e5, e4.mono fun _ _ x => ⟨h.has, x⟩, e6⟩
  rw [setMps_eq p (by omega) (by omega) (by omega)]
  exact e1

/-- C75: the same for `set_readrq` and the maximum read request size. -/
theorem C75_set_readrq_partial (h : HasPcie p c a) {v : Nat} (h5 : v ≤ 5) :
    ∃ p' a', p.setReadrq v = .ok p' ∧ HasPcie p' c a' ∧ fieldOf p' (ctlReg p) 12 3 = v ∧
      OnlyBits p p' (fun reg i => reg = ctlReg p ∧ ((12 ≤ i ∧ i < 15) ∨ errBit i = true)) ∧
      ∀ i, errBit i = true → (regOf p' (ctlReg p)).testBit i = ((regOf p (ctlReg p)).testBit i && decide (fieldOf p (ctlReg p) 12 3 = v)) := by
  obtain ⟨p', a', e1, e2, -, e4, e5, e6⟩ := put_ok h rrq_mask (v := v) (by omega) (by omega)
  rw [h.ctlReg_eq]
  refine ⟨p', a', ?_, e2, e5, e4, e6⟩
  rw [setReadrq_eq p (by omega) (by omega)]
  exact e1

/-- C75: values that the registers do not have, or that are above what the function supports, raise, before anything is sent. -/
theorem C75_raises (p : CfgPort S) (v : Int) : ((v < 0 ∨ 5 < v ∨ (p.mpss : Int) < v) → p.setMps v = .error "ValueError") ∧
    ((v < 0 ∨ 5 < v) → p.setReadrq v = .error "ValueError") := by
  constructor
  · intro h; unfold setMps; rw [if_pos h]
  · intro h; unfold setReadrq; rw [if_pos h]

/-- C75: a function that supports extended tags has them enabled after `configure_extended_tags`, and nothing else has changed. Missing: the error bits of the device
status, as in `C75_set_mps_partial`. -/
theorem C75_tags_partial (h : HasPcie p c a) (hs : p.devcap.testBit 5 = true) :
    ∃ p' a', p.configureTags = .ok p' ∧ HasPcie p' c a' ∧ (regOf p' (ctlReg p)).testBit 8 = true ∧
      OnlyBits p p' (fun reg i => reg = ctlReg p ∧ (i = 8 ∨ errBit i = true)) ∧
      ∀ i, errBit i = true → (regOf p' (ctlReg p)).testBit i = ((regOf p (ctlReg p)).testBit i && (regOf p (ctlReg p)).testBit 8) := by
  obtain ⟨p', a', e1, e2, -, e4, e5, e6⟩ := tags_ok h h.has hs
  rw [h.ctlReg_eq]
  exact ⟨p', a', e1, e2, e5, e4, e6⟩

/-- C75: with a function that does not support them, or has no PCI Express capability, nothing happens. -/
theorem C75_tags_off (h : p.has 0x10 = false ∨ p.devcap.testBit 5 = false) : p.configureTags = .ok p := by
  unfold configureTags
  rcases h with h | h
  · rw [if_pos (by simp [h])]
  · split
    · rfl
    · rw [if_pos ((and_bit0 _ _).2 h)]

/-- C75: a bridge forwards errors (SERR enable of the bridge control) after `configure_serr`, and nothing else has changed; for other functions nothing happens. -/
theorem C75_serr (h : KnownFn p) : (p.headerType = 1 → ∃ p', p.configureSerr = .ok p' ∧ (regOf p' 15).testBit 17 = true ∧ OnlyBits p p' fun reg i => reg = 15 ∧ i = 17) ∧
    (p.headerType ≠ 1 → p.configureSerr = .ok p) := by
  constructor
  · intro ht
    obtain ⟨q, f, hb⟩ := h.hdr ht
    obtain ⟨p', e1, e2, e3, -⟩ := serr_ok p h.dev hb ht
    exact ⟨p', e1, e3, e2⟩
  · intro ht
    unfold configureSerr
    rw [if_pos ht]

/-- C75: what the host records about a function in `setup`. -/
theorem C75_setup (h : HasPcie p c a) : ∃ p', p.setupPcie = .ok p' ∧ HasPcie p' c a ∧ p'.ptype = a ("pcie_device_type", 0) % 16 ∧
    p'.mpss = a ("max_payload_size_supported", 0) % 8 ∧ p'.devcap.testBit 5 = (a ("extended_tag_supported", 0) != 0) ∧ ∀ reg, regOf p' reg = regOf p reg := by
  obtain ⟨fn, e1, e2, e3⟩ := IrqPort.io_readWord h.found h.dev h.noShare h.own_lt (by omega)
  have h1 := h.same e2 e3
  obtain ⟨fn', f1, f2, f3⟩ := h1.rd (k := 1) (by omega) (by omega)
  have f1' : (p.io 0x10).readDword fn 4 = .ok (fn', pcie.read a 1) := f1
  have hd0 : ∀ i, 20 ≤ i → (0, i) ∉ pcieReadDev := by
    intro i hi h
    have : ∀ x ∈ pcieReadDev, x.1 = 0 → x.2 < 20 := by decide +kernel
    have := this _ h rfl
    simp only at this
    omega
  have hd1 : ∀ i, (1, i) ∉ pcieReadDev := by
    intro i h
    have : ∀ x ∈ pcieReadDev, x.1 ≠ 1 := by decide +kernel
    exact this _ h rfl
  have hb := fun i => C51_pcie_read_partial a 1 i (hd1 i)
  have hm : ∀ w x i : Nat, i < w → (x % 2 ^ w).testBit i = x.testBit i := by
    intro w x i hi
    rw [Nat.testBit_mod_two_pow]; simp [hi]
  refine ⟨{ p with fn := fn', capsReg := pcie.read a 0 >>> 16, devcap := pcie.read a 1, mpss := pcie.read a 1 &&& 7 }, ?_, ?_, ?_, ?_, ?_, ?_⟩
  · unfold setupPcie
    rw [if_neg (by simp [h.has]), e1, h.own]
    simp only [ok_bind, f1']
    rfl
  · exact ⟨f3.dev, f3.noShare, f3.found, f3.regs⟩
  · unfold ptype
    show pcie.read a 0 >>> 16 >>> 4 &&& 0xf = _
    rw [show (0xf : Nat) = 2 ^ 4 - 1 from rfl, Nat.and_two_pow_sub_one_eq_mod, ← Nat.shiftRight_add, Nat.shiftRight_eq_div_pow]
    refine field_eq _ 20 4 _ (by omega) fun i hi => ?_
    rw [C51_pcie_read_partial a 0 _ (hd0 _ (by omega)), show (16 : Nat) = 2 ^ 4 from rfl, hm 4 _ i hi]
    interval_cases i <;> rfl
  · show pcie.read a 1 &&& 7 = _
    rw [show (7 : Nat) = 2 ^ 3 - 1 from rfl, Nat.and_two_pow_sub_one_eq_mod, ← Nat.div_one (pcie.read a 1), show (1 : Nat) = 2 ^ 0 from rfl]
    refine field_eq _ 0 3 _ (by omega) fun i hi => ?_
    rw [Nat.zero_add]
    show (pcie.read a 1).testBit i = _
    rw [hb, show (8 : Nat) = 2 ^ 3 from rfl, hm 3 _ i hi]
    interval_cases i <;> rfl
  · show (pcie.read a 1).testBit 5 = _
    rw [hb]; rfl
  · intro r
    show (Fn.ops (CapSpace.ops p.beh p.behx)).read fn'.regs r = _
    rw [f2]
    show (Fn.ops (CapSpace.ops p.beh p.behx)).read fn.regs r = _
    rw [e2]; rfl

/-- What has become of the bridge above the function. -/
def BridgeOnly (bridge bridge' : Option (CfgPort S)) : Prop :=
  match bridge, bridge' with
  | none, none => True
  | some b, some b' => KnownFn b' ∧ OnlyBits b b' (mpsBits b)
  | _, _ => False

/-- C75: `configure_mps`, performed as configuration requests, has exactly the effect on the maximum payload sizes of the function and of the bridge above it that the
model of C37 describes, and raises the same exceptions. Missing: the error bits of the device status. -/
theorem C75_mps_partial (host : Nat) (bridge : Option (CfgPort S)) (hp : KnownFn p) (hb : ∀ b, bridge = some b → KnownFn b) :
    (∃ e, CfgPort.configureMps host bridge p = .error e ∧ Pcie.configureMps host (bridge.map mpsOf) (mpsOf p) = .error e) ∨
    ∃ bridge' p', CfgPort.configureMps host bridge p = .ok (bridge', p') ∧
      Pcie.configureMps host (bridge.map mpsOf) (mpsOf p) = .ok (bridge'.map mpsOf, mpsOf p') ∧ KnownFn p' ∧ OnlyBits p p' (mpsBits p) ∧ BridgeOnly bridge bridge' := by
  have hself : BridgeOnly bridge bridge := by
    cases bridge with
    | none => trivial
    | some b => exact ⟨hb b rfl, OnlyBits.refl _ _⟩
  have hpt : p.ptype = (mpsOf p).ptype := by
    unfold ptype mpsOf
    rw [show (0xf : Nat) = 2 ^ 4 - 1 from rfl, Nat.and_two_pow_sub_one_eq_mod, Nat.shiftRight_eq_div_pow]
  have hpp : (mpsOf p).pcie = p.has 0x10 := rfl
  unfold CfgPort.configureMps Pcie.configureMps
  rw [hpp, hpt]
  by_cases h1 : p.has 0x10 = true
  · simp only [h1, not_true_eq_false, if_false]
    by_cases h9 : (mpsOf p).ptype = 9
    · simp only [if_pos h9]
      rcases setMps_view hp h1 p.mpss with ⟨e1, e2⟩ | ⟨p', e1, e2, e3, e4⟩
      · left
        refine ⟨"ValueError", by rw [e1]; rfl, ?_⟩
        rw [show (mpsOf p).mpss = p.mpss from rfl, e2]
      · right
        refine ⟨bridge, p', by rw [e1]; rfl, ?_, e3, e4, hself⟩
        rw [show (mpsOf p).mpss = p.mpss from rfl, e2]
    · simp only [if_neg h9]
      by_cases h4 : (mpsOf p).ptype = 4
      · simp only [if_pos h4]
        cases bridge with
        | some b => exact .inl ⟨_, rfl, rfl⟩
        | none =>
          rcases setMps_view hp h1 host with ⟨e1, e2⟩ | ⟨p', e1, e2, e3, e4⟩
          · left
            refine ⟨"ValueError", by simp only [e1]; rfl, ?_⟩
            simp only [Option.map_none, e2]
          · right
            refine ⟨none, p', by simp only [e1]; rfl, ?_, e3, e4, hself⟩
            simp only [Option.map_none, e2]
      · simp only [if_neg h4]
        cases bridge with
        | none => exact .inr ⟨none, p, rfl, rfl, hp, OnlyBits.refl _ _, hself⟩
        | some b =>
          have hbk := hb b rfl
          have hbpt : b.ptype = (mpsOf b).ptype := by
            unfold ptype mpsOf
            rw [show (0xf : Nat) = 2 ^ 4 - 1 from rfl, Nat.and_two_pow_sub_one_eq_mod, Nat.shiftRight_eq_div_pow]
          simp only [Option.map_some, show (mpsOf b).pcie = b.has 0x10 from rfl]
          by_cases h1b : b.has 0x10 = true
          · simp only [h1b, not_true_eq_false, if_false]
            obtain ⟨p1, g1, g2, g3, g4⟩ := getMps_view hp h1
            obtain ⟨b1, k1, k2, k3, k4⟩ := getMps_view hbk h1b
            obtain ⟨s1, s2, s3, s4, s5, s6⟩ := same_host g4.host
            obtain ⟨t1, t2, t3, t4, t5, t6⟩ := same_host k4.host
            have hmb : ∀ r i, mpsBits p1 r i → mpsBits p r i := by intro r i h; unfold mpsBits at h ⊢; rwa [s6, s1] at h
            have hmb' : ∀ r i, mpsBits b1 r i → mpsBits b r i := by intro r i h; unfold mpsBits at h ⊢; rwa [t6, t1] at h
            have ht1 : b1.ptype = (mpsOf b).ptype := by rw [← hbpt]; unfold ptype; rw [t4]
            simp only [g1, k1, ok_bind]
            by_cases heq : (mpsOf p).mps = (mpsOf b).mps
            · simp only [if_pos heq]
              exact .inr ⟨some b1, p1, rfl, by rw [Option.map_some, g2, k2], g3, g4.mono (fun _ _ h => h.elim), k3, k4.mono (fun _ _ h => h.elim)⟩
            · simp only [if_neg heq]
              rw [show p1.mpss = (mpsOf p).mpss from s2, ht1]
              by_cases hc : (mpsOf p).mpss < (mpsOf b).mps ∧ (mpsOf b).ptype = 4
              · simp only [if_pos hc]
                have hb1 : b1.mpss = (mpsOf b).mpss := t2
                rw [hb1]
                rcases setMps_view k3 (t1.trans h1b) (min (mpsOf p).mpss (mpsOf b).mpss) with ⟨e1, e2⟩ | ⟨b2, e1, e2, e3, e4⟩
                · left
                  rw [k2] at e2
                  refine ⟨"ValueError", by simp only [e1]; rfl, by simp only [e2]⟩
                · rw [k2] at e2
                  obtain ⟨u1, u2, u3, u4, u5, u6⟩ := same_host e4.host
                  obtain ⟨b3, l1, l2, l3, l4⟩ := getMps_view e3 (u1.trans (t1.trans h1b))
                  have hfin : OnlyBits b b3 (mpsBits b) := ((k4.trans e4).trans l4).mono (fun r i h => h.elim (fun h => h.elim (fun h => h.elim) (hmb' r i)) (fun h => h.elim))
                  simp only [e1, e2, ok_bind, l1]
                  rcases setMps_view g3 (s1.trans h1) (min (mpsOf b2).mps (mpsOf p).mpss) with ⟨f1, f2⟩ | ⟨p2, f1, f2, f3, f4⟩
                  · left
                    rw [g2] at f2
                    refine ⟨"ValueError", by simp only [f1]; rfl, by simp only [f2]⟩
                  · right
                    rw [g2] at f2
                    refine ⟨some b3, p2, by simp only [f1]; rfl, by simp only [f2, Option.map_some, l2], f3,
                      (g4.trans f4).mono (fun r i h => h.elim (fun h => h.elim) (hmb r i)), l3, hfin⟩
              · simp only [if_neg hc]
                rcases setMps_view g3 (s1.trans h1) (min (mpsOf b).mps (mpsOf p).mpss) with ⟨f1, f2⟩ | ⟨p2, f1, f2, f3, f4⟩
                · left
                  rw [g2] at f2
                  refine ⟨"ValueError", by simp only [f1]; rfl, by simp only [f2]⟩
                · right
                  rw [g2] at f2
                  refine ⟨some b1, p2, by simp only [f1]; rfl, by simp only [f2, Option.map_some, k2], f3,
                    (g4.trans f4).mono (fun r i h => h.elim (fun h => h.elim) (hmb r i)), k3, k4.mono (fun _ _ h => h.elim)⟩
          · simp only [if_pos h1b]
            exact .inr ⟨some b, p, rfl, rfl, hp, OnlyBits.refl _ _, hself⟩
  · simp only [if_pos h1]
    exact .inr ⟨bridge, p, rfl, rfl, hp, OnlyBits.refl _ _, hself⟩

/-- C75: `configure_device` sets the maximum payload size as `configure_mps` does, enables extended tags if the function supports them, enables SERR if it is a bridge,
and changes nothing else. Missing: the error bits of the device status. -/
theorem C75_device_partial (host : Nat) (bridge : Option (CfgPort S)) (hp : KnownFn p) (hb : ∀ b, bridge = some b → KnownFn b) :
    (∃ e, CfgPort.configureDevice host bridge p = .error e ∧ Pcie.configureMps host (bridge.map mpsOf) (mpsOf p) = .error e) ∨
    ∃ bridge' p', CfgPort.configureDevice host bridge p = .ok (bridge', p') ∧
      Pcie.configureMps host (bridge.map mpsOf) (mpsOf p) = .ok (bridge'.map mpsOf, mpsOf p') ∧ KnownFn p' ∧ BridgeOnly bridge bridge' ∧
      (p.has 0x10 = true → (regOf p' (ctlReg p)).testBit 8 = ((regOf p (ctlReg p)).testBit 8 || p.devcap.testBit 5)) ∧
      (p.headerType = 1 → (regOf p' 15).testBit 17 = true) ∧
      OnlyBits p p' (fun reg i => (p.has 0x10 = true ∧ reg = ctlReg p ∧ ((5 ≤ i ∧ i < 8) ∨ i = 8 ∨ errBit i = true)) ∨
        (p.headerType = 1 ∧ reg = 15 ∧ i = 17)) := by
  rcases C75_mps_partial host bridge hp hb with ⟨e, e1, e2⟩ | ⟨bridge', p1, e1, e2, e3, e4, e5⟩
  · left
    refine ⟨e, ?_, e2⟩
    unfold configureDevice
    rw [e1]; rfl
  · right
    have h1 := same_host e4.host
    have h8 : errBit 8 = false := by decide +kernel
    -- tags
    obtain ⟨p2, f1, f2, f3, f4⟩ : ∃ p2, p1.configureTags = .ok p2 ∧ KnownFn p2 ∧
        OnlyBits p1 p2 (fun reg i => p.has 0x10 = true ∧ reg = ctlReg p ∧ (i = 8 ∨ errBit i = true)) ∧
        (p.has 0x10 = true → (regOf p2 (ctlReg p)).testBit 8 = ((regOf p (ctlReg p)).testBit 8 || p.devcap.testBit 5)) := by
      have hsame : (regOf p1 (ctlReg p)).testBit 8 = (regOf p (ctlReg p)).testBit 8 := by
        refine e4.regs _ 8 ?_
        rintro ⟨-, -, h | h⟩
        · omega
        · rw [h8] at h; cases h
      by_cases hx : p.has 0x10 = true ∧ p.devcap.testBit 5 = true
      · obtain ⟨c, a, hpc⟩ := e3.pcie (h1.1.trans hx.1)
        obtain ⟨p2, a', g1, g2, g3, g4, g5, g6⟩ := tags_ok hpc hpc.has (by rw [h1.2.2.1]; exact hx.2)
        rw [← hpc.ctlReg_eq, h1.2.2.2.2.2] at g4 g5
        exact ⟨p2, g1, known_of e3 hpc g2 g4.host g3.2, g4.mono fun _ _ h => ⟨hx.1, h⟩, fun _ => by rw [g5, hx.2]; simp⟩
      · refine ⟨p1, C75_tags_off ?_, e3, OnlyBits.refl _ _, fun h => ?_⟩
        · rw [h1.1, h1.2.2.1]
          by_cases h : p.has 0x10 = true
          · right
            cases hd : p.devcap.testBit 5 with
            | false => rfl
            | true => exact absurd ⟨h, hd⟩ hx
          · left; simpa using h
        · rw [hsame]
          cases hd : p.devcap.testBit 5 with
          | false => simp
          | true => exact absurd ⟨h, hd⟩ hx
    have h12 := e4.trans f3
    have h2 := same_host h12.host
    -- SERR
    obtain ⟨p3, k1, k2, k3, k4⟩ : ∃ p3, p2.configureSerr = .ok p3 ∧ KnownFn p3 ∧ OnlyBits p2 p3 (fun reg i => p.headerType = 1 ∧ reg = 15 ∧ i = 17) ∧
        (p.headerType = 1 → (regOf p3 15).testBit 17 = true) := by
      by_cases ht : p.headerType = 1
      · have ht2 : p2.headerType = 1 := h2.2.2.2.2.1.trans ht
        obtain ⟨q, f, hbr⟩ := f2.hdr ht2
        obtain ⟨p3, g1, g2, g3, g4, g5, g6⟩ := serr_ok p2 f2.dev hbr ht2
        exact ⟨p3, g1, known_serr f2 g2.host g4 g5 ⟨q, g6⟩, g2.mono fun _ _ h => ⟨ht, h⟩, fun _ => g3⟩
      · refine ⟨p2, ?_, f2, OnlyBits.refl _ _, fun h => absurd h ht⟩
        exact (C75_serr f2).2 (fun h => ht (h2.2.2.2.2.1.symm.trans h))
    have h13 := h12.trans k3
    have hne := known_ctl hp
    have hctl : ∀ i, (regOf p3 (ctlReg p)).testBit i = (regOf p2 (ctlReg p)).testBit i := fun i => k3.regs _ i fun h => hne h.2.1
    refine ⟨bridge', p3, ?_, ?_, k2, e5, ?_, k4, h13.mono ?_⟩
    · unfold configureDevice
      rw [e1]
      simp only [ok_bind, f1, k1]
      rfl
    · have hf : fieldOf p3 (ctlReg p) 5 3 = fieldOf p1 (ctlReg p) 5 3 := by
        apply field_of_bits
        intro i hi1 hi2
        rw [hctl]
        refine f3.regs _ i ?_
        rintro ⟨-, -, h | h⟩
        · omega
        · have := err_ge h; omega
      rw [e2, mpsOf_same e4.host, mpsOf_same h13.host, hf]
    · intro h
      rw [hctl]; exact f4 h
    · rintro r i ((⟨a1, a2, a3 | a3⟩ | ⟨a1, a2, a3⟩) | h)
      · exact .inl ⟨a1, a2, .inl a3⟩
      · exact .inl ⟨a1, a2, .inr (.inr a3)⟩
      · exact .inl ⟨a1, a2, .inr a3⟩
      · exact .inr h

/-! ### The hypotheses can be met -/

/-- Capability 1 is the PCI Express capability. -/
def exCfgObjs (k : Nat) : CapObj := if k = 0 then { capId := 1, length := 2 } else { capId := 0x10, length := 15 }
def exCfgCalls : List CapOp := [.register 0 none, .register 1 none]
def exCfgDone : FnCaps := exCfgCalls.foldl FnCaps.run { caps := { objs := exCfgObjs } }
def exCfgBeh (_ : Nat) : CapOps Attrs := ⟨pcie.read, pcie.write⟩

/-- An endpoint that supports payloads of 512 bytes and extended tags; it has detected a correctable error. -/
def exCfgEp : Attrs := fun x => if x = ("max_payload_size_supported", 0) then 2 else if x = ("extended_tag_supported", 0) then 1
  else if x = ("correctable_error_detected", 0) then 1 else if x = ("max_read_request_size", 0) then 2 else 0
/-- A root port, with payloads of 1024 bytes. -/
def exCfgRoot : Attrs := fun x => if x = ("max_payload_size_supported", 0) then 5 else if x = ("pcie_device_type", 0) then 4
  else if x = ("max_payload_size", 0) then 3 else 0

def exCfgSpace (a : Attrs) : CapSpace Attrs := ⟨exCfgDone.caps, { objs := exCfgObjs }, fun k => if k = 1 then a else fun _ => 0, fun _ _ => 0⟩
def exCfgEpPort : CfgPort Attrs :=
  { fn := ⟨⟨0, 0, 0⟩, .ep { capPtr := exCfgDone.ptr, caps := exCfgSpace exCfgEp }⟩, beh := exCfgBeh, behx := exCfgBeh, tag := fun _ => 3, dev := ⟨4, 0, 0⟩,
    caps := [(1, 0x40), (0x10, 0x48)], headerType := 0, capsReg := 2, devcap := 0x22, mpss := 2 }
def exCfgRootPort : CfgPort Attrs :=
  { fn := ⟨⟨0, 1, 0⟩, .br true { capPtr := exCfgDone.ptr, caps := exCfgSpace exCfgRoot }⟩, beh := exCfgBeh, behx := exCfgBeh, tag := fun _ => 3, dev := ⟨0, 1, 0⟩,
    caps := [(1, 0x40), (0x10, 0x48)], headerType := 1, capsReg := 0x42, devcap := 5, mpss := 5 }

theorem exCfg_offs : exCfgDone.caps.list = [0, 1] ∧ exCfgDone.caps.off 0 = 0x10 ∧ exCfgDone.caps.off 1 = 0x12 ∧
    exCfgDone.caps.len 0 = 2 ∧ exCfgDone.caps.len 1 = 15 ∧ (exCfgDone.caps.objs 1).capId = 0x10 := by
  decide +kernel

theorem exCfg_noShare : NoShare exCfgDone.caps := by
  obtain ⟨h, o0, o1, l0, l1, i1⟩ := exCfg_offs
  rintro a b r ⟨ha, ha1, ha2⟩ ⟨hb, hb1, hb2⟩
  rw [h] at ha hb
  simp at ha hb
  rcases ha with rfl | rfl <;> rcases hb with rfl | rfl <;> omega

theorem exCfg_lies : Lies exCfgDone.caps 1 16 64 := by
  obtain ⟨h, o0, o1, l0, l1, i1⟩ := exCfg_offs
  exact ⟨by rw [h]; simp, by omega, by omega⟩

theorem exCfgEp_has : HasPcie exCfgEpPort 1 exCfgEp := by
  obtain ⟨h, o0, o1, l0, l1, i1⟩ := exCfg_offs
  refine ⟨⟨rfl, rfl⟩, exCfg_noShare, ⟨?_, i1, exCfg_lies, ?_⟩, id, ⟨fun _ _ => rfl, fun _ _ _ _ => rfl⟩, rfl⟩
  · show _ = some (4 * exCfgDone.caps.off 1); rw [o1]; rfl
  · show 3 ≤ exCfgDone.caps.len 1; omega

theorem exCfgRoot_has : HasPcie exCfgRootPort 1 exCfgRoot := by
  obtain ⟨h, o0, o1, l0, l1, i1⟩ := exCfg_offs
  refine ⟨⟨rfl, rfl⟩, exCfg_noShare, ⟨?_, i1, exCfg_lies, ?_⟩, id, ⟨fun _ _ => rfl, fun _ _ _ _ => rfl⟩, rfl⟩
  · show _ = some (4 * exCfgDone.caps.off 1); rw [o1]; rfl
  · show 3 ≤ exCfgDone.caps.len 1; omega

theorem exCfg_known : KnownFn exCfgEpPort ∧ KnownFn exCfgRootPort :=
  ⟨⟨⟨rfl, rfl⟩, fun h => (by cases h), fun _ => ⟨1, _, exCfgEp_has⟩⟩, ⟨⟨rfl, rfl⟩, fun _ => ⟨_, _, rfl⟩, fun _ => ⟨1, _, exCfgRoot_has⟩⟩⟩

/-- `setup` records what the ports have. -/
example : (exCfgEpPort.setupPcie.toOption.map fun p => (p.ptype, p.mpss, p.devcap)) = some (0, 2, 0x22) ∧
    (exCfgRootPort.setupPcie.toOption.map fun p => (p.ptype, p.mpss, p.devcap)) = some (4, 5, 5) := by decide +kernel

/-- The endpoint below the root port: the root port is lowered to 512 bytes and the endpoint raised; extended tags are enabled. -/
example : ∃ b' p', CfgPort.configureDevice 3 (some exCfgRootPort) exCfgEpPort = .ok (some b', p') ∧ fieldOf p' (ctlReg exCfgEpPort) 5 3 = 2 ∧ fieldOf b' (ctlReg b') 5 3 = 2 ∧
    (regOf p' (ctlReg exCfgEpPort)).testBit 8 = true ∧ fieldOf p' (ctlReg exCfgEpPort) 12 3 = 2 := by
  rcases C75_device_partial 3 (some exCfgRootPort) exCfg_known.1 (by intro b h; cases h; exact exCfg_known.2) with ⟨e, -, e2⟩ | ⟨b', p', e1, e2, e3, e4, e5, e6, e7⟩
  · have : (Pcie.configureMps 3 ((some exCfgRootPort).map mpsOf) (mpsOf exCfgEpPort)).toOption.isSome = true := by decide +kernel
    rw [e2] at this
    cases this
  · cases b' with
    | none => exact e4.elim
    | some b' =>
      have hh : Pcie.configureMps 3 ((some exCfgRootPort).map mpsOf) (mpsOf exCfgEpPort) =
          .ok (some { mpsOf exCfgRootPort with mps := 2 }, { mpsOf exCfgEpPort with mps := 2 }) := by rfl
      rw [hh] at e2
      injection e2 with e2
      injection e2 with q1 q2
      injection q1 with q1
      have hm := congrArg MFn.mps q1
      have hm' := congrArg MFn.mps q2
      refine ⟨b', p', e1, ?_, hm.symm, ?_, ?_⟩
      · have := (same_host e7.host).2.2.2.2.2
        rw [← this]; exact hm'.symm
      · rw [e5 rfl]; decide +kernel
      · have : fieldOf p' (ctlReg exCfgEpPort) 12 3 = fieldOf exCfgEpPort (ctlReg exCfgEpPort) 12 3 := by
          apply field_of_bits
          intro i h1 h2
          refine e7.regs _ i ?_
          rintro (⟨-, -, h | h | h⟩ | ⟨h, -, -⟩)
          · omega
          · omega
          · have := err_ge h; omega
          · cases h
        rw [this]; decide +kernel

example : ∃ p', exCfgRootPort.configureSerr = .ok p' ∧ (regOf p' 15).testBit 17 = true ∧ (regOf exCfgRootPort 15).testBit 17 = false := by
  obtain ⟨p', e1, e2, -⟩ := (C75_serr exCfg_known.2).1 rfl
  exact ⟨p', e1, e2, by decide +kernel⟩

/-- The setting of one field loses an error that the function has recorded: the correctable error detected by the endpoint is gone from the device status
after `set_mps`, `set_readrq` or `configure_extended_tags`, which the host uses when it finds the function. -/
theorem C75_status_violated : ∃ (p : CfgPort Attrs) (c : Nat) (a : Attrs), HasPcie p c a ∧ (regOf p (ctlReg p)).testBit 16 = true ∧ a ("correctable_error_detected", 0) = 1 ∧
    (∃ p', p.setMps 1 = .ok p' ∧ (regOf p' (ctlReg p)).testBit 16 = false) ∧
    (∃ p', p.setReadrq 5 = .ok p' ∧ (regOf p' (ctlReg p)).testBit 16 = false) ∧
    (∃ p', p.configureTags = .ok p' ∧ (regOf p' (ctlReg p)).testBit 16 = false) := by
  have h16 : errBit 16 = true := by decide +kernel
  refine ⟨exCfgEpPort, 1, exCfgEp, exCfgEp_has, by decide +kernel, by decide, ?_, ?_, ?_⟩
  · obtain ⟨p', a', e1, -, -, -, e5⟩ := C75_set_mps_partial exCfgEp_has (v := 1) (by decide) (by decide)
    exact ⟨p', e1, by rw [e5 16 h16]; decide +kernel⟩
  · obtain ⟨p', a', e1, -, -, -, e5⟩ := C75_set_readrq_partial exCfgEp_has (v := 5) (by decide)
    exact ⟨p', e1, by rw [e5 16 h16]; decide +kernel⟩
  · obtain ⟨p', a', e1, -, -, -, e5⟩ := C75_tags_partial exCfgEp_has (by decide)
    exact ⟨p', e1, by rw [e5 16 h16]; decide +kernel⟩

end Pcie
