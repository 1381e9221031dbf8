import Verif.Lemmas.IntelHost
/-
C70: accesses by the host to user logic behind the Intel hard IP models.
-/
namespace Pcie
open Spec UsCc IntelHost

/-! ### Stratix 10 -/

/-- C70, Stratix 10: a read by the host of a window of any function returns the bytes of the user's memory, in whatever legal way the user splits its completions. -/
theorem C70_read_s10 (p : RxLimits) (s : IntelDev S10Frame) (wss : List (List Window)) (w : Window) (m : Mem) (user : S10Frame → List S10Frame) (c : ReqCfg) (tag : Tlp → Nat)
    (addr length attr tc : Nat) (hb : InWindow s.dev.fns false wss w addr length) (hu : FrameReads S10Carries S10Frame.fromTlp m addr length w.idx user) (hid : c.id.Valid)
    (hbm : c.busMasterEnable = true) (h0 : 0 < length) (ha : attr < 8) (htc : tc < 8) (htag : ∀ t, tag t < 256) :
    ∃ bytes, Region.read c (s.answer S10Frame.ofRx S10Frame.toTlp p user tag) addr length attr tc = .ok bytes ∧ Holds m addr length bytes :=
  read_all s10Codec p s wss w m user c tag addr length attr tc hb hu hid hbm h0 ha htc htag

/-- C70, Stratix 10: the completions that the host gets for a memory read are a legal answer with the bytes of the user's memory, and carry the requester ID, tag, attributes and traffic class
of the request. -/
theorem C70_read_completions_s10 (p : RxLimits) (s : IntelDev S10Frame) (wss : List (List Window)) (w : Window) (m : Mem) (user : S10Frame → List S10Frame) (c : ReqCfg)
    (addr length attr tc a l tg : Nat) (hb : InWindow s.dev.fns false wss w addr length) (hu : FrameReads S10Carries S10Frame.fromTlp m addr length w.idx user) (hid : c.id.Valid)
    (ha : attr < 8) (htc : tc < 8) (htag : tg < 256) (h1 : 0 < l) (h2 : addr ≤ a) (h3 : a + l ≤ addr + length) (h4 : a % 4096 + l ≤ 4096) :
    ∃ rcb mps, LegalCpls m rcb mps a l (s.answerAll S10Frame.ofRx S10Frame.toTlp p user { Region.readTlp c attr tc false a l with tag := tg }) ∧
      ∀ x ∈ s.answerAll S10Frame.ofRx S10Frame.toTlp p user { Region.readTlp c attr tc false a l with tag := tg }, Own { Region.readTlp c attr tc false a l with tag := tg } x :=
  read_lemma s10Codec p s wss w m user c addr length attr tc hb hu hid ha htc tg htag a l h1 h2 h3 h4

/-- C70, Stratix 10: a write by the host is offered to the user as frames, one after the other, that carry its requests and the number of the register; a memory that stores the enabled bytes
of each holds the data afterwards and is otherwise unchanged. -/
theorem C70_write_s10 (p : RxLimits) (s : IntelDev S10Frame) (wss : List (List Window)) (w : Window) (c : ReqCfg) (addr : Nat) (data : List UInt8) (attr tc : Nat)
    (hb : InWindow s.dev.fns false wss w addr data.length) (hid : c.id.Valid) (hbm : c.busMasterEnable = true) (hne : data ≠ []) (ha : attr < 8) (htc : tc < 8) :
    ∃ tlps s' o, Region.write c addr data attr tc = .ok tlps ∧ s.run S10Frame.ofRx p (tlps.map .recv) = some (.ok (s', o)) ∧ Offered S10Carries w.idx tlps (rxOffered o) ∧
      ∀ ms : Nat → Mem, (∀ (i : Nat) (f : S10Frame) (t : Tlp), (rxOffered o)[i]? = some f → f.toTlp = .ok t → EnabledStored (ms i) (ms (i + 1)) t t.address) →
        Replaced (ms 0) (ms (rxOffered o).length) addr data :=
  write_all s10Codec (fun _ _ _ _ h => h.tlp) p s wss w c addr data attr tc hb hid hbm hne ha htc

/-- C70, Stratix 10: an I/O read by the host returns the user's bytes. -/
theorem C70_io_read_s10 (p : RxLimits) (s : IntelDev S10Frame) (wss : List (List Window)) (w : Window) (m : Mem) (user : S10Frame → List S10Frame) (c : ReqCfg) (tag : Tlp → Nat)
    (addr length : Nat) (hb : InWindow s.dev.fns true wss w addr length) (hlo : addr + length ≤ 2 ^ 32) (hu : FrameIoReads S10Carries S10Frame.fromTlp m addr length user) (hid : c.id.Valid)
    (hbm : c.busMasterEnable = true) (h0 : 0 < length) (htag : ∀ t, tag t < 256) :
    ∃ bytes, IoRegion.read c (s.answer S10Frame.ofRx S10Frame.toTlp p user tag) addr length = .ok bytes ∧ Holds m addr length bytes :=
  io_read_all s10Codec p s wss w m user c tag addr length hb hlo hu hid hbm h0 htag

/-- C70, Stratix 10: an I/O write by the host is offered to the user as requests of one dword each, and succeeds if the user confirms them. -/
theorem C70_io_write_s10 (p : RxLimits) (s : IntelDev S10Frame) (wss : List (List Window)) (w : Window) (user : S10Frame → List S10Frame) (c : ReqCfg) (tag : Tlp → Nat) (addr : Nat)
    (data : List UInt8) (hb : InWindow s.dev.fns true wss w addr data.length) (hlo : addr + data.length ≤ 2 ^ 32) (hu : FrameIoWrites S10Carries S10Frame.fromTlp user) (hid : c.id.Valid)
    (hbm : c.busMasterEnable = true) (hne : data ≠ []) (htag : ∀ t, tag t < 256) :
    ∃ reqs s' o, IoRegion.writeReqs c addr data = .ok reqs ∧ s.run S10Frame.ofRx p (reqs.map fun t => .recv { t with tag := tag t }) = some (.ok (s', o)) ∧
      Offered S10Carries 6 (reqs.map fun t => { t with tag := tag t }) (rxOffered o) ∧
      (∀ ms : Nat → Mem, (∀ (i : Nat) (f : S10Frame) (t : Tlp), (rxOffered o)[i]? = some f → f.toTlp = .ok t → EnabledStored (ms i) (ms (i + 1)) t t.address) →
        Replaced (ms 0) (ms (rxOffered o).length) addr data) ∧
      IoRegion.checkAll (reqs.map (s.answer S10Frame.ofRx S10Frame.toTlp p user tag)) = .ok () :=
  io_write_all s10Codec (fun _ _ _ _ h => h.tlp) p s wss w user c tag addr data hb hlo hu hid hbm hne htag

/-! ### P-Tile -/

/-- C70, P-Tile: a read by the host of a window of any function returns the bytes of the user's memory, in whatever legal way the user splits its completions. -/
theorem C70_read_ptile (p : RxLimits) (s : IntelDev PTileFrame) (wss : List (List Window)) (w : Window) (m : Mem) (user : PTileFrame → List PTileFrame) (c : ReqCfg) (tag : Tlp → Nat)
    (addr length attr tc : Nat) (hb : InWindow s.dev.fns false wss w addr length) (hu : FrameReads PTileCarries PTileFrame.fromTlp m addr length w.idx user) (hid : c.id.Valid)
    (hbm : c.busMasterEnable = true) (h0 : 0 < length) (ha : attr < 8) (htc : tc < 8) (htag : ∀ t, tag t < 256) :
    ∃ bytes, Region.read c (s.answer PTileFrame.ofRx PTileFrame.toTlp p user tag) addr length attr tc = .ok bytes ∧ Holds m addr length bytes :=
  read_all ptileCodec p s wss w m user c tag addr length attr tc hb hu hid hbm h0 ha htc htag

/-- C70, P-Tile: the completions that the host gets for a memory read are a legal answer with the bytes of the user's memory, and carry the requester ID, tag, attributes and traffic class
of the request. -/
theorem C70_read_completions_ptile (p : RxLimits) (s : IntelDev PTileFrame) (wss : List (List Window)) (w : Window) (m : Mem) (user : PTileFrame → List PTileFrame) (c : ReqCfg)
    (addr length attr tc a l tg : Nat) (hb : InWindow s.dev.fns false wss w addr length) (hu : FrameReads PTileCarries PTileFrame.fromTlp m addr length w.idx user) (hid : c.id.Valid)
    (ha : attr < 8) (htc : tc < 8) (htag : tg < 256) (h1 : 0 < l) (h2 : addr ≤ a) (h3 : a + l ≤ addr + length) (h4 : a % 4096 + l ≤ 4096) :
    ∃ rcb mps, LegalCpls m rcb mps a l (s.answerAll PTileFrame.ofRx PTileFrame.toTlp p user { Region.readTlp c attr tc false a l with tag := tg }) ∧
      ∀ x ∈ s.answerAll PTileFrame.ofRx PTileFrame.toTlp p user { Region.readTlp c attr tc false a l with tag := tg }, Own { Region.readTlp c attr tc false a l with tag := tg } x :=
  read_lemma ptileCodec p s wss w m user c addr length attr tc hb hu hid ha htc tg htag a l h1 h2 h3 h4

/-- C70, P-Tile: a write by the host is offered to the user as frames, one after the other, that carry its requests and the number of the register; a memory that stores the enabled bytes
of each holds the data afterwards and is otherwise unchanged. -/
theorem C70_write_ptile (p : RxLimits) (s : IntelDev PTileFrame) (wss : List (List Window)) (w : Window) (c : ReqCfg) (addr : Nat) (data : List UInt8) (attr tc : Nat)
    (hb : InWindow s.dev.fns false wss w addr data.length) (hid : c.id.Valid) (hbm : c.busMasterEnable = true) (hne : data ≠ []) (ha : attr < 8) (htc : tc < 8) :
    ∃ tlps s' o, Region.write c addr data attr tc = .ok tlps ∧ s.run PTileFrame.ofRx p (tlps.map .recv) = some (.ok (s', o)) ∧ Offered PTileCarries w.idx tlps (rxOffered o) ∧
      ∀ ms : Nat → Mem, (∀ (i : Nat) (f : PTileFrame) (t : Tlp), (rxOffered o)[i]? = some f → f.toTlp = .ok t → EnabledStored (ms i) (ms (i + 1)) t t.address) →
        Replaced (ms 0) (ms (rxOffered o).length) addr data :=
  write_all ptileCodec (fun _ _ _ _ h => h.tlp) p s wss w c addr data attr tc hb hid hbm hne ha htc

/-- C70, P-Tile: an I/O read by the host returns the user's bytes. -/
theorem C70_io_read_ptile (p : RxLimits) (s : IntelDev PTileFrame) (wss : List (List Window)) (w : Window) (m : Mem) (user : PTileFrame → List PTileFrame) (c : ReqCfg) (tag : Tlp → Nat)
    (addr length : Nat) (hb : InWindow s.dev.fns true wss w addr length) (hlo : addr + length ≤ 2 ^ 32) (hu : FrameIoReads PTileCarries PTileFrame.fromTlp m addr length user) (hid : c.id.Valid)
    (hbm : c.busMasterEnable = true) (h0 : 0 < length) (htag : ∀ t, tag t < 256) :
    ∃ bytes, IoRegion.read c (s.answer PTileFrame.ofRx PTileFrame.toTlp p user tag) addr length = .ok bytes ∧ Holds m addr length bytes :=
  io_read_all ptileCodec p s wss w m user c tag addr length hb hlo hu hid hbm h0 htag

/-- C70, P-Tile: an I/O write by the host is offered to the user as requests of one dword each, and succeeds if the user confirms them. -/
theorem C70_io_write_ptile (p : RxLimits) (s : IntelDev PTileFrame) (wss : List (List Window)) (w : Window) (user : PTileFrame → List PTileFrame) (c : ReqCfg) (tag : Tlp → Nat) (addr : Nat)
    (data : List UInt8) (hb : InWindow s.dev.fns true wss w addr data.length) (hlo : addr + data.length ≤ 2 ^ 32) (hu : FrameIoWrites PTileCarries PTileFrame.fromTlp user) (hid : c.id.Valid)
    (hbm : c.busMasterEnable = true) (hne : data ≠ []) (htag : ∀ t, tag t < 256) :
    ∃ reqs s' o, IoRegion.writeReqs c addr data = .ok reqs ∧ s.run PTileFrame.ofRx p (reqs.map fun t => .recv { t with tag := tag t }) = some (.ok (s', o)) ∧
      Offered PTileCarries 6 (reqs.map fun t => { t with tag := tag t }) (rxOffered o) ∧
      (∀ ms : Nat → Mem, (∀ (i : Nat) (f : PTileFrame) (t : Tlp), (rxOffered o)[i]? = some f → f.toTlp = .ok t → EnabledStored (ms i) (ms (i + 1)) t t.address) →
        Replaced (ms 0) (ms (rxOffered o).length) addr data) ∧
      IoRegion.checkAll (reqs.map (s.answer PTileFrame.ofRx PTileFrame.toTlp p user tag)) = .ok () :=
  io_write_all ptileCodec (fun _ _ _ _ h => h.tlp) p s wss w user c tag addr data hb hlo hu hid hbm hne htag

/-! ### The hypotheses can be met -/

/-- User logic that answers every memory read with one completion with the bytes of the memory exists, for any kind of frames that carry TLPs. -/
private theorem frameUser_exists {F : Type} (carries : F → Tlp → Nat → Nat → Prop) (enc : Tlp → Py F) (conv : F → Py Tlp) (hcv : ∀ f t bar fn, carries f t bar fn → conv f = .ok t)
    (henc : ∀ ty t, Encodable ty t → t.data.length % 4 = 0 → ∃ f, enc t = .ok f)
    (m : Mem) (lo len bar : Nat) (hlen : len ≤ 4092) :
    ∃ user, FrameReads carries enc m lo len bar user := by
  classical
  let cpl (t : Tlp) (a l : Nat) : Tlp :=
    { fmt := 2, type := 10, length := (a % 4 + l + 3) / 4, tc := t.tc, attr := t.attr, tag := t.tag, requester_id := t.requester_id
      byte_count := l, lower_address := a % 128, data := m.read (a / 4 * 4) (4 * ((a % 4 + l + 3) / 4)) }
  have id0 : PcieId.Valid ⟨0, 0, 0⟩ := ⟨by decide, by decide, by decide⟩
  have hgood : ∀ ty t a l, Encodable ty t → 0 < l → l ≤ len → ∃ g, enc (cpl t a l) = .ok g := by
    intro ty t a l he h0 h1
    have hl : ((a % 4 + l + 3) / 4) ≤ 1024 ∧ 1 ≤ (a % 4 + l + 3) / 4 := by omega
    refine henc .CPL_DATA _ ⟨rfl, he.tc, he.attr, by show 0 ≤ 2; omega, he.tag, he.req_id, id0, rfl, ?_, ?_, ?_⟩ ?_
    · rw [if_neg (by decide)]; exact ⟨hl.2, hl.1⟩
    · intro h; rcases h with h | h <;> cases h
    · exact ⟨.inl rfl, h0, by show l ≤ 4096; omega, by show a % 128 < 128; omega, rfl, rfl, rfl, rfl⟩
    · show (m.read _ _).length % 4 = 0
      rw [Mem.read_length]; omega
  refine ⟨fun f => if h : ∃ x : Tlp × Nat × Nat × F, conv f = .ok x.1 ∧ 0 < x.2.2.1 ∧ (∀ b, byteEnabled x.1 b ↔ x.2.1 ≤ b ∧ b < x.2.1 + x.2.2.1) ∧ enc (cpl x.1 x.2.1 x.2.2.1) = .ok x.2.2.2
    then [h.choose.2.2.2] else [], ?_⟩
  intro f t fn a l hc he hr h0 h1 h2 hb
  obtain ⟨ty, he⟩ := he
  obtain ⟨g, hg⟩ := hgood ty t a l he h0 (by omega)
  have hx : ∃ x : Tlp × Nat × Nat × F, conv f = .ok x.1 ∧ 0 < x.2.2.1 ∧ (∀ b, byteEnabled x.1 b ↔ x.2.1 ≤ b ∧ b < x.2.1 + x.2.2.1) ∧ enc (cpl x.1 x.2.1 x.2.2.1) = .ok x.2.2.2 :=
    ⟨(t, a, l, g), hcv _ _ _ _ hc, h0, hb, hg⟩
  simp only [dif_pos hx]
  obtain ⟨c0, g0, g1, g2⟩ := hx.choose_spec
  generalize hx.choose = x at c0 g0 g1 g2 ⊢
  have e0 : x.1 = t := Except.ok.inj (c0.symm.trans (hcv _ _ _ _ hc))
  rw [e0] at g1 g2
  have e1 : x.2.1 = a := by
    have p := (hb x.2.1).mp ((g1 x.2.1).mpr ⟨by omega, by omega⟩)
    have q := (g1 a).mp ((hb a).mpr ⟨by omega, by omega⟩)
    omega
  have e2 : x.2.2.1 = l := by
    have p := (hb (x.2.1 + x.2.2.1 - 1)).mp ((g1 _).mpr ⟨by omega, by omega⟩)
    have q := (g1 (a + l - 1)).mp ((hb _).mpr ⟨by omega, by omega⟩)
    omega
  rw [e1, e2] at g2
  refine ⟨64, 4096, [cpl t a l], Nat.le_refl _, .last _ _ _ h0 rfl rfl rfl rfl rfl ?_ (Mem.read_holds ..), ?_, ?_⟩
  · show 4 * ((a % 4 + l + 3) / 4) ≤ 4096; omega
  · intro c hc
    rw [List.mem_singleton.mp hc]
    exact ⟨⟨rfl, rfl, rfl, rfl, rfl⟩, id0, rfl, rfl, rfl, rfl, rfl, rfl⟩
  · rw [List.map_cons, List.map_nil, g2]; rfl

private theorem inTwo (lo len : Nat) (h1 : 0x20000000 ≤ lo) (h2 : lo + len ≤ 0x20010000) :
    InWindow intelTwo.fns false [[⟨2, false, false, 0x10000000, 12⟩], [⟨2, false, false, 0x20000000, 16⟩]] ⟨2, false, false, 0x20000000, 16⟩ lo len := by
  refine ⟨intelTwo_windows, by omega, .inl (by omega), ?_⟩
  intro a h3 h4
  have g1 : (Window.contains ⟨2, false, false, 0x10000000, 12⟩ a) = false := by
    show decide (0x10000000 ≤ a ∧ a < 0x10001000) = false
    exact decide_eq_false (by omega)
  have g2 : (Window.contains ⟨2, false, false, 0x20000000, 16⟩ a) = true := by
    show decide (0x20000000 ≤ a ∧ a < 0x20010000) = true
    exact decide_eq_true ⟨by omega, by omega⟩
  exact ⟨1, by simp [claimant, g1, g2]⟩

/-- `C70_read_s10`, `C70_read_ptile`: the host reads 100 bytes at an odd address in the window of function 1. -/
example (m : Mem) : ∃ user bytes, Region.read {} (({ dev := intelTwo } : IntelDev S10Frame).answer S10Frame.ofRx S10Frame.toTlp {} user fun _ => 7) 0x20000f81 100 0 0 = .ok bytes ∧
    Holds m 0x20000f81 100 bytes := by
  obtain ⟨user, hu⟩ := frameUser_exists S10Carries S10Frame.fromTlp S10Frame.toTlp (fun _ _ _ _ h => h.tlp)
    (fun ty t h hd => (C42_s10_tlp ty t h hd).imp fun _ h => h.1) m 0x20000f81 100 2 (by omega)
  obtain ⟨bytes, h⟩ := C70_read_s10 {} { dev := intelTwo } _ _ m user {} (fun _ => 7) 0x20000f81 100 0 0 (inTwo _ _ (by omega) (by omega)) hu ⟨by decide, by decide, by decide⟩ rfl (by omega)
    (by omega) (by omega) (fun _ => by omega)
  exact ⟨user, bytes, h⟩
example (m : Mem) : ∃ user bytes, Region.read {} (({ dev := intelTwo } : IntelDev PTileFrame).answer PTileFrame.ofRx PTileFrame.toTlp {} user fun _ => 7) 0x20000f81 100 0 0 = .ok bytes ∧
    Holds m 0x20000f81 100 bytes := by
  obtain ⟨user, hu⟩ := frameUser_exists PTileCarries PTileFrame.fromTlp PTileFrame.toTlp (fun _ _ _ _ h => h.tlp)
    (fun ty t h hd => (C42_ptile_tlp ty t h hd).imp fun _ h => h.1) m 0x20000f81 100 2 (by omega)
  obtain ⟨bytes, h⟩ := C70_read_ptile {} { dev := intelTwo } _ _ m user {} (fun _ => 7) 0x20000f81 100 0 0 (inTwo _ _ (by omega) (by omega)) hu ⟨by decide, by decide, by decide⟩ rfl (by omega)
    (by omega) (by omega) (fun _ => by omega)
  exact ⟨user, bytes, h⟩

/-- `C70_write_s10`, `C70_write_ptile`: the host writes 300 bytes at an odd address in the window. -/
example := C70_write_s10 {} { dev := intelTwo } _ _ {} 0x20000d81 (List.replicate 300 7) 0 0 (inTwo _ _ (by omega) (by rw [List.length_replicate]; omega)) ⟨by decide, by decide, by decide⟩ rfl
  (by decide) (by omega) (by omega)
example := C70_write_ptile {} { dev := intelTwo } _ _ {} 0x20000d81 (List.replicate 300 7) 0 0 (inTwo _ _ (by omega) (by rw [List.length_replicate]; omega)) ⟨by decide, by decide, by decide⟩ rfl
  (by decide) (by omega) (by omega)

/-- A device with an I/O window of 256 bytes at 0x1000. -/
private def intelIo : Dev := { bus := 1, fns := [{ id := ⟨1, 0, 0⟩, bars := [⟨0x1001, 0xffffff00⟩, {}, {}, {}, {}, {}] }] }

private theorem inIo (lo len : Nat) (h1 : 0x1000 ≤ lo) (h2 : lo + len ≤ 0x1100) : InWindow intelIo.fns true [[⟨0, true, false, 0x1000, 8⟩]] ⟨0, true, false, 0x1000, 8⟩ lo len := by
  refine ⟨?_, by omega, .inl (by omega), ?_⟩
  · exact .cons ⟨.io _ _ _ _ _ _ (by decide) (.absent _ _ _ _ rfl (.absent _ _ _ _ rfl (.absent _ _ _ _ rfl (.absent _ _ _ _ rfl (.absent _ _ _ _ rfl (.nil _)))))), by decide⟩ .nil
  · intro a h3 h4
    have h : (Window.contains ⟨0, true, false, 0x1000, 8⟩ a) = true := by
      show decide (0x1000 ≤ a ∧ a < 0x1100) = true
      exact decide_eq_true ⟨by omega, by omega⟩
    exact ⟨0, by simp [claimant, h]⟩

/-- User logic with an I/O memory. -/
private def ioFrames {F : Type} (enc : Tlp → Py F) (conv : F → Py Tlp) (m : Mem) (f : F) : List F :=
  match conv f with
  | .error _ => []
  | .ok t =>
    let r : Tlp := { type := 10, tc := t.tc, attr := t.attr, tag := t.tag, requester_id := t.requester_id, byte_count := 4 }
    match enc (if t.fmtType = some .IO_READ then { r with fmt := 2, length := 1, data := m.read t.address 4 } else r) with
    | .error _ => []
    | .ok g => [g]

private theorem ioFrames_ok {F : Type} (carries : F → Tlp → Nat → Nat → Prop) (enc : Tlp → Py F) (conv : F → Py Tlp) (hcv : ∀ f t bar fn, carries f t bar fn → conv f = .ok t)
    (henc : ∀ ty t, Encodable ty t → t.data.length % 4 = 0 → ∃ f, enc t = .ok f) (m : Mem) (lo len : Nat) :
    FrameIoReads carries enc m lo len (ioFrames enc conv m) ∧ FrameIoWrites carries enc (ioFrames enc conv m) := by
  have id0 : PcieId.Valid ⟨0, 0, 0⟩ := ⟨by decide, by decide, by decide⟩
  constructor
  · intro f t fn a l hc he h1 h2 _ _ _ _
    obtain ⟨ty, he⟩ := he
    unfold ioFrames
    rw [hcv _ _ _ _ hc]
    simp only [h1, if_true]
    have hl : (m.read t.address 4).length = 4 := Mem.read_length ..
    obtain ⟨g, hg⟩ := henc .CPL_DATA { fmt := 2, type := 10, length := 1, tc := t.tc, attr := t.attr, tag := t.tag, requester_id := t.requester_id, byte_count := 4, data := m.read t.address 4 }
      ⟨rfl, he.tc, he.attr, by show 0 ≤ 2; omega, he.tag, he.req_id, id0, rfl, by rw [if_neg (by decide)]; exact ⟨Nat.le_refl _, by show 1 ≤ 1024; omega⟩,
        (fun h => by rcases h with h | h <;> cases h), ⟨.inl rfl, by show 1 ≤ 4; omega, by show 4 ≤ 4096; omega, by show 0 < 128; omega, rfl, rfl, rfl, rfl⟩⟩
      (by show (m.read t.address 4).length % 4 = 0; rw [hl])
    refine ⟨{ fmt := 2, type := 10, length := 1, tc := t.tc, attr := t.attr, tag := t.tag, requester_id := t.requester_id, byte_count := 4, data := m.read t.address 4 }, rfl, rfl, by show (0 : Nat) < 128; omega, ⟨_, _, rfl, rfl, rfl, hl, ?_⟩, ⟨⟨rfl, rfl, rfl, rfl, rfl⟩, id0, rfl, rfl, rfl, rfl, rfl, rfl⟩, by rw [hg]; rfl⟩
    intro i hi
    have h4 : i < 4 := by
      obtain ⟨-, h, -⟩ := hi
      rw [h2] at h
      omega
    have hl : i < (m.read t.address 4).length := by rw [hl]; exact h4
    exact (List.getElem?_eq_getElem hl).trans (congrArg some (Mem.read_getElem ..))
  · intro f t fn hc he h1
    obtain ⟨ty, he⟩ := he
    unfold ioFrames
    rw [hcv _ _ _ _ hc]
    simp only [h1, Option.some.injEq, reduceCtorEq, if_false]
    obtain ⟨g, hg⟩ := henc .CPL { type := 10, tc := t.tc, attr := t.attr, tag := t.tag, requester_id := t.requester_id, byte_count := 4 }
      ⟨rfl, he.tc, he.attr, by show 0 ≤ 2; omega, he.tag, he.req_id, id0, rfl, by rw [if_pos (by decide)]; show 0 < 1024; omega, fun _ => rfl,
        ⟨.inl rfl, by show 1 ≤ 4; omega, by show 4 ≤ 4096; omega, by show 0 < 128; omega, rfl, rfl, rfl, rfl⟩⟩ rfl
    exact ⟨{ type := 10, tc := t.tc, attr := t.attr, tag := t.tag, requester_id := t.requester_id, byte_count := 4 }, rfl, rfl, rfl, by show (0 : Nat) < 128; omega, rfl, rfl, ⟨⟨rfl, rfl, rfl, rfl, rfl⟩, id0, rfl, rfl, rfl, rfl, rfl, rfl⟩, by rw [hg]; rfl⟩

/-- `C70_io_read_s10`, `C70_io_write_s10`, `C70_io_read_ptile`, `C70_io_write_ptile`: the host reads and writes 11 bytes at an odd address. -/
example (m : Mem) := C70_io_read_s10 {} { dev := intelIo } _ _ m (ioFrames S10Frame.fromTlp S10Frame.toTlp m) {} (fun _ => 7) 0x1003 11 (inIo _ _ (by omega) (by omega)) (by omega)
  (ioFrames_ok S10Carries _ _ (fun _ _ _ _ h => h.tlp) (fun ty t h hd => (C42_s10_tlp ty t h hd).imp fun _ h => h.1) m _ _).1 ⟨by decide, by decide, by decide⟩ rfl (by omega) (fun _ => by omega)
example (m : Mem) := C70_io_write_s10 {} { dev := intelIo } _ _ (ioFrames S10Frame.fromTlp S10Frame.toTlp m) {} (fun _ => 7) 0x1003 (List.replicate 11 9)
  (inIo _ _ (by omega) (by rw [List.length_replicate]; omega)) (by rw [List.length_replicate]; omega)
  (ioFrames_ok S10Carries _ _ (fun _ _ _ _ h => h.tlp) (fun ty t h hd => (C42_s10_tlp ty t h hd).imp fun _ h => h.1) m 0 0).2 ⟨by decide, by decide, by decide⟩ rfl (by decide) (fun _ => by omega)
example (m : Mem) := C70_io_read_ptile {} { dev := intelIo } _ _ m (ioFrames PTileFrame.fromTlp PTileFrame.toTlp m) {} (fun _ => 7) 0x1003 11 (inIo _ _ (by omega) (by omega)) (by omega)
  (ioFrames_ok PTileCarries _ _ (fun _ _ _ _ h => h.tlp) (fun ty t h hd => (C42_ptile_tlp ty t h hd).imp fun _ h => h.1) m _ _).1 ⟨by decide, by decide, by decide⟩ rfl (by omega) (fun _ => by omega)
example (m : Mem) := C70_io_write_ptile {} { dev := intelIo } _ _ (ioFrames PTileFrame.fromTlp PTileFrame.toTlp m) {} (fun _ => 7) 0x1003 (List.replicate 11 9)
  (inIo _ _ (by omega) (by rw [List.length_replicate]; omega)) (by rw [List.length_replicate]; omega)
  (ioFrames_ok PTileCarries _ _ (fun _ _ _ _ h => h.tlp) (fun ty t h hd => (C42_ptile_tlp ty t h hd).imp fun _ h => h.1) m 0 0).2 ⟨by decide, by decide, by decide⟩ rfl (by decide) (fun _ => by omega)

end Pcie
