import Verif.Lemmas.UsCc
/-
C69: accesses by the host to user logic behind the Xilinx hard IP models.
-/
namespace Pcie
open Spec UsCc

/-- C69: completions of the user reach the host in order, unchanged but for the bus number in the completer ID, which is that of the device unless the user asks for its own; withdrawn
completions (`discontinue`) do not reach the host; the task goes on. -/
theorem C69_completions (d : UsDev) (chk : Bool) (ws : List UsTlp)
    (hw : ∀ w ∈ ws, (∃ ty, UsCarries .cc ty w) ∧ 4 * w.tlp.length ≤ w.tlp.byte_count + w.tlp.lower_address % 4 + 3) :
    ∃ cs, d.ccAll chk (UsDev.packAll ws) = (cs, none) ∧
      List.Forall₂ (fun w c => c.completer_id = (if w.completerIdEnable then w.tlp.completer_id else { w.tlp.completer_id with bus := d.bus }) ∧
        { c with completer_id := w.tlp.completer_id } = (ccSeen w).tlp) (ws.filter fun w => !w.discontinue) cs := by
  refine ⟨_, ccAll_ok d chk ws (fun w h => ?_), ?_⟩
  · obtain ⟨⟨ty, h1⟩, h2⟩ := hw w h
    exact ⟨ty, h1, h2⟩
  · rw [List.forall₂_map_right_iff, List.forall₂_same]
    intro w _
    exact ⟨rfl, rfl⟩

/-- C69: a read by the host of a window of the first function returns the bytes of the user's memory, in whatever legal way the user splits its completions. -/
theorem C69_read (d : UsDev) (chk : Bool) (wss : List (List Window)) (w : Window) (m : Mem) (user : UsTlp → List UsTlp) (c : ReqCfg) (tag : Tlp → Nat) (addr length attr tc : Nat)
    (hb : Behind d false wss w addr length) (hu : UserReads m addr length user) (hid : c.id.Valid) (hbm : c.busMasterEnable = true) (h0 : 0 < length) (ha : attr < 8) (htc : tc < 8)
    (htag : ∀ t, tag t < 256) :
    ∃ bytes, Region.read c (d.answer chk user tag) addr length attr tc = .ok bytes ∧ Holds m addr length bytes := by
  refine ⟨_, region_read c attr tc length addr h0 hbm m _ ?_, Mem.read_holds ..⟩
  intro a L h1 h2 h3 h4 h5
  obtain ⟨ty, hlib, hty⟩ := readTlp_lib c attr tc a L (tag (Region.readTlp c attr tc false a L)) hid h1 h4 ha htc (htag _)
  obtain ⟨f1, f2, -⟩ := Region.readTlp_fields c attr tc false a L h1
  have hmr := readTlp_tag_isMemRead c attr tc a L h1 false
  have hen := Region.readTlp_enabled c attr tc a L
  unfold UsDev.answer
  rw [hmr]
  generalize tag (Region.readTlp c attr tc false a L) = tg at hlib
  have hdel := (deliver_ok hb chk hlib (by rcases hty with rfl | rfl; exact .inl rfl; exact .inr (.inl rfl)) (by show _ ≤ (Region.readTlp c attr tc false a L).address; rw [f1]; omega)
    (by show (Region.readTlp c attr tc false a L).address < _; rw [f1]; omega)).2 user
  rw [hdel]
  have hread : IsRead (seenAs d w { Region.readTlp c attr tc false a L with tag := tg }).tlp := by
    rcases hty with rfl | rfl
    · exact .inl hlib.type
    · exact .inr hlib.type
  obtain ⟨⟨rcb, mps, hmps, hleg⟩, hprop⟩ := hu (seenAs d w { Region.readTlp c attr tc false a L with tag := tg }) a L hread h1 h2 h3 hen
  generalize hus : user (seenAs d w { Region.readTlp c attr tc false a L with tag := tg }) = us at hleg hprop ⊢
  have hfits := legal_fits hleg hmps (by omega)
  have hsend : ∀ x ∈ us, Sendable x := by
    intro x hx
    obtain ⟨g0, g1, g2, g3, g4, g5, g6, g7⟩ := hfits x.tlp (List.mem_map_of_mem hx)
    exact sendable_of (hprop x hx) (seenAs_valid hlib d w) g1 rfl g0 g2 (by omega) (by omega) g6 ⟨fun _ => g4, fun _ => .inl rfl⟩ g7
  rw [ccAll_kept d chk us hsend fun x hx => (hprop x hx).kept]
  have hl := legal_map (hostSees d) (hostSees_fields d) us a L hleg
  have hc := collect_legal hl []
  rw [List.append_nil] at hc
  exact ⟨rcb, mps, by rw [hc]; exact hl⟩

/-- C69: every completion that the host gets for a memory read carries the requester ID, tag, attributes and traffic class of the request and the ID of the function. -/
theorem C69_read_completions (d : UsDev) (chk : Bool) (wss : List (List Window)) (w : Window) (m : Mem) (user : UsTlp → List UsTlp) (c : ReqCfg) (addr length attr tc a l tg : Nat)
    (hb : Behind d false wss w addr length) (hu : UserReads m addr length user) (hid : c.id.Valid) (ha : attr < 8) (htc : tc < 8) (htag : tg < 256)
    (h1 : 0 < l) (h2 : addr ≤ a) (h3 : a + l ≤ addr + length) (h4 : a % 4096 + l ≤ 4096) :
    (∃ rcb mps, LegalCpls m rcb mps a l (d.answerAll chk user { Region.readTlp c attr tc false a l with tag := tg })) ∧
    ∀ cpl ∈ d.answerAll chk user { Region.readTlp c attr tc false a l with tag := tg },
      Own { Region.readTlp c attr tc false a l with tag := tg } cpl ∧ cpl.completer_id = ⟨d.bus, 0, 0⟩ := by
  obtain ⟨ty, hlib, hty⟩ := readTlp_lib c attr tc a l tg hid h1 h4 ha htc htag
  obtain ⟨f1, f2, -⟩ := Region.readTlp_fields c attr tc false a l h1
  have hen := Region.readTlp_enabled c attr tc a l
  have hdel := (deliver_ok hb chk hlib (by rcases hty with rfl | rfl; exact .inl rfl; exact .inr (.inl rfl)) (by show _ ≤ (Region.readTlp c attr tc false a l).address; rw [f1]; omega)
    (by show (Region.readTlp c attr tc false a l).address < _; rw [f1]; omega)).2 user
  rw [hdel]
  have hread : IsRead (seenAs d w { Region.readTlp c attr tc false a l with tag := tg }).tlp := by
    rcases hty with rfl | rfl
    · exact .inl hlib.type
    · exact .inr hlib.type
  obtain ⟨⟨rcb, mps, hmps, hleg⟩, hprop⟩ := hu (seenAs d w { Region.readTlp c attr tc false a l with tag := tg }) a l hread h1 h2 h3 hen
  generalize hus : user (seenAs d w { Region.readTlp c attr tc false a l with tag := tg }) = us at hleg hprop ⊢
  have hfits := legal_fits hleg hmps (by omega)
  have hsend : ∀ x ∈ us, Sendable x := by
    intro x hx
    obtain ⟨g0, g1, g2, g3, g4, g5, g6, g7⟩ := hfits x.tlp (List.mem_map_of_mem hx)
    exact sendable_of (hprop x hx) (seenAs_valid hlib d w) g1 rfl g0 g2 (by omega) (by omega) g6 ⟨fun _ => g4, fun _ => .inl rfl⟩ g7
  rw [ccAll_kept d chk us hsend fun x hx => (hprop x hx).kept]
  refine ⟨⟨rcb, mps, legal_map (hostSees d) (hostSees_fields d) us a l hleg⟩, ?_⟩
  intro cpl hc
  obtain ⟨x, hx, rfl⟩ := List.mem_map.mp hc
  exact hostSees_own (hprop x hx)

/-- C69: a write by the host reaches the user as requests, one after the other, that say which window was hit and which bytes to write; a memory that stores the enabled bytes of each
holds the data afterwards and is otherwise unchanged. -/
theorem C69_write (d : UsDev) (chk : Bool) (wss : List (List Window)) (w : Window) (c : ReqCfg) (addr : Nat) (data : List UInt8) (attr tc : Nat)
    (hb : Behind d false wss w addr data.length) (hid : c.id.Valid) (hbm : c.busMasterEnable = true) (hne : data ≠ []) (ha : attr < 8) (htc : tc < 8) :
    ∃ (tlps : List Tlp) (vs : List UsTlp), Region.write c addr data attr tc = .ok tlps ∧ tlps.map (d.deliver chk) = vs.map (fun v => Except.ok (some v)) ∧
      (∀ v ∈ vs, v.barId = w.idx ∧ v.barAperture = w.k ∧ v.tlp.completer_id.function = 0 ∧ v.tlp.requester_id = c.id) ∧
      ∀ ms : Nat → Mem, (∀ (i : Nat) (v : UsTlp), vs[i]? = some v → EnabledStored (ms i) (ms (i + 1)) v.tlp v.tlp.address) → Replaced (ms 0) (ms vs.length) addr data := by
  have h0 : ¬ data.length = 0 := fun h => hne (List.length_eq_zero_iff.1 h)
  have hp := mem_pieces c attr tc hid ha htc data data.length 0 addr rfl (by omega)
  rw [List.drop_zero] at hp
  have hin := pieces_within hp
  have hreq : ∀ t ∈ Region.writeLoop c attr tc false data 0 addr, t.requester_id = c.id := by
    have hw : Region.write c addr data attr tc = .ok (Region.writeLoop c attr tc false data 0 addr) := by
      unfold Region.write; simp only [hbm, not_true_eq_false, if_false, h0, decide_false]
    exact fun t ht => ((C12_write_requests c addr data attr tc _ hne hw).2 t ht).2.1
  refine ⟨Region.writeLoop c attr tc false data 0 addr, (Region.writeLoop c attr tc false data 0 addr).map (seenAs d w), ?_, ?_, ?_, ?_⟩
  · unfold Region.write
    simp only [hbm, not_true_eq_false, if_false, h0, decide_false]
  · rw [List.map_map]
    refine List.map_congr_left fun t ht => ?_
    obtain ⟨⟨_, _, ⟨ty, hlib, hty⟩, -⟩, h1, h2⟩ := hin t ht
    exact (deliver_ok hb chk hlib (by rcases hty with rfl | rfl; exact .inr (.inr (.inl rfl)); exact .inr (.inr (.inr rfl))) h1 h2).1
  · intro v hv
    obtain ⟨t, ht, rfl⟩ := List.mem_map.mp hv
    exact ⟨rfl, rfl, rfl, hreq t ht⟩
  · intro ms hs
    rw [List.length_map, pieces_stored hp ms ?_]
    · exact Mem.write_replaced ..
    · intro i t hi
      exact hs i (seenAs d w t) (by rw [List.getElem?_map, hi]; rfl)

/-- C69: an I/O read by the host returns the user's bytes. -/
theorem C69_io_read (d : UsDev) (chk : Bool) (wss : List (List Window)) (w : Window) (m : Mem) (user : UsTlp → List UsTlp) (c : ReqCfg) (tag : Tlp → Nat) (addr length : Nat)
    (hb : Behind d true wss w addr length) (hlo : addr + length ≤ 2 ^ 32) (hu : UserIoReads m addr length user) (hid : c.id.Valid) (hbm : c.busMasterEnable = true) (h0 : 0 < length)
    (htag : ∀ t, tag t < 256) :
    ∃ bytes, IoRegion.read c (d.answer chk user tag) addr length = .ok bytes ∧ Holds m addr length bytes := by
  refine ⟨_, IoRegion.read_ok c length addr h0 hbm m _ ?_, Mem.read_holds ..⟩
  intro a L h1 h2 h3 h4
  obtain ⟨hio, f1, f2, f3⟩ := IoRegion.readTlp_ok c false a L h1 h4
  have hen := IoRegion.readTlp_enabled c a L
  have hr := ioReadTlp_rest c a L
  generalize IoRegion.readTlp c false a L = t at *
  have hlib : LibReq .IO_READ { t with tag := tag t } :=
    ⟨hio.type, by show t.length ≤ 1024; rw [hio.one_dword]; omega, htag _, by show t.tc < 8; rw [hio.tc]; omega, by show t.attr < 8; rw [hio.attr]; omega, hr.1,
      by show t.requester_id.Valid; rw [f2]; exact hid, hr.2, by show t.data.length % 4 = 0; rw [f3]; rfl, hio.aligned, by show t.address < 2 ^ 32; rw [f1]; omega⟩
  have hmr := not_memRead_io hio.type (by simp) (by simp)
  unfold UsDev.answer
  rw [hmr]
  generalize tag t = tg at hlib
  rw [(deliver_ok hb chk hlib (.inl rfl) (by show _ ≤ t.address; rw [f1]; omega) (by show t.address < _; rw [f1]; omega)).2 user]
  obtain ⟨x, hux, hpx, hty, hbc, hla, hda⟩ := hu (seenAs d w { t with tag := tg }) a L hio.type hio.one_dword h1 h2 h3 hen
  obtain ⟨y, rest, hy, hs, hl, hdl, hbytes⟩ := hda
  obtain ⟨rfl, rfl⟩ := List.cons.inj hy
  rw [hux]
  have hsend : Sendable x := sendable_of hpx (seenAs_valid hlib d w) hty rfl hs hla (by omega) (by omega) (by omega) ⟨fun _ => by omega, fun _ => .inl rfl⟩ (by omega)
  rw [ccAll_kept d chk [x] (by intro z hz; rw [List.mem_singleton.mp hz]; exact hsend) (by intro z hz; rw [List.mem_singleton.mp hz]; exact hpx.kept)]
  rw [show Region.collect false (List.map (hostSees d) [x]) = ([hostSees d x], []) from C20_collects_one _ []]
  exact ⟨_, _, rfl, hs, hl, hdl, hbytes⟩

/-- C69: an I/O write by the host reaches the user as requests of one dword each, and succeeds. -/
theorem C69_io_write (d : UsDev) (chk : Bool) (wss : List (List Window)) (w : Window) (user : UsTlp → List UsTlp) (c : ReqCfg) (tag : Tlp → Nat) (addr : Nat) (data : List UInt8)
    (hb : Behind d true wss w addr data.length) (hlo : addr + data.length ≤ 2 ^ 32) (hu : UserIoWrites user) (hid : c.id.Valid) (hbm : c.busMasterEnable = true) (hne : data ≠ [])
    (htag : ∀ t, tag t < 256) :
    ∃ (reqs : List Tlp) (vs : List UsTlp), IoRegion.writeReqs c addr data = .ok reqs ∧ reqs.map (fun t => d.deliver chk { t with tag := tag t }) = vs.map (fun v => Except.ok (some v)) ∧
      (∀ v ∈ vs, v.barId = w.idx ∧ v.barAperture = w.k ∧ v.tlp.completer_id.function = 0 ∧ v.tlp.requester_id = c.id) ∧
      (∀ ms : Nat → Mem, (∀ (i : Nat) (v : UsTlp), vs[i]? = some v → EnabledStored (ms i) (ms (i + 1)) v.tlp v.tlp.address) → Replaced (ms 0) (ms vs.length) addr data) ∧
      IoRegion.checkAll (reqs.map (d.answer chk user tag)) = .ok () := by
  have h0 : ¬ data.length = 0 := fun h => hne (List.length_eq_zero_iff.1 h)
  have hp := io_pieces c data data.length 0 addr rfl (by omega)
  rw [List.drop_zero] at hp
  have hin := pieces_within hp
  have hlib : ∀ t ∈ IoRegion.writeLoop c false data 0 addr, LibReq .IO_WRITE { t with tag := tag t } ∧ IoOk .IO_WRITE t ∧ addr / 4 * 4 ≤ t.address ∧ t.address < addr + data.length ∧
      t.requester_id = c.id := by
    intro t ht
    obtain ⟨⟨_, _, hio, f2, f3, r1, r2⟩, h1, h2⟩ := hin t ht
    exact ⟨⟨hio.type, by show t.length ≤ 1024; rw [hio.one_dword]; omega, htag _, by show t.tc < 8; rw [hio.tc]; omega, by show t.attr < 8; rw [hio.attr]; omega, r1,
      by show t.requester_id.Valid; rw [f2]; exact hid, r2, by show t.data.length % 4 = 0; rw [f3], hio.aligned, by show t.address < 2 ^ 32; omega⟩, hio, h1, h2, f2⟩
  refine ⟨IoRegion.writeLoop c false data 0 addr, (IoRegion.writeLoop c false data 0 addr).map (fun t => seenAs d w { t with tag := tag t }), ?_, ?_, ?_, ?_, ?_⟩
  · unfold IoRegion.writeReqs
    simp only [h0, if_false, decide_false, hbm, not_true_eq_false]
  · rw [List.map_map]
    refine List.map_congr_left fun t ht => ?_
    obtain ⟨g1, -, g3, g4, -⟩ := hlib t ht
    exact (deliver_ok hb chk g1 (.inr rfl) g3 g4).1
  · intro v hv
    obtain ⟨t, ht, rfl⟩ := List.mem_map.mp hv
    exact ⟨rfl, rfl, rfl, (hlib t ht).2.2.2.2⟩
  · intro ms hs
    rw [List.length_map, pieces_stored hp ms ?_]
    · exact Mem.write_replaced ..
    · intro i t hi
      exact hs i (seenAs d w { t with tag := tag t }) (by rw [List.getElem?_map, hi]; rfl)
  · generalize IoRegion.writeLoop c false data 0 addr = ts at hlib
    induction ts with
    | nil => rfl
    | cons t ts ih =>
      obtain ⟨g1, hio, g3, g4, -⟩ := hlib t (by simp)
      have hmr := not_memRead_io hio.type (by simp) (by simp)
      obtain ⟨x, hux, hpx, hty, hst, hbc, hla, hlen, hdat⟩ := hu (seenAs d w { t with tag := tag t }) hio.type
      have hsend : Sendable x := sendable_of hpx (seenAs_valid g1 d w) hty rfl hst hla (by omega) (by omega) (by rw [hdat, hlen]; rfl)
        ⟨(fun h => by rcases h with h | h <;> simp at h), fun h => by omega⟩ (by omega)
      have ha : d.answer chk user tag t = [hostSees d x] := by
        unfold UsDev.answer
        rw [hmr, (deliver_ok hb chk g1 (.inr rfl) g3 g4).2 user, hux,
          ccAll_kept d chk [x] (by intro z hz; rw [List.mem_singleton.mp hz]; exact hsend) (by intro z hz; rw [List.mem_singleton.mp hz]; exact hpx.kept)]
        exact congrArg Prod.fst (C20_collects_one _ [])
      rw [List.map_cons, ha]
      unfold IoRegion.checkAll
      have hs : (hostSees d x).status = CplStatus.SC := hst
      simp only [hs, ne_eq, not_true_eq_false, if_false]
      exact ih fun t ht => hlib t (by simp [ht])

/-! ### The hypotheses can be met -/

/-- User logic that answers every memory read with one completion with the bytes of the memory exists. -/
private theorem ccUser_exists (m : Mem) (lo len : Nat) (hlen : len ≤ 4092) : ∃ user, UserReads m lo len user := by
  classical
  let cpl (v : UsTlp) (a l : Nat) : UsTlp :=
    { tlp := { fmt := 2, type := 10, length := (a % 4 + l + 3) / 4, tc := v.tlp.tc, attr := v.tlp.attr, tag := v.tlp.tag, requester_id := v.tlp.requester_id
               completer_id := v.tlp.completer_id, byte_count := l, lower_address := a % 128, data := m.read (a / 4 * 4) (4 * ((a % 4 + l + 3) / 4)) } }
  refine ⟨fun v => if h : ∃ x : Nat × Nat, 0 < x.2 ∧ x.2 ≤ len ∧ ∀ b, byteEnabled v.tlp b ↔ x.1 ≤ b ∧ b < x.1 + x.2 then [cpl v h.choose.1 h.choose.2] else [], ?_⟩
  intro v a l _ h0 h1 h2 hb
  have hx : ∃ x : Nat × Nat, 0 < x.2 ∧ x.2 ≤ len ∧ ∀ b, byteEnabled v.tlp b ↔ x.1 ≤ b ∧ b < x.1 + x.2 := ⟨(a, l), h0, by show l ≤ len; omega, hb⟩
  simp only [dif_pos hx]
  obtain ⟨g0, -, g1⟩ := hx.choose_spec
  generalize hx.choose = x at g0 g1 ⊢
  have e1 : x.1 = a := by
    have p := (hb x.1).mp ((g1 x.1).mpr ⟨by omega, by omega⟩)
    have q := (g1 a).mp ((hb a).mpr ⟨by omega, by omega⟩)
    omega
  have e2 : x.2 = l := by
    have p := (hb (x.1 + x.2 - 1)).mp ((g1 _).mpr ⟨by omega, by omega⟩)
    have q := (g1 (a + l - 1)).mp ((hb _).mpr ⟨by omega, by omega⟩)
    omega
  rw [e1, e2]
  refine ⟨⟨64, 4096, Nat.le_refl _, .last _ _ _ h0 rfl rfl rfl rfl rfl ?_ (Mem.read_holds ..)⟩, ?_⟩
  · show 4 * ((a % 4 + l + 3) / 4) ≤ 4096; omega
  · intro w hw
    rw [List.mem_singleton.mp hw]
    exact ⟨⟨rfl, rfl, rfl, rfl, rfl⟩, rfl, rfl, rfl, rfl⟩

private theorem ccBehind (lo len : Nat) (h1 : 0x10000000 ≤ lo) (h2 : lo + len ≤ 0x10001000) :
    Behind cqTwo false [[⟨2, false, false, 0x10000000, 12⟩], [⟨2, false, false, 0x20000000, 16⟩]] ⟨2, false, false, 0x10000000, 12⟩ lo len := by
  refine ⟨⟨_, _, rfl, rfl⟩, by decide, cqTwo_windows, by decide, by omega, .inl (by omega), ?_⟩
  intro a h3 h4
  have h : (Window.contains ⟨2, false, false, 0x10000000, 12⟩ a) = true := by
    show decide (0x10000000 ≤ a ∧ a < 0x10001000) = true
    exact decide_eq_true ⟨by omega, by omega⟩
  simp [claimant, h]

/-- `C69_read`: the host reads 100 bytes at an odd address in the window. -/
example (m : Mem) : ∃ user bytes, Region.read {} (cqTwo.answer true user fun _ => 7) 0x10000f81 100 0 0 = .ok bytes ∧ Holds m 0x10000f81 100 bytes := by
  obtain ⟨user, hu⟩ := ccUser_exists m 0x10000f81 100 (by omega)
  obtain ⟨bytes, h⟩ := C69_read cqTwo true _ _ m user {} (fun _ => 7) 0x10000f81 100 0 0 (ccBehind _ _ (by omega) (by omega)) hu ⟨by decide, by decide, by decide⟩ rfl (by omega) (by omega)
    (by omega) (fun _ => by omega)
  exact ⟨user, bytes, h⟩

/-- `C69_write`: the host writes 300 bytes at an odd address in the window, in three requests. -/
example := C69_write cqTwo true _ _ {} 0x10000d81 (List.replicate 300 7) 0 0 (ccBehind _ _ (by omega) (by rw [List.length_replicate]; omega)) ⟨by decide, by decide, by decide⟩ rfl (by decide) (by omega) (by omega)
example : (Region.write {} 0x10000d81 (List.replicate 300 7) 0 0).toOption.map (·.map fun t => (t.address, t.length)) =
    some [(0x10000d80, 32), (0x10000e00, 32), (0x10000e80, 12)] := by decide +kernel

/-- A device with an I/O window of 256 bytes at 0x1000. -/
private def ccIo : UsDev := { bus := 1, fns := [{ id := ⟨1, 0, 0⟩, bars := [⟨0x1001, 0xffffff00⟩, {}, {}, {}, {}, {}] }] }

private theorem ccIo_behind (lo len : Nat) (h1 : 0x1000 ≤ lo) (h2 : lo + len ≤ 0x1100) : Behind ccIo true [[⟨0, true, false, 0x1000, 8⟩]] ⟨0, true, false, 0x1000, 8⟩ lo len := by
  refine ⟨⟨_, _, rfl, rfl⟩, by decide, ?_, by decide, by omega, .inl (by omega), ?_⟩
  · exact .cons ⟨.io _ _ _ _ _ _ (by decide) (.absent _ _ _ _ rfl (.absent _ _ _ _ rfl (.absent _ _ _ _ rfl (.absent _ _ _ _ rfl (.absent _ _ _ _ rfl (.nil _)))))), by decide⟩ .nil
  · intro a h3 h4
    have h : (Window.contains ⟨0, true, false, 0x1000, 8⟩ a) = true := by
      show decide (0x1000 ≤ a ∧ a < 0x1100) = true
      exact decide_eq_true ⟨by omega, by omega⟩
    simp [claimant, h]

/-- User logic with an I/O memory. -/
private def ccIoUser (m : Mem) (v : UsTlp) : List UsTlp :=
  let r : Tlp := { type := 10, tc := v.tlp.tc, attr := v.tlp.attr, tag := v.tlp.tag, requester_id := v.tlp.requester_id, completer_id := v.tlp.completer_id, byte_count := 4 }
  if v.tlp.fmtType = some .IO_READ then [{ tlp := { r with fmt := 2, length := 1, data := m.read v.tlp.address 4 } }] else [{ tlp := r }]

private theorem ccIoUser_reads (m : Mem) (lo len : Nat) : UserIoReads m lo len (ccIoUser m) := by
  intro v a l h1 h2 _ _ _ _
  unfold ccIoUser
  rw [if_pos h1]
  refine ⟨_, rfl, ⟨⟨rfl, rfl, rfl, rfl, rfl⟩, rfl, rfl, rfl, rfl⟩, rfl, rfl, by show (0 : Nat) < 128; omega, _, _, rfl, rfl, rfl, by show (m.read v.tlp.address 4).length = 4; rw [Mem.read_length], ?_⟩
  intro i hi
  have h4 : i < 4 := by
    obtain ⟨-, h, -⟩ := hi
    rw [h2] at h
    omega
  have hl : i < (m.read v.tlp.address 4).length := by rw [Mem.read_length]; exact h4
  exact (List.getElem?_eq_getElem hl).trans (congrArg some (Mem.read_getElem ..))

private theorem ccIoUser_writes (m : Mem) : UserIoWrites (ccIoUser m) := by
  intro v h1
  unfold ccIoUser
  rw [if_neg (by rw [h1]; decide)]
  exact ⟨_, rfl, ⟨⟨rfl, rfl, rfl, rfl, rfl⟩, rfl, rfl, rfl, rfl⟩, rfl, rfl, rfl, by show (0 : Nat) < 128; omega, rfl, rfl⟩

/-- `C69_io_read`, `C69_io_write`: the host reads and writes 11 bytes at an odd address. -/
example (m : Mem) := C69_io_read ccIo true _ _ m (ccIoUser m) {} (fun _ => 7) 0x1003 11 (ccIo_behind _ _ (by omega) (by omega)) (by omega) (ccIoUser_reads m _ _) ⟨by decide, by decide, by decide⟩ rfl (by omega)
  (fun _ => by omega)
example (m : Mem) := C69_io_write ccIo true _ _ (ccIoUser m) {} (fun _ => 7) 0x1003 (List.replicate 11 9) (ccIo_behind _ _ (by omega) (by rw [List.length_replicate]; omega)) (by rw [List.length_replicate]; omega) (ccIoUser_writes m)
  ⟨by decide, by decide, by decide⟩ rfl (by decide) (fun _ => by omega)

/-- `C69_completions`: a completion, one that is withdrawn, and one with a bus number of the user's own. -/
private def ccThree : List UsTlp :=
  let t : Tlp := { fmt := 2, type := 10, length := 1, tag := 7, completer_id := ⟨9, 0, 0⟩, byte_count := 4, data := [1, 2, 3, 4] }
  [{ tlp := t }, { tlp := { t with tag := 8 }, discontinue := true }, { tlp := { t with tag := 9 }, completerIdEnable := true }]

example : (∀ w ∈ ccThree, 4 * w.tlp.length ≤ w.tlp.byte_count + w.tlp.lower_address % 4 + 3) ∧
    (cqTwo.ccAll true (UsDev.packAll ccThree)).1.map (fun c => (c.tag, c.completer_id.bus)) = [(7, 1), (9, 9)] := by decide +kernel
example : ∀ w ∈ ccThree, ∃ ty, UsCarries .cc ty w := by
  intro w hw
  simp only [ccThree, List.mem_cons, List.not_mem_nil, or_false] at hw
  rcases hw with rfl | rfl | rfl <;>
    exact ⟨.CPL_DATA, ⟨⟨by decide, by decide, by decide, by decide, by decide, by decide, ⟨by decide, by decide, by decide⟩, ⟨by decide, by decide, by decide⟩, by decide⟩, rfl, .inl rfl,
      by decide, by decide, by decide⟩, by decide⟩

end Pcie
