import Verif.Lemmas.UsCqRun
import Verif.Props.UsTlp
/-
C58: the completer side of the Xilinx hard IP models.
-/
namespace Pcie
open Spec Cq

/-! ### Which requests the user gets -/

/-- C58: a memory or I/O request whose address is in no window of any function is not handed to the user: a non-posted one is answered with an unsupported request
completion, a memory write is dropped. -/
theorem C58_unclaimed (d : UsDev) (t : Tlp) (ty : TlpType) (io : Bool) (wss : List (List Window)) (ht : t.fmtType = some ty) (hty : AddressedBy io ty)
    (hw : Windows d.fns wss) (ha : t.address < 2 ^ 64) (hn : t.address < 2 ^ 32 ∨ ∀ ws ∈ wss, ∀ w ∈ ws, w.wide = true)
    (hc : claimant io t.address wss = none) :
    if NonPosted ty then ∃ cpl, d.recv t = some (.ok (d, .answer cpl)) ∧ IsUr cpl t ⟨d.bus, 0, 0⟩ else d.recv t = some (.ok (d, .drop)) := by
  have hf := UsDev.findBar_spec io t.address hw ha hn 0
  rw [hc] at hf
  have hu : d.answered (t.createUr ⟨d.bus, 0, 0⟩) = .ok (d, .answer (t.createUr ⟨d.bus, 0, 0⟩)) := by
    unfold UsDev.answered
    rw [assertCheck_ok (createUr_check _ _)]
  unfold UsDev.recv
  rw [ht]
  cases io with
  | true =>
    rcases hty with rfl | rfl <;>
      exact ⟨_, by simp only [TlpType.isCfg0, TlpType.isCfg1, TlpType.isCpl, TlpType.isIo, Bool.false_eq_true, if_false, if_true, UsDev.recvIo, hf, Option.map_none, hu],
        createUr_isUr _ _⟩
  | false =>
    rcases hty with rfl | rfl | rfl | rfl
    · exact ⟨_, by simp [TlpType.isCfg0, TlpType.isCfg1, TlpType.isCpl, TlpType.isIo, TlpType.isMem, UsDev.recvMem, hf, hu, ht], createUr_isUr _ _⟩
    · exact ⟨_, by simp [TlpType.isCfg0, TlpType.isCfg1, TlpType.isCpl, TlpType.isIo, TlpType.isMem, UsDev.recvMem, hf, hu, ht], createUr_isUr _ _⟩
    · show _ = _
      simp [TlpType.isCfg0, TlpType.isCfg1, TlpType.isCpl, TlpType.isIo, TlpType.isMem, UsDev.recvMem, hf, ht]
    · show _ = _
      simp [TlpType.isCfg0, TlpType.isCfg1, TlpType.isCpl, TlpType.isIo, TlpType.isMem, UsDev.recvMem, hf, ht]

/-- C58 (part): a request for a window of the first function is handed to the user: the same request, with the number of the base address register, the size of the window as a
power of two, and the ID of the function. Missing: other functions (`C58_function_violated`, `C58_aperture_violated`). Memory requests do not carry a completer ID; their
function number has to be 0, which it is in requests made by this library. -/
theorem C58_claimed_partial (d : UsDev) (f : RFn) (fns : List RFn) (t : Tlp) (ty : TlpType) (io : Bool) (wss : List (List Window)) (w : Window)
    (hd : d.fns = f :: fns) (hid : f.id = ⟨d.bus, 0, 0⟩) (ht : t.fmtType = some ty) (hty : AddressedBy io ty)
    (hcid : t.completer_id.device = 0 ∧ t.completer_id.function = 0) (hw : Windows d.fns wss) (ha : t.address < 2 ^ 64)
    (hn : t.address < 2 ^ 32 ∨ ∀ ws ∈ wss, ∀ w ∈ ws, w.wide = true) (hc : claimant io t.address wss = some (0, w)) :
    d.recv t = some (.ok (d, .user { tlp := { t.copy with completer_id := f.id }, barId := w.idx, barAperture := w.k })) := by
  have hf := UsDev.findBar_spec io t.address hw ha hn 0
  rw [hc] at hf
  obtain ⟨ws, rest, rfl, hmem, hio, hin⟩ := UsDev.claimant_zero hc
  have hb : d.bars0 = f.bars := by unfold UsDev.bars0; rw [hd]
  have hl : Layout 0 f.bars ws := by
    rw [hd] at hw
    cases hw with
    | cons h _ => exact h.1
  have hcomp : ({ t.completer_id with bus := d.bus } : PcieId) = f.id := by
    show PcieId.mk _ _ _ = _
    rw [hcid.1, hcid.2, hid]
  unfold UsDev.recv
  rw [ht]
  cases io with
  | true =>
    have hap := (UsDev.aperture_io hl hmem hio).2
    simp only [Nat.sub_zero] at hap
    have h0 : d.fns[0]? = some f := by rw [hd]; rfl
    rcases hty with rfl | rfl <;>
      simp [TlpType.isCfg0, TlpType.isCfg1, TlpType.isCpl, TlpType.isIo, UsDev.recvIo, hf, hb, hap, h0]
  | false =>
    have hap := (UsDev.aperture_mem hl hmem hio).2
    simp only [Nat.sub_zero] at hap
    rcases hty with rfl | rfl | rfl | rfl <;>
      simp [TlpType.isCfg0, TlpType.isCfg1, TlpType.isCpl, TlpType.isIo, TlpType.isMem, UsDev.recvMem, hf, hb, hap, hcomp]

/-- A device with two functions: function 0 has a 4 KiB window at 0x10000000 in register 2, function 1 has a 64 KiB window at 0x20000000 in register 2. -/
def cqTwo : UsDev :=
  { bus := 1
    fns := [{ id := ⟨1, 0, 0⟩, bars := [{}, {}, ⟨0x10000000, 0xfffff000⟩, {}, {}, {}] }, { id := ⟨1, 0, 1⟩, bars := [{}, {}, ⟨0x20000000, 0xffff0000⟩, {}, {}, {}] }] }

/-- A read of one dword at the address. -/
def cqRead (addr : Nat) : Tlp := { fmt := 0, type := 0, length := 1, address := addr, first_be := 15, tag := 3, requester_id := ⟨0, 0, 0⟩ }

/-- A write of one dword to the address. -/
def cqWrite (addr : Nat) : Tlp := { fmt := 2, type := 0, length := 1, address := addr, first_be := 15, data := [1, 2, 3, 4] }

theorem cqTwo_windows : Windows cqTwo.fns [[⟨2, false, false, 0x10000000, 12⟩], [⟨2, false, false, 0x20000000, 16⟩]] :=
  .cons ⟨.absent _ _ _ _ rfl (.absent _ _ _ _ rfl (.mem32 _ _ _ _ _ _ (by decide) (.absent _ _ _ _ rfl (.absent _ _ _ _ rfl (.absent _ _ _ _ rfl (.nil _)))))), by decide⟩
    (.cons ⟨.absent _ _ _ _ rfl (.absent _ _ _ _ rfl (.mem32 _ _ _ _ _ _ (by decide) (.absent _ _ _ _ rfl (.absent _ _ _ _ rfl (.absent _ _ _ _ rfl (.nil _)))))), by decide⟩
      .nil)

/- The hypotheses can be met: an address in no window, and one in the window of function 0. -/
example := C58_unclaimed cqTwo (cqRead 0x30000000) .MEM_READ false _ (by decide) (.inl rfl) cqTwo_windows (by decide) (.inl (by decide)) (by decide)
example : cqTwo.recv (cqRead 0x10000ffc) = some (.ok (cqTwo, .user { tlp := { cqRead 0x10000ffc with completer_id := ⟨1, 0, 0⟩ }, barId := 2, barAperture := 12 })) :=
  C58_claimed_partial cqTwo _ _ (cqRead 0x10000ffc) .MEM_READ false _ ⟨2, false, false, 0x10000000, 12⟩ rfl rfl (by decide) (.inl rfl) ⟨rfl, rfl⟩ cqTwo_windows
    (by decide) (.inl (by decide)) (by decide)

/-- C58 fails for other functions: a read from the window of function 1 is handed to the user as a request for function 0, with the size of the window of function 0. -/
theorem C58_function_violated : ∃ d u, claimant false 0x20000ffc [[⟨2, false, false, 0x10000000, 12⟩], [⟨2, false, false, 0x20000000, 16⟩]] =
      some (1, ⟨2, false, false, 0x20000000, 16⟩) ∧ (cqTwo.recv (cqRead 0x20000ffc)).bind (·.toOption) = some (d, .user u) ∧
      u.tlp.completer_id.function = 0 ∧ u.barAperture = 12 :=
  ⟨cqTwo, { tlp := { cqRead 0x20000ffc with completer_id := ⟨1, 0, 0⟩ }, barId := 2, barAperture := 12 }, by decide +kernel, by decide +kernel, rfl, rfl⟩

/-- A device with two functions: function 0 has a 64-bit window at 0x4_0000_0000 in registers 4 and 5, function 1 has a 32-bit window in register 5. -/
def cqHalf : UsDev :=
  { bus := 1
    fns := [{ id := ⟨1, 0, 0⟩, bars := [{}, {}, {}, {}, ⟨4, 0xfffff000⟩, ⟨4, 0xffffffff⟩] }, { id := ⟨1, 0, 1⟩, bars := [{}, {}, {}, {}, {}, ⟨0x20000000, 0xffff0000⟩] }] }

/-- C58 fails for other functions: a read from the window of function 1 raises an exception, because the registers of function 0 are looked at. -/
theorem C58_aperture_violated : Windows cqHalf.fns [[⟨4, false, true, 0x400000000, 12⟩], [⟨5, false, false, 0x20000000, 16⟩]] ∧
    claimant false 0x20000000 [[⟨4, false, true, 0x400000000, 12⟩], [⟨5, false, false, 0x20000000, 16⟩]] = some (1, ⟨5, false, false, 0x20000000, 16⟩) ∧
    cqHalf.recv (cqRead 0x20000000) = some (.error "IndexError") :=
  ⟨.cons ⟨.absent _ _ _ _ rfl (.absent _ _ _ _ rfl (.absent _ _ _ _ rfl (.absent _ _ _ _ rfl (.mem64 _ _ _ _ _ _ _ (by decide) (.nil _))))), by decide⟩
    (.cons ⟨.absent _ _ _ _ rfl (.absent _ _ _ _ rfl (.absent _ _ _ _ rfl (.absent _ _ _ _ rfl (.absent _ _ _ _ rfl (.mem32 _ _ _ _ _ _ (by decide) (.nil _)))))), by decide⟩ .nil),
    by decide +kernel, by rfl⟩

/-- C58: an I/O request for a window of any function is handed to the user with the ID of that function and the number of its base address register (the reported size is that of the
register of function 0). -/
theorem C58_io_function (d : UsDev) (k : Nat) (f : RFn) (t : Tlp) (ty : TlpType) (wss : List (List Window)) (w : Window)
    (hd : d.fns[k]? = some f) (ht : t.fmtType = some ty) (hty : AddressedBy true ty) (hw : Windows d.fns wss) (ha : t.address < 2 ^ 64)
    (hn : t.address < 2 ^ 32 ∨ ∀ ws ∈ wss, ∀ w ∈ ws, w.wide = true) (hc : claimant true t.address wss = some (k, w))
    (h0 : ∃ f0, d.fns[0]? = some f0 ∧ w.idx < f0.bars.length) :
    ∃ a, d.recv t = some (.ok (d, .user { tlp := { t.copy with completer_id := f.id }, barId := w.idx, barAperture := a })) := by
  have hf := UsDev.findBar_spec true t.address hw ha hn 0
  rw [hc] at hf
  obtain ⟨f0, h0, hl⟩ := h0
  have hb : d.bars0 = f0.bars := by
    unfold UsDev.bars0
    match hfs : d.fns, h0 with
    | _ :: _, h0 => simp only [List.getElem?_cons_zero, Option.some.injEq] at h0; simp [h0]
  have hap : UsDev.aperture32 d.bars0 w.idx = .ok (bitLength (andNot 0xffffffff (f0.bars[w.idx]'hl).mask)) := by
    unfold UsDev.aperture32; rw [hb, List.getElem?_eq_getElem hl]
  refine ⟨bitLength (andNot 0xffffffff (f0.bars[w.idx]'hl).mask), ?_⟩
  unfold UsDev.recv
  rw [ht]
  rcases hty with rfl | rfl <;>
    simp only [TlpType.isCfg0, TlpType.isCfg1, TlpType.isCpl, TlpType.isIo, UsDev.recvIo, hf, hap, hd, Nat.zero_add, Option.map_some] <;> rfl

/-- A device with two functions that have I/O windows. -/
def cqIo : UsDev :=
  { bus := 1
    fns := [{ id := ⟨1, 0, 0⟩, bars := [⟨0x1001, 0xfffffff0⟩, {}] }, { id := ⟨1, 0, 1⟩, bars := [⟨0x2001, 0xffffff00⟩, {}] }] }

/- The hypotheses can be met: a request for the window of the second function. -/
example : ∃ a, cqIo.recv { fmt := 0, type := 2, length := 1, address := 0x2004, first_be := 15 } =
    some (.ok (cqIo, .user { tlp := { fmt := 0, type := 2, length := 1, address := 0x2004, first_be := 15, completer_id := ⟨1, 0, 1⟩ }, barId := 0, barAperture := a })) :=
  C58_io_function cqIo 1 { id := ⟨1, 0, 1⟩, bars := [⟨0x2001, 0xffffff00⟩, {}] } _ .IO_READ [[⟨0, true, false, 0x1000, 4⟩], [⟨0, true, false, 0x2000, 8⟩]] ⟨0, true, false, 0x2000, 8⟩ rfl
    (by decide) (.inl rfl) (.cons ⟨.io _ _ _ _ _ _ (by decide) (.absent _ _ _ _ rfl (.nil _)), by decide⟩ (.cons ⟨.io _ _ _ _ _ _ (by decide) (.absent _ _ _ _ rfl (.nil _)), by decide⟩ .nil))
    (by decide) (.inl (by decide)) (by decide) ⟨_, rfl, by decide⟩

/-! ### Configuration requests -/

/-- C58: while the configuration space is not enabled, type 0 configuration requests are answered with configuration request retry status, and the device does not take a bus
number. -/
theorem C58_not_ready (d : UsDev) (t : Tlp) (ty : TlpType) (ht : t.fmtType = some ty) (hty : ty = .CFG_READ_0 ∨ ty = .CFG_WRITE_0) (hen : d.enable = false) :
    ∃ cpl, d.recv t = some (.ok (d, .answer cpl)) ∧ cpl.fmtType = some .CPL ∧ cpl.status = CplStatus.CRS ∧ cpl.requester_id = t.requester_id ∧ cpl.tag = t.tag := by
  refine ⟨t.createCrs ⟨d.bus, 0, 0⟩, ?_, show TlpType.ofPair 0 10 = _ by decide, rfl, rfl, rfl⟩
  have hck : (t.createCrs ⟨d.bus, 0, 0⟩).check = .ok true := by
    have h : (t.createCrs ⟨d.bus, 0, 0⟩).fmtType = some .CPL := show TlpType.ofPair 0 10 = _ by decide
    unfold Tlp.check
    rw [h]
    simp only
    rw [show (t.createCrs ⟨d.bus, 0, 0⟩).fmt = 0 from rfl, show (t.createCrs ⟨d.bus, 0, 0⟩).length = 0 from rfl]
    rfl
  unfold UsDev.recv
  rw [ht]
  rcases hty with rfl | rfl <;> simp [TlpType.isCfg0, UsDev.recvCfg, hen, UsDev.answered, assertCheck_ok hck]

/-- C58: once it is enabled, the device takes the bus number from type 0 configuration requests, the first function with the device and function number of the request gets
it, and if there is none, the request is answered with an unsupported request completion. -/
theorem C58_config (d : UsDev) (t : Tlp) (ty : TlpType) (ht : t.fmtType = some ty) (hty : ty = .CFG_READ_0 ∨ ty = .CFG_WRITE_0) (hen : d.enable = true)
    (hc : t.check = .ok true) (hb : ∀ f ∈ d.fns, f.id.bus = d.bus) (hh : ∀ f ∈ d.fns, ty ∈ f.handlers) :
    ∃ d' : UsDev, d'.bus = t.completer_id.bus ∧ (∀ f ∈ d'.fns, f.id.bus = t.completer_id.bus) ∧
      ((∃ k f es, d.recv t = some (.ok (d', .function k es)) ∧ d.fns[k]? = some f ∧ f.id.device = t.completer_id.device ∧
          f.id.function = t.completer_id.function ∧ Taken ty t es ∧
          ∀ (i : Nat) (g : RFn), i < k → d.fns[i]? = some g → ¬ (g.id.device = t.completer_id.device ∧ g.id.function = t.completer_id.function)) ∨
        ((∀ f ∈ d.fns, ¬ (f.id.device = t.completer_id.device ∧ f.id.function = t.completer_id.function)) ∧
          ∃ cpl, d.recv t = some (.ok (d', .answer cpl)) ∧ IsUr cpl t ⟨t.completer_id.bus, 0, 0⟩)) := by
  have hr : d.recv t = some (d.recvCfg t) := by
    unfold UsDev.recv
    rw [ht]
    rcases hty with rfl | rfl <;> rfl
  obtain ⟨e1, e2⟩ := UsDev.setBus_fns d.toDev t.completer_id.bus hb
  have hid : ∀ f : RFn, ({ f.id with bus := t.completer_id.bus } : PcieId) = t.completer_id ↔
      f.id.device = t.completer_id.device ∧ f.id.function = t.completer_id.function := by
    intro f
    obtain ⟨⟨_, _, _⟩, _, _, _, _, _, _, _⟩ := f
    cases ht : t.completer_id
    simp
  have hbus : ∀ f ∈ (d.toDev.setBus t.completer_id.bus).fns, f.id.bus = t.completer_id.bus := by
    rw [e2]
    intro f hf
    obtain ⟨g, _, rfl⟩ := List.mem_map.1 hf
    rfl
  rw [hr]
  unfold UsDev.recvCfg
  simp only [hen, if_true]
  cases hfi : UsDev.findId t.completer_id 0 (d.toDev.setBus t.completer_id.bus).fns with
  | none =>
    have hn := UsDev.findId_none hfi
    refine ⟨{ toDev := d.toDev.setBus t.completer_id.bus, enable := true }, e1, hbus, .inr ⟨fun f hf hx => ?_, _, ?_, createUr_isUr t ⟨t.completer_id.bus, 0, 0⟩⟩⟩
    · refine hn { f with id := { f.id with bus := t.completer_id.bus } } ?_ ((hid f).2 hx)
      rw [e2]
      exact List.mem_map.2 ⟨f, hf, rfl⟩
    · simp only [UsDev.answered, e1, assertCheck_ok (createUr_check _ _)]
  | some k =>
    obtain ⟨f', _, h2, h3, h4⟩ := UsDev.findId_some hfi
    rw [Nat.sub_zero] at h2 h4
    simp only [h2]
    rw [e2, List.getElem?_map] at h2
    obtain ⟨f, hf, rfl⟩ := Option.map_eq_some_iff.1 h2
    have hmem : f ∈ d.fns := List.mem_of_getElem? hf
    have hcpl : Completion ty = false := by rcases hty with rfl | rfl <;> rfl
    obtain ⟨f', es, he, hi, htk⟩ := UsDev.fn_recv { f with id := { f.id with bus := t.completer_id.bus } } ht hc
      (by unfold Prepared; rw [hcpl]; exact hh f hmem)
    have hx := (hid f).1 h3
    rw [he]
    refine ⟨{ toDev := { d.toDev.setBus t.completer_id.bus with fns := (d.toDev.setBus t.completer_id.bus).fns.set k f' }, enable := true }, e1, fun g hg => ?_,
      .inl ⟨k, f, es, rfl, hf, hx.1, hx.2, htk, fun i g hi hg hxg => ?_⟩⟩
    · rcases List.mem_or_eq_of_mem_set hg with hg | rfl
      · exact hbus g hg
      · rw [hi]
    · refine h4 i { g with id := { g.id with bus := t.completer_id.bus } } hi ?_ ((hid g).2 hxg)
      rw [e2, List.getElem?_map, hg]
      rfl

/- The hypotheses can be met. -/
example := C58_config cqTwo { fmt := 0, type := 4, length := 1, completer_id := ⟨7, 0, 1⟩, first_be := 15, address := 16 } .CFG_READ_0 (by decide) (.inl rfl) rfl (by decide +kernel)
  (by decide) (by decide)
example := C58_not_ready { cqTwo with enable := false } { fmt := 0, type := 4, length := 1, completer_id := ⟨7, 0, 1⟩, first_be := 15, address := 16 } .CFG_READ_0 (by decide)
  (.inl rfl) rfl

/-! ### In which order, and when -/

theorem cq_sub {s : Cq} (h : Inv s) : ∀ u ∈ cqSent s.hist, u ∈ cqArrived s.hist := by
  intro u hu
  obtain ⟨P, hc⟩ := h.core
  rw [hc.arrived]
  refine List.mem_append_left _ ?_
  have hm : u ∈ cqSent s.hist ++ s.flight := List.mem_append_left _ hu
  cases hn : isNp u with
  | true =>
    have : u ∈ npOf P := by rw [hc.np]; exact List.mem_append_left _ (List.mem_filter.2 ⟨hm, hn⟩)
    exact (List.mem_filter.1 this).1
  | false =>
    have : u ∈ poOf P := by rw [hc.po]; exact List.mem_filter.2 ⟨hm, by simp [hn]⟩
    exact (List.mem_filter.1 this).1

theorem cq_nonposted {l : List UsTlp} (h : ∀ u ∈ l, Addressed u) : nonposted l = npOf l :=
  List.filter_congr fun u hu => (h u hu).np.symm

theorem cq_posted {l : List UsTlp} (h : ∀ u ∈ l, Addressed u) : posted l = poOf l :=
  List.filter_congr fun u hu => by rw [(h u hu).np]

theorem cq_typed {s : Cq} (h : Inv s) : (∀ u ∈ cqArrived s.hist, Addressed u) ∧ ∀ u ∈ cqSent s.hist, Addressed u := by
  have h1 : ∀ u ∈ cqArrived s.hist, Addressed u := by obtain ⟨P, hc⟩ := h.core; exact hc.type
  exact ⟨h1, fun u hu => h1 u (cq_sub h u hu)⟩

/-- C58: the posted requests are handed to the user in the order in which they arrived, and so are the non-posted ones; none is lost or duplicated: what is missing is still
waiting. -/
theorem C58_order (d : UsDev) (es : List CqEv) (s : Cq) (h : Cq.run { dev := d } es = some (.ok s)) :
    posted (cqSent s.hist) <+: posted (cqArrived s.hist) ∧ nonposted (cqSent s.hist) <+: nonposted (cqArrived s.hist) := by
  have hi := run_inv es _ s (init_inv d) h
  obtain ⟨t1, t2⟩ := cq_typed hi
  obtain ⟨P, hc⟩ := hi.core
  rw [cq_posted t1, cq_posted t2, cq_nonposted t1, cq_nonposted t2, hc.arrived]
  refine ⟨?_, ?_⟩
  · rw [poOf_append, hc.po, poOf_append, List.append_assoc]
    exact List.prefix_append ..
  · rw [npOf_append, hc.np, npOf_append, List.append_assoc, List.append_assoc]
    exact List.prefix_append ..

/-- C58: a non-posted request does not pass a posted one: when it is handed to the user, the posted requests that arrived before it have been handed over. -/
theorem C58_no_pass (d : UsDev) (es : List CqEv) (s : Cq) (h : Cq.run { dev := d } es = some (.ok s))
    (S1 S2 A1 A2 : List UsTlp) (a b : UsTlp) (hS : cqSent s.hist = S1 ++ b :: S2) (hA : cqArrived s.hist = A1 ++ a :: A2)
    (ha : a.tlp.isNonposted = true) (hb : b.tlp.isNonposted = true) (hn : (nonposted A1).length = (nonposted S1).length) :
    a = b ∧ posted A1 <+: posted S1 := by
  have ho := C58_order d es s h
  have hi := run_inv es _ s (init_inv d) h
  obtain ⟨t1, t2⟩ := cq_typed hi
  obtain ⟨P, hc⟩ := hi.core
  have sub1 : ∀ u ∈ A1, Addressed u := fun u hu => t1 u (by rw [hA]; exact List.mem_append_left _ hu)
  have sub2 : ∀ u ∈ S1, Addressed u := fun u hu => t2 u (by rw [hS]; exact List.mem_append_left _ hu)
  have ta : Addressed a := t1 a (by rw [hA]; simp)
  have tb : Addressed b := t2 b (by rw [hS]; simp)
  have hle : (posted A1).length ≤ (posted S1).length := by
    rw [cq_posted sub1, cq_posted sub2]
    refine hc.pass S1 b (S2 ++ s.flight) (by rw [hS]; simp) (by rw [tb.np]; exact hb) A1 a A2 hA (by rw [ta.np]; exact ha) ?_
    rw [← cq_nonposted sub1, ← cq_nonposted sub2]
    exact hn
  rw [hS, hA] at ho
  have e1 : ∀ (l l' : List UsTlp), nonposted (l ++ l') = nonposted l ++ nonposted l' := fun l l' => List.filter_append ..
  have e2 : ∀ (l l' : List UsTlp), posted (l ++ l') = posted l ++ posted l' := fun l l' => List.filter_append ..
  have e3 : ∀ (x : UsTlp) (l : List UsTlp), x.tlp.isNonposted = true → nonposted (x :: l) = x :: nonposted l := fun x l hx => List.filter_cons_of_pos hx
  refine ⟨?_, ?_⟩
  · obtain ⟨r, hr⟩ := ho.2
    rw [e1, e1, e3 _ _ ha, e3 _ _ hb, List.append_assoc] at hr
    have := (List.append_inj hr hn.symm).2
    simp only [List.cons_append, List.cons.injEq] at this
    exact this.1.symm
  · have p1 : posted A1 <+: posted (A1 ++ a :: A2) := by rw [e2]; exact List.prefix_append ..
    have p2 : posted S1 <+: posted (A1 ++ a :: A2) := List.IsPrefix.trans (by rw [e2]; exact List.prefix_append ..) ho.1
    exact List.prefix_of_prefix_length_le p1 p2 hle

/-- C58: every non-posted request handed over has been asked for, one for each clock edge with `pcie_cq_np_req` high; the count shown to the user never promises more, and
is at most 32. -/
theorem C58_credits (d : UsDev) (es : List CqEv) (s : Cq) (h : Cq.run { dev := d } es = some (.ok s)) :
    (nonposted (cqSent s.hist)).length ≤ cqGrants s.hist ∧
      (s.st = .idle → (nonposted (cqSent s.hist)).length + s.out ≤ cqGrants s.hist ∧ s.out ≤ 32) := by
  have hi := run_inv es _ s (init_inv d) h
  obtain ⟨t1, t2⟩ := cq_typed hi
  obtain ⟨P, hc⟩ := hi.core
  have := hc.credit
  have := hc.count
  rw [cq_nonposted t2]
  rw [npOf_append, List.length_append] at *
  refine ⟨by omega, fun hid => ?_⟩
  rw [hi.out hid]
  omega

/-- C58: the frames on the streaming interface are the packed requests. -/
theorem C58_frames (d : UsDev) (es : List CqEv) (s : Cq) (h : Cq.run { dev := d } es = some (.ok s)) :
    (cqSent s.hist).map UsTlp.packCq = (cqFrames s.hist).map .ok := by
  have hi := run_inv es _ s (init_inv d) h
  obtain ⟨P, hc⟩ := hi.core
  have : ∀ l : List CqObs, (∀ u f, CqObs.sent u f ∈ l → u.packCq = .ok f) → (cqSent l).map UsTlp.packCq = (cqFrames l).map .ok := by
    intro l
    induction l with
    | nil => intro _; rfl
    | cons x l ih =>
      intro hl
      have ih := ih fun u f hm => hl u f (List.mem_cons_of_mem _ hm)
      cases x with
      | sent u f =>
        show u.packCq :: (cqSent l).map UsTlp.packCq = .ok f :: (cqFrames l).map .ok
        rw [hl u f List.mem_cons_self, ih]
      | _ => exact ih
  exact this s.hist hc.frames

/-- C58: posted requests need no credits, and non-posted requests only wait for them: after a clock edge, if the interface takes what it is given, all posted requests have
been handed over, and as many of the non-posted ones as the count shown to the user before and this clock edge allow. -/
theorem C58_prompt (d : UsDev) (es : List CqEv) (s : Cq) (b : Bool) (h : Cq.run { dev := d } es = some (.ok s)) (hst : s.st = .idle)
    (hp : ∀ u ∈ cqArrived s.hist, u.tlp.data.length % 4 = 0) :
    ∃ k s', s.run (.clock b :: List.replicate k .taken) = some (.ok s') ∧ s'.st = .idle ∧ cqArrived s'.hist = cqArrived s.hist ∧
      posted (cqSent s'.hist) = posted (cqArrived s.hist) ∧
      (nonposted (cqSent s'.hist)).length = min (nonposted (cqArrived s.hist)).length
        ((nonposted (cqSent s.hist)).length + if b then min (s.out + 1) 32 else s.out) := by
  have hi := run_inv es _ s (init_inv d) h
  obtain ⟨k, s', e, h1, h2, h3, h4, h5⟩ := flush_clock s b hi hp hst
  have hi' := run_inv _ _ s' hi e
  obtain ⟨t1, t2⟩ := cq_typed hi
  obtain ⟨t1', t2'⟩ := cq_typed hi'
  obtain ⟨P, hc⟩ := hi'.core
  have hfl : s'.flight = [] := by simp only [flight, h1]
  have ha := hc.arrived
  rw [h2, List.append_nil] at ha
  have hnp := hc.np
  have hpo := hc.po
  rw [hfl, List.append_nil] at hnp hpo
  refine ⟨k, s', e, h1, h4, ?_, ?_⟩
  · rw [cq_posted t1, cq_posted t2', ← h4, ha]; exact hpo.symm
  · rw [cq_nonposted t1, cq_nonposted t2, cq_nonposted t2', ← h4, ha, hnp, hi.out hst, ← h5, List.length_append]
    have hr := hi'.rest (by rw [h1]; nofun)
    by_cases hz : 0 < s'.count
    · rw [hr hz]; simp
    · have : s'.count = 0 := by omega
      omega

/-- C58: nothing is stuck: if the user keeps asking and the interface takes what it is given, all requests are handed over. -/
theorem C58_eventually (d : UsDev) (es : List CqEv) (s : Cq) (h : Cq.run { dev := d } es = some (.ok s)) (hst : s.st = .idle)
    (hp : ∀ u ∈ cqArrived s.hist, u.tlp.data.length % 4 = 0) :
    ∃ es' s', (∀ e ∈ es', e = .clock true ∨ e = .taken) ∧ s.run es' = some (.ok s') ∧ cqArrived s'.hist = cqArrived s.hist ∧
      posted (cqSent s'.hist) = posted (cqArrived s.hist) ∧ nonposted (cqSent s'.hist) = nonposted (cqArrived s.hist) := by
  have app : ∀ (es1 es2 : List CqEv) (s1 s2 : Cq), s1.run es1 = some (.ok s2) → s1.run (es1 ++ es2) = s2.run es2 := by
    intro es1
    induction es1 with
    | nil => intro es2 s1 s2 e; cases e; rfl
    | cons x es1 ih =>
      intro es2 s1 s2 e
      unfold Cq.run at e
      show Cq.run s1 (x :: (es1 ++ es2)) = _
      conv => lhs; unfold Cq.run
      cases hx : s1.step x with
      | none => rw [hx] at e; cases e
      | some r =>
        cases r with
        | error y => rw [hx] at e; cases e
        | ok s3 => rw [hx] at e; exact ih es2 s3 s2 e
  generalize hn : (nonposted (cqArrived s.hist)).length - (nonposted (cqSent s.hist)).length = n
  induction n using Nat.strongRecOn generalizing es s with
  | _ n ih =>
    obtain ⟨k, s', e, h1, h2, h3, h4⟩ := C58_prompt d es s true h hst hp
    have hevs : ∀ e ∈ (CqEv.clock true :: List.replicate k CqEv.taken), e = .clock true ∨ e = .taken := by
      intro e he
      rcases List.mem_cons.1 he with rfl | he
      · exact .inl rfl
      · exact .inr (List.eq_of_mem_replicate he)
    have hrun : Cq.run { dev := d } (es ++ (CqEv.clock true :: List.replicate k CqEv.taken)) = some (.ok s') := by rw [app es _ _ s h]; exact e
    have ho := (C58_order d _ s' hrun).2
    have ho0 := (C58_order d _ s h).2.length_le
    by_cases hz : (nonposted (cqSent s'.hist)).length = (nonposted (cqArrived s.hist)).length
    · refine ⟨_, s', hevs, e, h2, h3, ?_⟩
      rw [h2] at ho
      exact ho.eq_of_length hz
    · simp only [if_true] at h4
      have hpos : 1 ≤ min (s.out + 1) 32 := by omega
      obtain ⟨es', s2, q1, q2, q3, q4, q5⟩ := ih ((nonposted (cqArrived s'.hist)).length - (nonposted (cqSent s'.hist)).length) (by rw [h2]; omega) _ s' hrun h1
        (by rw [h2]; exact hp) rfl
      refine ⟨_, s2, ?_, (app _ es' s s' e).trans q2, q3.trans h2, by rw [q4, h2], by rw [q5, h2]⟩
      intro x hx
      rcases List.mem_append.1 hx with hx | hx
      · exact hevs x hx
      · exact q1 x hx

/-- Four requests arrive: a read, a write, a read and a write; the user asks for one non-posted request. -/
def cqEvs : List CqEv :=
  [.recv (cqRead 0x10000000), .recv (cqWrite 0x10000004), .recv (cqRead 0x10000008), .recv (cqWrite 0x1000000c), .clock true, .taken, .taken, .taken]

/- The hypotheses can be met: in this history, the first read and both writes are handed over; the other read has to wait. -/
example : (Cq.run { dev := cqTwo } cqEvs).bind (fun r => r.toOption.map fun s =>
      (s.st, (cqSent s.hist).map (·.tlp.address), (cqArrived s.hist).map (·.tlp.address), cqGrants s.hist)) =
    some (.idle, [0x10000000, 0x10000004, 0x1000000c], [0x10000000, 0x10000004, 0x10000008, 0x1000000c], 1) := by decide +kernel

/-- Five writes and a read arrive and the user does not take data for a while. (The streaming interface has room for three frames besides the one being sent, so that the task
waits with the fifth.) Meanwhile the user asks for a non-posted request. -/
def cqStall : List CqEv :=
  [.recv (cqWrite 0x10000000), .recv (cqWrite 0x10000004), .recv (cqWrite 0x10000008), .recv (cqWrite 0x1000000c), .recv (cqWrite 0x10000010),
    .recv (cqRead 0x10000014), .clock false, .taken, .taken, .taken, .clock false, .taken, .clock true, .taken]

/-- C58 fails: clock edges with `pcie_cq_np_req` high do not count while the task waits for the streaming interface: the read that the user has asked for is not handed over, however
long the user waits. -/
theorem C58_stall_violated : ∃ s, Cq.run { dev := cqTwo } cqStall = some (.ok s) ∧ s.st = .idle ∧ cqGrants s.hist = 1 ∧ nonposted (cqSent s.hist) = [] ∧
    (nonposted (cqArrived s.hist)).length = 1 ∧ ∀ n, s.run (List.replicate n (.clock false)) = some (.ok s) := by
  have key : ∃ s, (Cq.run { dev := cqTwo } cqStall).bind (·.toOption) = some s ∧ s.st = .idle ∧ cqGrants s.hist = 1 ∧ nonposted (cqSent s.hist) = [] ∧
      (nonposted (cqArrived s.hist)).length = 1 ∧ (s.step (.clock false)).bind (·.toOption) = some s := by
    cases hr : (Cq.run { dev := cqTwo } cqStall).bind (·.toOption) with
    | none => exact absurd hr (by decide +kernel)
    | some s =>
      refine ⟨s, rfl, ?_⟩
      have : s = ((Cq.run { dev := cqTwo } cqStall).bind (·.toOption)).getD {} := by rw [hr]; rfl
      rw [this]
      decide +kernel
  have lift : ∀ (x : Option (Py Cq)) (s : Cq), x.bind (·.toOption) = some s → x = some (.ok s) := by
    intro x s h
    match x, h with
    | some (.ok y), h => cases h; rfl
  obtain ⟨s, h1, h2, h3, h4, h5, h6⟩ := key
  refine ⟨s, lift _ s h1, h2, h3, h4, h5, fun n => ?_⟩
  induction n with
  | zero => rfl
  | succ n ih =>
    show Cq.run s (.clock false :: List.replicate n (.clock false)) = _
    unfold Cq.run
    rw [lift _ s h6]
    exact ih

end Pcie
