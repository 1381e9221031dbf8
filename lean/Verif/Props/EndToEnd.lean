/-
C55: memory and I/O accesses from one end of a hierarchy to the other, after enumeration.
-/
import Verif.Lemmas.EndToEnd
import Verif.Lemmas.HierEx

namespace Pcie
open Spec HierEx
variable {σ : Type}

section
variable {ops : CapOps σ} {fuel : Nat} {host : BrFn σ} {ports : Ports σ} {rs : List Region} {n : Node σ} {l : Limits}
  (hR : AfterReset host ports rs) (hd : depth ports.bus < fuel) (he : enumerateAll ops fuel host ports = .ok (n, l)) (hl : Fits l)
include hR hd he hl

private theorem window_facts {q : List Nat} {k : Nat} {g : EpFn σ} {ws : List Window} {r : Option (Nat × Nat)} {w : Window} (hg : FnAt n q k g)
    (hf : FnRes 6 g.toCommon ws r) (hw : w ∈ ws) : 2 ≤ w.k ∧ w.base % 2 ^ w.k = 0 ∧ ∀ a, w.contains a = true →
      matchBar g.bars a w.io = .ok (some (w.idx, a - w.base)) ∧ EpFn.For g (if w.io then .io a else .mem a) ∧
      Sound (if w.io then .io a else .mem a) := by
  obtain ⟨ws', r', h1, h2⟩ := C54_windows_partial hR hd he hl hg
  cases layout_unique 0 _ _ _ hf.lay h1.lay
  have := layout_facts 0 _ _ hf.lay w hw
  exact ⟨this.1, this.2, fun a ha => ⟨(h2 w hw a ha).1, (h2 w hw a ha).2.1, (h2 w hw a ha).2.2.1⟩⟩

/-- C55: after `enumerate`, a memory read by the root complex or by any function of an address range in a BAR of a function of
another device returns the bytes of the region behind the BAR, through all switches between them, however the read is split
into requests and completions. Missing: regions whose size is not a multiple of four (see `C55_odd_region_violated`), and more
than 3 GiB of prefetchable memory (`C54_alias_violated`). -/
theorem C55_region_read_partial {s : Sys σ} (hs : s.net = n) {a : Agent} {c : ReqCfg} (ha : AgentIs n c.id a) {q : List Nat} {k : Nat}
    {g : EpFn σ} (hg : FnAt n q k g) (ho : OtherDevice q a) (hh : MemHandlers g.handlers) {ws : List Window} {r : Option (Nat × Nat)}
    (hf : FnRes 6 g.toCommon ws r) {w : Window} (hw : w ∈ ws) (hio : w.io = false) {b : Buf} (hb : RegionOf s q k w b) (hdw : b.size % 4 = 0)
    {tag : Tlp → Nat} (htag : ∀ t, tag t < 256) (hbm : c.busMasterEnable = true) {addr length : Nat} (attr tc : Nat) (h0 : 0 < length)
    (hlo : w.base ≤ addr) (hhi : addr + length ≤ w.base + b.size) :
    ∃ bytes, s.memRead a c tag addr length attr tc = .ok bytes ∧ Holds b.mem (addr - w.base) length bytes := by
  obtain ⟨h1, h2, h3⟩ := window_facts hR hd he hl hg hf hw
  rw [hio] at h3
  exact Sys.memRead_fn (hs ▸ enumerated_carries hR hd he hl ha hg ho) htag hb.buf hb.size hdw h2 h1 hh h3 hbm h0 hlo hhi

/-- C55: a memory write by the root complex or by any function to an address range in a BAR of a function of another device
replaces these bytes of the region behind the BAR, and changes nothing else in the system. -/
theorem C55_region_write_partial {s : Sys σ} (hs : s.net = n) {a : Agent} {c : ReqCfg} (ha : AgentIs n c.id a) {q : List Nat} {k : Nat}
    {g : EpFn σ} (hg : FnAt n q k g) (ho : OtherDevice q a) (hh : MemHandlers g.handlers) {ws : List Window} {r : Option (Nat × Nat)}
    (hf : FnRes 6 g.toCommon ws r) {w : Window} (hw : w ∈ ws) (hio : w.io = false) {b : Buf} (hb : RegionOf s q k w b)
    (hbm : c.busMasterEnable = true) {addr : Nat} {data : List UInt8} (attr tc : Nat) (h0 : data ≠ [])
    (hlo : w.base ≤ addr) (hhi : addr + data.length ≤ w.base + b.size) :
    ∃ m', s.memWrite a c addr data attr tc = .ok (withRegion s q k w.idx ⟨b.size, m'⟩) ∧ Replaced b.mem m' (addr - w.base) data := by
  obtain ⟨h1, h2, h3⟩ := window_facts hR hd he hl hg hf hw
  rw [hio] at h3
  exact Sys.memWrite_fn (hs ▸ enumerated_carries hR hd he hl ha hg ho) hb.buf hb.size h2 h1 hh h3 hbm h0 hlo hhi

/-- C55: what one agent has written to a BAR, any agent reads back. -/
theorem C55_region_roundtrip_partial {s : Sys σ} (hs : s.net = n) {a a' : Agent} {c c' : ReqCfg} (ha : AgentIs n c.id a) (ha' : AgentIs n c'.id a')
    {q : List Nat} {k : Nat} {g : EpFn σ} (hg : FnAt n q k g) (ho : OtherDevice q a) (ho' : OtherDevice q a') (hh : MemHandlers g.handlers)
    {ws : List Window} {r : Option (Nat × Nat)} (hf : FnRes 6 g.toCommon ws r) {w : Window} (hw : w ∈ ws) (hio : w.io = false) {b : Buf}
    (hb : RegionOf s q k w b) (hdw : b.size % 4 = 0) {tag : Tlp → Nat} (htag : ∀ t, tag t < 256) (hbm : c.busMasterEnable = true)
    (hbm' : c'.busMasterEnable = true) {addr : Nat} {data : List UInt8} (attr tc attr' tc' : Nat) (h0 : data ≠ []) (hlo : w.base ≤ addr)
    (hhi : addr + data.length ≤ w.base + b.size) :
    ∃ s', s.memWrite a c addr data attr tc = .ok s' ∧ s'.memRead a' c' tag addr data.length attr' tc' = .ok data := by
  obtain ⟨m', e, h⟩ := C55_region_write_partial hR hd he hl hs ha hg ho hh hf hw hio hb hbm attr tc h0 hlo hhi
  refine ⟨_, e, ?_⟩
  have hb' : RegionOf (withRegion s q k w.idx ⟨b.size, m'⟩) q k w ⟨b.size, m'⟩ := by
    refine ⟨?_, hb.size⟩
    simp only [withRegion, and_self, if_true]
    rw [List.getElem?_set_self]
    exact (List.getElem?_eq_some_iff.1 hb.buf).1
  obtain ⟨bytes, e', h1, h2⟩ := C55_region_read_partial hR hd he hl (s := withRegion s q k w.idx ⟨b.size, m'⟩) hs ha' hg ho' hh hf hw hio hb' hdw htag
    hbm' attr' tc' (Nat.pos_of_ne_zero fun h => h0 (List.length_eq_zero_iff.1 h)) hlo hhi
  rw [e']
  congr 1
  refine List.ext_getElem h1 fun i hi hi' => ?_
  rw [h2 i hi]
  exact h.1 i hi'

/-- C55: a memory read by a function from the memory of the root complex returns its bytes. Missing: the first address behind
each range of the host bridge (`C54_host_limit_violated`), and addresses that a 32-bit BAR could mistake for its own. -/
theorem C55_host_read_partial {s : Sys σ} (hs : s.net = n) {q : List Nat} {k : Nat} {f : EpFn σ} (hg : FnAt n q k f) {c : ReqCfg} (hid : c.id = f.id)
    {tag : Tlp → Nat} (htag : ∀ t, tag t < 256) (hbm : c.busMasterEnable = true) {addr length : Nat} (attr tc : Nat) (h0 : 0 < length)
    (hr : ∀ x, addr / 4 * 4 ≤ x → x < addr + length → Sound (.mem x) ∧ ForRoot l (.mem x))
    (hcov : ∀ x m, addr / 4 * 4 ≤ x → x + m ≤ (addr + length + 3) / 4 * 4 → s.mem.covers x m = true ∧ s.mem.readOk x m = true) :
    ∃ bytes, s.memRead (.fn q k) c tag addr length attr tc = .ok bytes ∧ Holds s.mem.mem addr length bytes :=
  Sys.memRead_root (by rw [hs, hid]; exact enumerated_carriesUp hR hd he hl hg) htag hbm h0 hr (fun x m h1 h2 => (hcov x m h1 h2).1)
    (fun x m h1 h2 => (hcov x m h1 h2).2)

/-- C55: a memory write by a function to the memory of the root complex replaces these bytes, and changes nothing else. -/
theorem C55_host_write_partial {s : Sys σ} (hs : s.net = n) {q : List Nat} {k : Nat} {f : EpFn σ} (hg : FnAt n q k f) {c : ReqCfg} (hid : c.id = f.id)
    (hbm : c.busMasterEnable = true) {addr : Nat} {data : List UInt8} (attr tc : Nat) (h0 : data ≠ [])
    (hr : ∀ x, addr / 4 * 4 ≤ x → x < addr + data.length → Sound (.mem x) ∧ ForRoot l (.mem x))
    (hcov : ∀ x m, addr / 4 * 4 ≤ x → x + m ≤ (addr + data.length + 3) / 4 * 4 → s.mem.covers x m = true)
    (hok : ∀ x m, addr ≤ x → x + m ≤ addr + data.length → s.mem.writeOk x m = true) :
    ∃ m', s.memWrite (.fn q k) c addr data attr tc = .ok { s with mem := { s.mem with mem := m' } } ∧ Replaced s.mem.mem m' addr data :=
  Sys.memWrite_root (by rw [hs, hid]; exact enumerated_carriesUp hR hd he hl hg) hbm h0 hr hcov hok

/-- C55: an I/O read of a range in an I/O BAR of a function of another device returns the bytes of the region behind it. -/
theorem C55_io_region_read {s : Sys σ} (hs : s.net = n) {a : Agent} {c : ReqCfg} (ha : AgentIs n c.id a) {q : List Nat} {k : Nat}
    {g : EpFn σ} (hg : FnAt n q k g) (ho : OtherDevice q a) (hh : MemHandlers g.handlers) {ws : List Window} {r : Option (Nat × Nat)}
    (hf : FnRes 6 g.toCommon ws r) {w : Window} (hw : w ∈ ws) (hio : w.io = true) {b : Buf} (hb : RegionOf s q k w b)
    {tag : Tlp → Nat} (htag : ∀ t, tag t < 256) (hbm : c.busMasterEnable = true) {addr length : Nat} (h0 : 0 < length)
    (hlo : w.base ≤ addr) (hhi : addr + length ≤ w.base + b.size) :
    ∃ bytes, s.ioRead a c tag addr length = .ok bytes ∧ Holds b.mem (addr - w.base) length bytes := by
  obtain ⟨h1, h2, h3⟩ := window_facts hR hd he hl hg hf hw
  rw [hio] at h3
  exact Sys.ioRead_fn (hs ▸ enumerated_carries hR hd he hl ha hg ho) htag hb.buf hb.size h2 h1 hh h3 hbm h0 hlo hhi

/-- C55: an I/O write to a range in an I/O BAR of a function of another device replaces these bytes of the region behind it,
and changes nothing else in the system. -/
theorem C55_io_region_write {s : Sys σ} (hs : s.net = n) {a : Agent} {c : ReqCfg} (ha : AgentIs n c.id a) {q : List Nat} {k : Nat}
    {g : EpFn σ} (hg : FnAt n q k g) (ho : OtherDevice q a) (hh : MemHandlers g.handlers) {ws : List Window} {r : Option (Nat × Nat)}
    (hf : FnRes 6 g.toCommon ws r) {w : Window} (hw : w ∈ ws) (hio : w.io = true) {b : Buf} (hb : RegionOf s q k w b)
    {tag : Tlp → Nat} (htag : ∀ t, tag t < 256) (hbm : c.busMasterEnable = true) {addr : Nat} {data : List UInt8} (h0 : data ≠ [])
    (hlo : w.base ≤ addr) (hhi : addr + data.length ≤ w.base + b.size) :
    ∃ m', s.ioWrite a c tag addr data = .ok (withRegion s q k w.idx ⟨b.size, m'⟩) ∧ Replaced b.mem m' (addr - w.base) data := by
  obtain ⟨h1, h2, h3⟩ := window_facts hR hd he hl hg hf hw
  rw [hio] at h3
  exact Sys.ioWrite_fn (hs ▸ enumerated_carries hR hd he hl ha hg ho) htag hb.buf hb.size h2 h1 hh h3 hbm h0 hlo hhi

/-- C55: an I/O read by a function from the I/O space of the root complex. Missing as in `C55_host_read_partial`. -/
theorem C55_io_host_read_partial {s : Sys σ} (hs : s.net = n) {q : List Nat} {k : Nat} {f : EpFn σ} (hg : FnAt n q k f) {c : ReqCfg} (hid : c.id = f.id)
    {tag : Tlp → Nat} (htag : ∀ t, tag t < 256) (hbm : c.busMasterEnable = true) {addr length : Nat} (h0 : 0 < length)
    (hr : ∀ x, addr / 4 * 4 ≤ x → x < addr + length → Sound (.io x) ∧ ForRoot l (.io x))
    (hcov : ∀ x m, addr / 4 * 4 ≤ x → x + m ≤ (addr + length + 3) / 4 * 4 → s.io.covers x m = true)
    (hok : ∀ x m, addr ≤ x → x + m ≤ addr + length → s.io.readOk x m = true) :
    ∃ bytes, s.ioRead (.fn q k) c tag addr length = .ok bytes ∧ Holds s.io.mem addr length bytes :=
  Sys.ioRead_root (by rw [hs, hid]; exact enumerated_carriesUp hR hd he hl hg) htag hbm h0 hr hcov hok

/-- C55: an I/O write by a function to the I/O space of the root complex. -/
theorem C55_io_host_write_partial {s : Sys σ} (hs : s.net = n) {q : List Nat} {k : Nat} {f : EpFn σ} (hg : FnAt n q k f) {c : ReqCfg} (hid : c.id = f.id)
    {tag : Tlp → Nat} (htag : ∀ t, tag t < 256) (hbm : c.busMasterEnable = true) {addr : Nat} {data : List UInt8} (h0 : data ≠ [])
    (hr : ∀ x, addr / 4 * 4 ≤ x → x < addr + data.length → Sound (.io x) ∧ ForRoot l (.io x))
    (hcov : ∀ x m, addr / 4 * 4 ≤ x → x + m ≤ (addr + data.length + 3) / 4 * 4 → s.io.covers x m = true)
    (hok : ∀ x m, addr ≤ x → x + m ≤ addr + data.length → s.io.writeOk x m = true) :
    ∃ m', s.ioWrite (.fn q k) c tag addr data = .ok { s with io := { s.io with mem := m' } } ∧ Replaced s.io.mem m' addr data :=
  Sys.ioWrite_root (by rw [hs, hid]; exact enumerated_carriesUp hR hd he hl hg) htag hbm h0 hr hcov hok

private theorem enumerated_refuses : Sys.Refuses n fun tg => Sound tg ∧ Nobody n tg := by
  intro t ty tg h1 h2 h3 h4 h5 s hs
  obtain ⟨fate, t', e, hi, h⟩ := C54_enumerated_unclaimed hR hd he hl h1 h2 h3 h4.1 h4.2.1 h4.2.2 h5
  subst hs
  exact Sys.request_nobody e hi h

/-- C55: a read by the root complex of addresses that nobody has does not return; it raises an exception. -/
theorem C55_nobody_read {s : Sys σ} (hs : s.net = n) {c : ReqCfg} (hid : c.id = ⟨0, 0, 0⟩) {tag : Tlp → Nat} {addr length : Nat} (attr tc : Nat)
    (h0 : 0 < length) :
    ((∀ x, addr / 4 * 4 ≤ x → x < addr + length → Sound (.mem x) ∧ Nobody n (.mem x)) →
      ∃ e, s.memRead .root c tag addr length attr tc = .error e) ∧
    ((∀ x, addr / 4 * 4 ≤ x → x < addr + length → Sound (.io x) ∧ Nobody n (.io x)) →
      ∃ e, s.ioRead .root c tag addr length = .error e) :=
  have R : Sys.Refuses s.net fun tg => Sound tg ∧ Nobody n tg := by rw [hs]; exact enumerated_refuses hR hd he hl
  ⟨fun hr => Sys.memRead_nobody R hid h0 hr, fun hr => Sys.ioRead_nobody R hid h0 hr⟩

/-- C55: a memory write by the root complex to addresses that nobody has changes nothing; an I/O write raises an exception. -/
theorem C55_nobody_write {s : Sys σ} (hs : s.net = n) {c : ReqCfg} (hid : c.id = ⟨0, 0, 0⟩) (hbm : c.busMasterEnable = true) {tag : Tlp → Nat}
    {addr : Nat} {data : List UInt8} (attr tc : Nat) (h0 : data ≠ []) :
    ((∀ x, addr / 4 * 4 ≤ x → x < addr + data.length → Sound (.mem x) ∧ Nobody n (.mem x)) →
      s.memWrite .root c addr data attr tc = .ok s) ∧
    ((∀ x, addr / 4 * 4 ≤ x → x < addr + data.length → Sound (.io x) ∧ Nobody n (.io x)) →
      ∃ e, s.ioWrite .root c tag addr data = .error e) :=
  have R : Sys.Refuses s.net fun tg => Sound tg ∧ Nobody n tg := by rw [hs]; exact enumerated_refuses hR hd he hl
  ⟨fun hr => Sys.memWrite_nobody R hid hbm h0 hr, fun hr => Sys.ioWrite_nobody R hid h0 hr⟩

end

/-! ### The hierarchy of `Lemmas/HierEx.lean` -/

/-- A system with the given hierarchy: all memory of the root complex, and full regions behind the BARs. -/
private def exSys (n : Node Unit) : Sys Unit :=
  { net := n, mem := { mem := fun i => UInt8.ofNat i }, io := { mem := fun i => UInt8.ofNat (i / 2) },
    regions := fun _ _ => [some ⟨0x1000, fun i => UInt8.ofNat (3 * i)⟩, some ⟨0x100, fun _ => 7⟩, some ⟨0x100000, fun i => UInt8.ofNat (i / 256)⟩] }

private theorem exHandlers {h : List TlpType} (e : h = (exFn 0).handlers) : MemHandlers h := by
  rw [e]; intro ty hty; revert ty; decide

/-- The root complex reads 5000 bytes of a BAR two switches down, a function reads 20 bytes of the I/O BAR of the other device;
functions write to the memory and I/O space of the root complex. -/
example : ∃ n, enumerateAll noCaps 5 exHost exPorts = .ok (n, exLim) ∧
    (∃ bytes, (exSys n).memRead .root {} (fun _ => 5) 0x8000000000200001 5000 = .ok bytes ∧ bytes.length = 5000) ∧
    (∃ bytes, (exSys n).ioRead (.fn [0, 0] 1) { id := ⟨3, 0, 1⟩ } (fun _ => 5) 0x80001003 20 = .ok bytes ∧ bytes.length = 20) ∧
    (∃ m', (exSys n).memWrite (.fn [0, 0] 1) { id := ⟨3, 0, 1⟩ } 0x1ffe [1, 2, 3] = .ok { exSys n with mem := { (exSys n).mem with mem := m' } } ∧
      m' 0x2000 = 3) ∧
    (∃ m', (exSys n).ioWrite (.fn [0, 2] 0) { id := ⟨5, 0, 0⟩ } (fun _ => 0) 0x1ffe [1, 2, 3] = .ok { exSys n with io := { (exSys n).io with mem := m' } } ∧
      m' 0x2000 = 3) := by
  obtain ⟨n, f, g, e, hf, hg, h1, h2, -, h4, h5, -, h7, h8⟩ := exRun
  have hd : depth exPorts.bus < 5 := by decide
  refine ⟨n, e, ?_, ?_, ?_, ?_⟩
  · obtain ⟨bytes, e1, e2⟩ := C55_region_read_partial exPorts_reset hd e exFits (s := exSys n) rfl (a := .root) (c := {}) rfl hg trivial (exHandlers h5) h8
      (w := ⟨2, false, true, 0x8000000000200000, 20⟩) (by simp) rfl (b := ⟨0x100000, fun i => UInt8.ofNat (i / 256)⟩) ⟨rfl, by decide⟩ (by decide)
      (tag := fun _ => 5) (fun _ => by decide) rfl (addr := 0x8000000000200001) (length := 5000) 0 0 (by decide) (by decide) (by decide)
    exact ⟨bytes, e1, e2.1⟩
  · obtain ⟨bytes, e1, e2⟩ := C55_io_region_read exPorts_reset hd e exFits (s := exSys n) rfl (a := .fn [0, 0] 1) (c := { id := ⟨3, 0, 1⟩ })
      ⟨f, hf, h1.symm⟩ hg (by simp [OtherDevice]) (exHandlers h5) h8
      (w := ⟨1, true, false, 0x80001000, 8⟩) (by simp) rfl (b := ⟨0x100, fun _ => 7⟩) ⟨rfl, by decide⟩
      (tag := fun _ => 5) (fun _ => by decide) rfl (addr := 0x80001003) (length := 20) (by decide) (by decide) (by decide)
    exact ⟨bytes, e1, e2.1⟩
  · obtain ⟨m', e1, e2⟩ := C55_host_write_partial exPorts_reset hd e exFits (s := exSys n) rfl hf (c := { id := ⟨3, 0, 1⟩ }) h1.symm rfl
      (addr := 0x1ffe) (data := [1, 2, 3]) 0 0 (by decide) (fun x i1 i2 => ⟨.inl (by simp at i2; omega), .inl (by simp at i2; omega), .inl (by simp at i2; omega)⟩)
      (fun _ _ _ _ => rfl) (fun _ _ _ _ => rfl)
    exact ⟨m', e1, e2.1 2 (by decide)⟩
  · obtain ⟨m', e1, e2⟩ := C55_io_host_write_partial exPorts_reset hd e exFits (s := exSys n) rfl hg (c := { id := ⟨5, 0, 0⟩ }) h4.symm
      (tag := fun _ => 0) (fun _ => by decide) rfl
      (addr := 0x1ffe) (data := [1, 2, 3]) (by decide) (fun x i1 i2 => ⟨by simp [Sound] at i2 ⊢; omega, .inl (by simp at i2; omega)⟩)
      (fun _ _ _ _ => rfl) (fun _ _ _ _ => rfl)
    exact ⟨m', e1, e2.1 2 (by decide)⟩

/-- What a function writes to the BAR of the other device, the root complex reads back. -/
example : ∃ n, enumerateAll noCaps 5 exHost exPorts = .ok (n, exLim) ∧
    ∃ s', (exSys n).memWrite (.fn [0, 0] 1) { id := ⟨3, 0, 1⟩ } 0xc0100ffd [1, 2] = .ok s' ∧ s'.memRead .root {} (fun _ => 9) 0xc0100ffd 2 = .ok [1, 2] := by
  obtain ⟨n, f, g, e, hf, hg, h1, h2, -, h4, h5, -, h7, h8⟩ := exRun
  exact ⟨n, e, C55_region_roundtrip_partial exPorts_reset (by decide) e exFits (s := exSys n) rfl (a := .fn [0, 0] 1) (a' := .root) (c := { id := ⟨3, 0, 1⟩ })
    (c' := {}) ⟨f, hf, h1.symm⟩ rfl hg (by simp [OtherDevice]) trivial (exHandlers h5) h8
    (w := ⟨0, false, false, 0xc0100000, 12⟩) (by simp) rfl (b := ⟨0x1000, fun i => UInt8.ofNat (3 * i)⟩) ⟨rfl, by decide⟩ (by decide)
    (tag := fun _ => 9) (fun _ => by decide) rfl rfl (addr := 0xc0100ffd) (data := [1, 2]) 0 0 0 0 (by decide) (by decide) (by decide)⟩

/-- An address between the BARs: nobody has it; the read of the root complex raises, the write is lost. -/
example : ∃ n, enumerateAll noCaps 5 exHost exPorts = .ok (n, exLim) ∧ (enumerateAll noCaps 5 exHost exPorts).toOption.any (fun p =>
    (match (exSys p.1).memRead .root {} (fun _ => 9) 0xc0102000 4 with | .error e => e == "Unsuccessful completion" | .ok _ => false) &&
    ((exSys p.1).memWrite .root {} 0xc0102000 [1, 2]).toOption.isSome) = true := by
  obtain ⟨n, f, g, e, -⟩ := exRun
  exact ⟨n, e, by decide +kernel⟩

/-! ### What goes wrong -/

/-- C55: the size of a region need not be a multiple of four (endpoint.py:184-199). A read of a byte in its last, partial dword
does not return the byte; it raises an exception. -/
theorem C55_odd_region_violated : ∃ (host : BrFn Unit) (ports : Ports Unit) (rs : List Region) (n : Node Unit) (l : Limits),
    AfterReset host ports rs ∧ depth ports.bus < 5 ∧ enumerateAll noCaps 5 host ports = .ok (n, l) ∧ Fits l ∧
    ∃ (s : Sys Unit) (g : EpFn Unit) (ws : List Window) (w : Window) (b : Buf), s.net = n ∧ FnAt n [0, 2] 0 g ∧ MemHandlers g.handlers ∧
      FnRes 6 g.toCommon ws none ∧ w ∈ ws ∧ w.io = false ∧ RegionOf s [0, 2] 0 w b ∧ b.size = 0xffe ∧
      ∃ e, s.memRead .root {} (fun _ => 9) (w.base + 0xffc) 1 = .error e := by
  obtain ⟨n, f, g, e, hf, hg, h1, h2, -, h4, h5, -, h7, h8⟩ := exRun
  have hq : (enumerateAll noCaps 5 exHost exPorts).toOption.any (fun p =>
      match ({ exSys p.1 with regions := fun _ _ => [some ⟨0xffe, fun _ => 7⟩] } : Sys Unit).memRead .root {} (fun _ => 9) 0xc0100ffc 1 with
      | .error _ => true
      | .ok _ => false) = true := by decide +kernel
  rw [e] at hq
  simp only [Except.toOption, Option.any_some] at hq
  refine ⟨exHost, exPorts, exRegs, n, exLim, exPorts_reset, by decide, e, exFits, { exSys n with regions := fun _ _ => [some ⟨0xffe, fun _ => 7⟩] }, g,
    _, ⟨0, false, false, 0xc0100000, 12⟩, ⟨0xffe, fun _ => 7⟩, rfl, hg, exHandlers h5, h8, by simp, rfl, ⟨rfl, by decide⟩, rfl, ?_⟩
  split at hq
  · next x hx => exact ⟨x, hx⟩
  · cases hq

end Pcie
