/-
C11 - C15, C20: memory transfers.
-/
import Verif.Lemmas.BeRange
import Verif.Model.System
namespace Pcie
open Tlp

/-! ### C11: memory writes -/

theorem storeTlp_stored (m : Mem) (t : Tlp) (off : Nat) (hd : t.data.length = 4 * t.length) :
    Spec.EnabledStored m (storeTlp m t off) t off := by
  constructor
  · intro i hi
    have hlt : i < t.data.length := by
      obtain ⟨-, h, -⟩ := hi
      rw [Nat.add_sub_cancel_left] at h; omega
    unfold storeTlp
    rw [if_pos ⟨by omega, by rw [Nat.add_sub_cancel_left, Nat.add_comm]; exact hi⟩, Nat.add_sub_cancel_left,
      List.getD_eq_getElem?_getD, List.getElem?_eq_getElem hlt]; rfl
  · intro a ha
    unfold storeTlp
    rw [if_neg]
    intro ⟨h1, h2⟩
    exact ha ⟨a - off, by omega, by rw [Nat.add_comm]; exact h2⟩

/-- C11, one write TLP with any byte enables at the root complex: exactly the enabled bytes change. -/
theorem C11_rc_write_tlp (s : AddrSpace) (t : Tlp) (hl : 1 ≤ t.length) (hd : t.data.length = 4 * t.length)
    (hb : t.address % 4096 + 4 * t.length ≤ 4096) (hc : s.covers t.address (t.length * 4) = true)
    (hw : ∀ a n, 0 < n → (∀ b, a ≤ b → b < a + n → Spec.byteEnabled t b) → s.writeOk a n = true) :
    ∃ m', Rc.handleMemWrite s t = { s with mem := m' } ∧ Spec.EnabledStored s.mem m' t t.address :=
  ⟨_, rc_memWrite_effect s t hl hd hb hc hw, storeTlp_stored _ _ _ hd⟩

/-- C11, one write TLP with any byte enables at a memory endpoint that maps `t.address` to offset `off` of region
`idx`: exactly the enabled bytes of that region change. -/
theorem C11_endpoint_write_tlp (e : MemEp) (t : Tlp) (idx off : Nat) (b : Buf)
    (hm : matchBar e.bars t.address = .ok (some (idx, off))) (hbuf : e.regions[idx]? = some (some b))
    (hl : 1 ≤ t.length) (hd : t.data.length = 4 * t.length) (hb : off % 4096 + 4 * t.length ≤ 4096)
    (hw : ∀ i, Spec.byteEnabled t (t.address + i) → off + i < b.size) :
    ∃ m', e.handleMemWrite t = .ok { e with regions := e.regions.set idx (some ⟨b.size, m'⟩) } ∧
      Spec.EnabledStored b.mem m' t off := by
  refine ⟨_, ep_memWrite_effect e t idx off b hm hbuf hl hd hb ?_, storeTlp_stored _ _ _ hd⟩
  intro a ha
  have h1 : t.address ≤ a := ha.1
  have := hw (a - t.address) (by rw [Nat.add_sub_cancel' h1]; exact ha)
  omega

/-- C11: writing `data` at `addr` through the memory interface of a device changes exactly the bytes
`addr .. addr+len(data)-1` of the root complex's address space, for every address, data, max payload size and prior
content. The hypotheses on the address space (outside /repo) only concern the addressed dwords. -/
theorem C11_rc_memory_write (c : ReqCfg) (s : AddrSpace) (addr : Nat) (data : List UInt8) (attr tc : Nat)
    (hbm : c.busMasterEnable = true)
    (hcov : ∀ a k, addr / 4 * 4 ≤ a → a + k ≤ (addr + data.length + 3) / 4 * 4 → s.covers a k = true)
    (hw : ∀ a k, addr ≤ a → a + k ≤ addr + data.length → s.writeOk a k = true) :
    ∃ tlps m', Region.write c addr data attr tc = .ok tlps ∧
      tlps.foldl Rc.handleMemWrite s = { s with mem := m' } ∧ Spec.Replaced s.mem m' addr data := by
  unfold Region.write
  simp only [hbm, not_true_eq_false, if_false]
  by_cases h0 : data.length = 0
  · refine ⟨_, s.mem, rfl, ?_, ?_⟩
    · simp only [h0, if_true, decide_true]
      rw [Region.writeLoop]
      simp only [List.length_cons, List.length_nil, Nat.zero_add, Nat.lt_add_one, dite_true]
      obtain ⟨l1, l2, -, -⟩ := Region.writeLen_facts c addr 1 (by omega)
      rw [show Region.writeLen c addr (1 - 0) = 1 by rw [Nat.sub_zero]; omega, Region.writeLoop]
      simp only [List.length_cons, List.length_nil, Nat.zero_add, Nat.lt_irrefl, dite_false, List.foldl_cons, List.foldl_nil]
      rw [show slice [(0 : UInt8)] 0 1 = [0] from rfl]
      have := (Region.writeTlp_fields c attr tc true addr [0] (by simp)).2.1
      rw [rc_memWrite_none _ _ (by rw [this]; simp; omega) (Region.writeTlp_zero c attr tc addr 0)]
    · have : data = [] := List.length_eq_zero_iff.1 h0
      subst this
      exact ⟨fun i h => absurd h (by simp), fun _ _ => rfl⟩
  · refine ⟨_, s.mem.write addr data, rfl, ?_, Mem.write_replaced ..⟩
    simp only [h0, if_false, decide_false]
    have := rc_writeLoop c attr tc data 0 addr (by omega) s (by simpa using hcov) (by simpa using hw)
    rw [this, List.drop_zero]

/-- The hypotheses of `C11_rc_memory_write` hold for an unaligned 9-byte write with 128-byte payloads; the write of the
model does what the theorem says there. -/
example : ∃ tlps m', Region.write {} 0xffd [1, 2, 3, 4, 5, 6, 7, 8, 9] 0 0 = .ok tlps ∧
    tlps.foldl Rc.handleMemWrite { mem := fun _ => 0 } = { mem := m' } ∧
    Spec.Replaced (fun _ => 0) m' 0xffd [1, 2, 3, 4, 5, 6, 7, 8, 9] :=
  C11_rc_memory_write {} { mem := fun _ => 0 } 0xffd [1, 2, 3, 4, 5, 6, 7, 8, 9] 0 0 rfl (fun _ _ _ _ => rfl) (fun _ _ _ _ => rfl)

/-- C11: writing `data` at bus address `addr` through the root complex changes exactly the bytes
`addr .. addr+len(data)-1` of the endpoint region `b` that is mapped at `base`; everything else of the endpoint is
unchanged. -/
theorem C11_endpoint_memory_write (c : ReqCfg) (e : MemEp) (idx base k : Nat) (b : Buf) (addr : Nat)
    (data : List UInt8) (attr tc : Nat) (hbm : c.busMasterEnable = true)
    (hcl : Spec.ClaimsMem e.bars idx base k) (hk : 2 ≤ k) (hal : base % 2 ^ k = 0)
    (hbuf : e.regions[idx]? = some (some b)) (hsz : b.size ≤ 2 ^ k)
    (hlo : base ≤ addr) (hhi : addr + data.length ≤ base + b.size) (hne : data ≠ []) :
    ∃ tlps m', Region.write c addr data attr tc = .ok tlps ∧
      tlps.foldlM MemEp.handleMemWrite e = .ok { e with regions := e.regions.set idx (some ⟨b.size, m'⟩) } ∧
      Spec.Replaced b.mem m' (addr - base) data := by
  unfold Region.write
  have h0 : ¬ data.length = 0 := fun h => hne (List.length_eq_zero_iff.1 h)
  simp only [hbm, not_true_eq_false, if_false, h0, decide_false]
  refine ⟨_, _, rfl, ?_, Mem.write_replaced b.mem (addr - base) data⟩
  have := ep_writeLoop c attr tc data 0 addr (by omega) e idx base k b hcl hk hal hbuf hsz hlo (by simpa using hhi)
  rw [this, List.drop_zero]

/-! ### C12: size and boundary rules of requests -/

/-- C12, writes: the TLPs are contiguous, in address order, cover exactly the addressed bytes, obey the PCIe rules for
the configured max payload size and pass `check()`; they carry the requester's ID and the given attributes. -/
theorem C12_write_requests (c : ReqCfg) (addr : Nat) (data : List UInt8) (attr tc : Nat) (tlps : List Tlp)
    (hne : data ≠ []) (h : Region.write c addr data attr tc = .ok tlps) :
    Spec.Segments addr data.length tlps ∧
    ∀ t ∈ tlps, Spec.WriteOk (128 <<< c.mps) t ∧ t.requester_id = c.id ∧ t.attr = attr ∧ t.tc = tc := by
  unfold Region.write at h
  have h0 : ¬ data.length = 0 := fun h => hne (List.length_eq_zero_iff.1 h)
  simp only [h0, if_false, decide_false] at h
  split at h
  · cases h
  · obtain ⟨s1, s2⟩ := Region.writeLoop_segments c attr tc data 0 addr (by omega)
    cases h
    refine ⟨by simpa using s1, fun t ht => ?_⟩
    obtain ⟨w, r, a, t', -⟩ := s2 t ht
    exact ⟨w, r, a, t'⟩

/-- C12, reads. -/
theorem C12_read_requests (c : ReqCfg) (addr length : Nat) (attr tc : Nat) (reqs : List (Nat × Tlp))
    (hne : 0 < length) (h : Region.readReqs c addr length attr tc = .ok reqs) :
    Spec.Segments addr length (reqs.map Prod.snd) ∧
    ∀ t ∈ reqs.map Prod.snd, Spec.ReadOk (128 <<< c.mrrs) t ∧ t.requester_id = c.id ∧ t.attr = attr ∧ t.tc = tc := by
  unfold Region.readReqs at h
  have h0 : ¬ length = 0 := by omega
  simp only [h0, if_false, decide_false] at h
  split at h
  · cases h
  · obtain ⟨s1, s2⟩ := Region.readLoop_segments c attr tc length 0 addr (by omega)
    cases h
    refine ⟨by simpa using s1, fun t ht => ?_⟩
    obtain ⟨w, r, a, t', -⟩ := s2 t ht
    exact ⟨w, r, a, t'⟩

/-- Non-trivial instances: a write that crosses a 4 KiB page and a read split at 128-byte boundaries. -/
example : ((Region.write {} 0xffd [1, 2, 3, 4, 5, 6, 7, 8, 9]).toOption.map (·.map (fun t => (t.address, t.length, t.first_be, t.last_be)))) =
    some [(0xffc, 1, 14, 0), (0x1000, 2, 15, 3)] := by decide +kernel
example : ((Region.readReqs { mrrs := 0 } 0x103 200).toOption.map (·.map (fun t => (t.1, t.2.address, t.2.length)))) =
    some [(125, 0x100, 32), (75, 0x180, 19)] := by decide +kernel

/-! ### C14: completions are split legally -/

/-- C14, root complex: the completions for any legal read request are a legal completion sequence for the bytes from
the first to the last enabled byte, carry the requester's ID, tag, attributes and traffic class and the completer's
ID, and pass `check()`; for every max payload size, both read completion boundaries, and with or without
`split_on_all_rcb`. -/
theorem C14_rc_completions (cfg : CplCfg) (s : AddrSpace) (t : Tlp) (first last : Nat) (hbe : Spec.BeLegal t)
    (hA : t.address % 4 = 0) (hb : t.address % 4096 + 4 * t.length ≤ 4096)
    (hf : Spec.FirstEnabled t first) (hl : Spec.LastEnabled t last)
    (hc : s.covers t.address (t.length * 4) = true) (hr : s.readOk t.address (t.length * 4) = true) :
    Spec.LegalCpls s.mem (if cfg.rcb128 then 128 else 64) (128 <<< cfg.mps) first (last - first + 1)
      (Rc.handleMemRead cfg s t) ∧
    ∀ x ∈ Rc.handleMemRead cfg s t, x.requester_id = t.requester_id ∧ x.tag = t.tag ∧ x.completer_id = cfg.id ∧
      x.attr = t.attr ∧ x.tc = t.tc ∧ x.check = .ok true := by
  rw [rc_memRead cfg s t hb hc hr]
  obtain ⟨e1, e2⟩ := be_decode t hbe first last hf hl
  have := memReadCpls_legal cfg t s.mem hA hbe.1
  rw [e1, e2] at this
  exact this

/-- C14, memory endpoint: the same, with the 128-byte read completion boundary. -/
theorem C14_endpoint_completions (e : MemEp) (t : Tlp) (idx base : Nat) (b : Buf) (first last : Nat)
    (hbe : Spec.BeLegal t) (hA : t.address % 4 = 0)
    (hm : matchBar e.bars t.address = .ok (some (idx, t.address - base))) (hbuf : e.regions[idx]? = some (some b))
    (hlo : base ≤ t.address) (hhi : t.address + 4 * t.length ≤ base + b.size)
    (hb : (t.address - base) % 4096 + 4 * t.length ≤ 4096)
    (hf : Spec.FirstEnabled t first) (hl : Spec.LastEnabled t last) :
    ∃ cpls, e.handleMemRead t = .ok cpls ∧
    Spec.LegalCpls (Spec.busView b base) 128 (128 <<< e.mps) first (last - first + 1) cpls ∧
    ∀ x ∈ cpls, x.requester_id = t.requester_id ∧ x.tag = t.tag ∧ x.completer_id = e.id ∧
      x.attr = t.attr ∧ x.tc = t.tc ∧ x.check = .ok true := by
  refine ⟨_, ep_memRead e t idx base b hm hbuf hlo hhi hb, ?_⟩
  obtain ⟨e1, e2⟩ := be_decode t hbe first last hf hl
  have := memReadCpls_legal e.cplCfg t (Spec.busView b base) hA hbe.1
  rw [e1, e2] at this
  exact this

/-- A read of 205 bytes from 0x103 is answered with 64-byte boundaries by three or more completions. -/
example : (Rc.handleMemRead { mps := 0, splitAll := true } { mem := fun a => UInt8.ofNat a }
      { (({} : Tlp).setFmtType .MEM_READ).setAddrBe 0x103 205 |>.1 with tag := 7 }).map
        (fun x => (x.lower_address, x.byte_count, x.length, x.tag)) =
    [(3, 205, 16, 7), (64, 144, 16, 7), (0, 80, 16, 7), (64, 16, 4, 7)] := by decide +kernel

/-! ### C20: collecting completions -/

/-- C20: from the stream of completions of one memory read, followed by anything, the operation takes exactly the
completions of that read. -/
theorem C20_collects_read (m : Mem) (rcb mps addr n : Nat) (cpls extra : List Tlp)
    (h : Spec.LegalCpls m rcb mps addr n cpls) : Region.collect true (cpls ++ extra) = (cpls, extra) :=
  collect_legal h extra

/-- C20: a read cut short by an unsuccessful completion ends with that completion. -/
theorem C20_stops_at_error (m : Mem) (rcb mps addr n : Nat) (pre rest extra : List Tlp) (bad : Tlp) (hne : rest ≠ [])
    (h : Spec.LegalCpls m rcb mps addr n (pre ++ rest)) (hbad : bad.status ≠ CplStatus.SC) :
    Region.collect true (pre ++ bad :: extra) = (pre ++ [bad], extra) := by
  induction pre generalizing addr n with
  | nil =>
    show Region.collect true (bad :: extra) = _
    unfold Region.collect; rw [if_pos hbad]; rfl
  | cons c pre ih =>
    rw [List.cons_append] at h
    have hq : pre ++ rest ≠ [] := by simp [hne]
    generalize hqq : pre ++ rest = q at h hq
    cases h with
    | last => exact absurd rfl hq
    | more _ _ _ _ hs hf hla hbc hl hgt hmp hb hh hrest =>
      have hoff : c.lower_address &&& 3 = addr % 4 := by rw [hla, and_m2]; omega
      show Region.collect true (c :: (pre ++ bad :: extra)) = _
      unfold Region.collect
      rw [if_neg (by rw [hs]; simp), if_pos rfl, if_neg (by rw [hbc, hoff]; omega), if_neg (by rw [hf]; simp), ih _ _ (hqq ▸ hrest)]
      rfl

/-- C20: a request other than a memory read is answered by one completion. -/
theorem C20_collects_one (c : Tlp) (extra : List Tlp) : Region.collect false (c :: extra) = ([c], extra) := by
  unfold Region.collect
  simp

/-! ### C13: memory reads -/

/-- C13: a memory read returns exactly the addressed bytes, whatever legal way the completer segments its completions:
`op` is any completer that answers every legal read request inside the range, which enables the bytes `a .. a+l-1`,
with some legal completion sequence for the memory `m`. -/
theorem C13_memory_read (c : ReqCfg) (m : Mem) (op : Tlp → List Tlp) (addr length attr tc : Nat)
    (hbm : c.busMasterEnable = true)
    (hop : ∀ t a l, 0 < l → addr ≤ a → a + l ≤ addr + length → Spec.ReadOk (128 <<< c.mrrs) t →
      (∀ b, Spec.byteEnabled t b ↔ a ≤ b ∧ b < a + l) → ∃ rcb mps, Spec.LegalCpls m rcb mps a l (op t))
    (h0 : 0 < length) :
    ∃ bytes, Region.read c op addr length attr tc = .ok bytes ∧ Spec.Holds m addr length bytes := by
  refine ⟨_, region_read c attr tc length addr h0 hbm m op ?_, Mem.read_holds ..⟩
  intro a L h1 h2 h3 h4 h5
  exact hop _ a L h1 h2 h3 (Region.readTlp_ok c attr tc false a L h1 h5 h4) (Region.readTlp_enabled c attr tc a L)

/-- C13, device reads root complex memory: every requester and completer setting, any tags. -/
theorem C13_rc_memory_read (c : ReqCfg) (cfg : CplCfg) (s : AddrSpace) (tag : Tlp → Nat) (addr length attr tc : Nat)
    (hbm : c.busMasterEnable = true) (h0 : 0 < length)
    (hcov : ∀ a k, addr / 4 * 4 ≤ a → a + k ≤ (addr + length + 3) / 4 * 4 → s.covers a k = true)
    (hr : ∀ a k, addr / 4 * 4 ≤ a → a + k ≤ (addr + length + 3) / 4 * 4 → s.readOk a k = true) :
    ∃ bytes, Region.read c (rcAnswer cfg s tag) addr length attr tc = .ok bytes ∧ Spec.Holds s.mem addr length bytes := by
  refine ⟨_, region_read c attr tc length addr h0 hbm s.mem _ ?_, Mem.read_holds ..⟩
  intro a L h1 h2 h3 h4 h5
  obtain ⟨f1, f2, -⟩ := Region.readTlp_fields c attr tc false a L h1
  refine ⟨cfg.rcb, 128 <<< cfg.mps, ?_⟩
  unfold rcAnswer
  rw [readTlp_tag_isMemRead c attr tc a L h1 false]
  generalize hg : tag (Region.readTlp c attr tc false a L) = tg
  rw [rc_memRead]
  · have := memReadCpls_legal cfg { Region.readTlp c attr tc false a L with tag := tg } s.mem (by simp only [f1]; omega)
      (by simp only [f2]; omega)
    obtain ⟨d1, d2⟩ := readTlp_tag_decode c attr tc a L tg h1
    rw [d1, d2] at this
    have hc := collect_legal this.1 []
    rw [List.append_nil] at hc
    rw [hc]; exact this.1
  · simp only [f1, f2]; omega
  · simp only [f1, f2]; exact hcov _ _ (by omega) (by omega)
  · simp only [f1, f2]; exact hr _ _ (by omega) (by omega)

/-- C13, root complex reads an endpoint region of a whole number of dwords. -/
theorem C13_endpoint_memory_read (c : ReqCfg) (e : MemEp) (tag : Tlp → Nat) (idx base k : Nat) (b : Buf)
    (addr length attr tc : Nat) (hbm : c.busMasterEnable = true) (h0 : 0 < length)
    (hcl : Spec.ClaimsMem e.bars idx base k) (hk : 2 ≤ k) (hal : base % 2 ^ k = 0)
    (hbuf : e.regions[idx]? = some (some b)) (hsz : b.size ≤ 2 ^ k) (hdw : b.size % 4 = 0)
    (hlo : base ≤ addr) (hhi : addr + length ≤ base + b.size) :
    ∃ bytes, Region.read c (epAnswer e tag) addr length attr tc = .ok bytes ∧
      Spec.Holds b.mem (addr - base) length bytes := by
  have hb4 : base % 4 = 0 := by
    rw [show (4 : Nat) = 2 ^ 2 from rfl]
    exact Nat.mod_eq_zero_of_dvd (Nat.dvd_trans (Nat.pow_dvd_pow 2 hk) (Nat.dvd_of_mod_eq_zero hal))
  refine ⟨_, region_read c attr tc length addr h0 hbm (Spec.busView b base) _ ?_, ?_⟩
  · intro a L h1 h2 h3 h4 h5
    obtain ⟨f1, f2, -⟩ := Region.readTlp_fields c attr tc false a L h1
    refine ⟨e.cplCfg.rcb, 128 <<< e.cplCfg.mps, ?_⟩
    unfold epAnswer
    rw [readTlp_tag_isMemRead c attr tc a L h1 false]
    generalize hg : tag (Region.readTlp c attr tc false a L) = tg
    rw [ep_memRead e _ idx base b]
    · have := memReadCpls_legal e.cplCfg { Region.readTlp c attr tc false a L with tag := tg } (Spec.busView b base)
        (by simp only [f1]; omega) (by simp only [f2]; omega)
      obtain ⟨d1, d2⟩ := readTlp_tag_decode c attr tc a L tg h1
      rw [d1, d2] at this
      have hc := collect_legal this.1 []
      rw [List.append_nil] at hc
      simp only [hc]; exact this.1
    · simp only [f1]; exact hcl _ (by omega) (by omega)
    · exact hbuf
    · simp only [f1]; omega
    · simp only [f1, f2]; omega
    · simp only [f1, f2]
      exact off_4k base k (a / 4 * 4) (4 * ((a % 4 + L + 3) / 4)) hal (by omega) (by omega) (by omega)
  · rw [busView_read _ _ _ _ hlo]; exact Mem.read_holds ..

/-- The hypotheses of the end-to-end read theorems hold in non-trivial cases; the model returns the bytes. -/
example : (Region.read { mrrs := 0 } (rcAnswer { splitAll := true } { mem := fun a => UInt8.ofNat a } (fun _ => 3)) 0x17e 6).toOption
    = some [0x7e, 0x7f, 0x80, 0x81, 0x82, 0x83] := by decide +kernel

/-! ### C15: zero-length accesses -/

theorem readReqs_zero (c : ReqCfg) (addr attr tc : Nat) (hbm : c.busMasterEnable = true) :
    Region.readReqs c addr 0 attr tc = .ok [(1, Region.readTlp c attr tc true addr 1)] := by
  unfold Region.readReqs
  simp only [hbm, not_true_eq_false, if_false, if_true, decide_true]
  obtain ⟨l1, l2, -, -⟩ := Region.readLen_facts c addr 1 (by omega)
  have hL : Region.readLen c addr (1 - 0) = 1 := by rw [Nat.sub_zero]; omega
  rw [Region.readLoop]
  simp only [Nat.lt_add_one, dite_true, hL]
  rw [Region.readLoop]
  simp

theorem readTlp_zero_disabled (c : ReqCfg) (attr tc addr b : Nat) :
    ¬ Spec.byteEnabled (Region.readTlp c attr tc true addr 1) b := by
  have hl := (Region.readTlp_fields c attr tc true addr 1 (by omega)).2.1
  have hz : (Region.readTlp c attr tc true addr 1).first_be = 0 := by unfold Region.readTlp; rfl
  intro h
  obtain ⟨h1, h2, h3⟩ := h
  rw [hl] at h2
  rw [if_pos (by omega), hz] at h3
  simp at h3

/-- C15, zero-length read, requester: exactly one request, legal, with no byte enabled; and if the completer answers
it with any legal completion sequence for one byte, the result is the empty byte string. -/
theorem C15_zero_read_request (c : ReqCfg) (addr attr tc : Nat) (hbm : c.busMasterEnable = true) :
    ∃ n t, Region.readReqs c addr 0 attr tc = .ok [(n, t)] ∧ Spec.ReadOk (128 <<< c.mrrs) t ∧
      t.address = addr / 4 * 4 ∧ t.length = 1 ∧ (∀ b, ¬ Spec.byteEnabled t b) ∧
      ∀ (op : Tlp → List Tlp) (m : Mem) (rcb mps a : Nat), Spec.LegalCpls m rcb mps a 1 (op t) →
        Region.read c op addr 0 attr tc = .ok [] := by
  have h4 : 128 ≤ 128 <<< c.mrrs := by rw [mps_pow]; have := pow_pos' c.mrrs; omega
  obtain ⟨f1, f2, -⟩ := Region.readTlp_fields c attr tc true addr 1 (by omega)
  refine ⟨1, _, readReqs_zero c addr attr tc hbm, Region.readTlp_ok c attr tc true addr 1 (by omega) (by omega) (by omega),
    f1, by rw [f2]; omega, readTlp_zero_disabled c attr tc addr, ?_⟩
  intro op m rcb mps a h
  unfold Region.read
  rw [readReqs_zero c addr attr tc hbm]
  simp only [bind, Except.bind, Region.consumeAll]
  rw [consume_legal h 1 0 [] rfl]
  simp

/-- C15, zero-length read of root complex memory: returns the empty byte string. -/
theorem C15_zero_read_rc (c : ReqCfg) (cfg : CplCfg) (s : AddrSpace) (tag : Tlp → Nat) (addr attr tc : Nat)
    (hbm : c.busMasterEnable = true) (hcov : s.covers (addr / 4 * 4) 4 = true) (hr : s.readOk (addr / 4 * 4) 4 = true) :
    Region.read c (rcAnswer cfg s tag) addr 0 attr tc = .ok [] := by
  obtain ⟨f1, f2, -⟩ := Region.readTlp_fields c attr tc true addr 1 (by omega)
  have f2' : (Region.readTlp c attr tc true addr 1).length = 1 := by rw [f2]; omega
  have hz : (Region.readTlp c attr tc true addr 1).first_be = 0 := by unfold Region.readTlp; rfl
  have hl : ∃ a, Spec.LegalCpls s.mem cfg.rcb (128 <<< cfg.mps) a 1 (rcAnswer cfg s tag (Region.readTlp c attr tc true addr 1)) := by
    unfold rcAnswer
    rw [readTlp_tag_isMemRead c attr tc addr 1 (by omega) true]
    generalize tag (Region.readTlp c attr tc true addr 1) = tg
    rw [rc_memRead _ _ _ (by simp only [f1, f2']; omega) (by simp only [f1, f2']; exact hcov) (by simp only [f1, f2']; exact hr)]
    have := memReadCpls_legal cfg { Region.readTlp c attr tc true addr 1 with tag := tg } s.mem (by simp only [f1]; omega)
      (by simp only [f2']; omega)
    have hbc : ({ Region.readTlp c attr tc true addr 1 with tag := tg } : Tlp).beByteCount = 1 := by
      unfold Tlp.beByteCount Tlp.firstBeOffset Tlp.lastBeOffset
      simp only [hz, f2', if_true]; decide
    rw [hbc] at this
    have hc := collect_legal this.1 []
    rw [List.append_nil] at hc
    rw [hc]; exact ⟨_, this.1⟩
  obtain ⟨a, hl⟩ := hl
  unfold Region.read
  rw [readReqs_zero c addr attr tc hbm]
  simp only [bind, Except.bind, Region.consumeAll]
  rw [consume_legal hl 1 0 [] rfl]
  simp

theorem write_zero (c : ReqCfg) (addr attr tc : Nat) (hbm : c.busMasterEnable = true) :
    Region.write c addr [] attr tc = .ok [Region.writeTlp c attr tc true addr [0]] := by
  unfold Region.write
  simp only [hbm, not_true_eq_false, if_false, List.length_nil, if_true, decide_true]
  obtain ⟨l1, l2, -, -⟩ := Region.writeLen_facts c addr 1 (by omega)
  have hL : Region.writeLen c addr (1 - 0) = 1 := by rw [Nat.sub_zero]; omega
  rw [Region.writeLoop]
  simp only [List.length_cons, List.length_nil, Nat.zero_add, Nat.lt_add_one, dite_true, hL]
  rw [Region.writeLoop]
  simp [slice]

theorem memRuns_none (t : Tlp) (hl : 1 ≤ t.length) (he : ∀ a, ¬ Spec.byteEnabled t a) : memRuns t = [] := by
  obtain ⟨r1, r2⟩ := memRuns_spec t hl
  cases h : memRuns t with
  | nil => rfl
  | cons r rest =>
    exfalso
    have hr := r2 r (by rw [h]; exact List.mem_cons_self ..)
    exact he _ ((r1 r.1).1 ⟨r, by rw [h]; exact List.mem_cons_self .., Nat.le_refl _, hr.1⟩)

/-- C15, zero-length write: exactly one request, legal, with no byte enabled; it changes nothing in any root complex
address space and in any memory endpoint (whichever BAR it hits, or none). -/
theorem C15_zero_write (c : ReqCfg) (addr attr tc : Nat) (hbm : c.busMasterEnable = true) :
    ∃ t, Region.write c addr [] attr tc = .ok [t] ∧ Spec.WriteOk (128 <<< c.mps) t ∧ (∀ b, ¬ Spec.byteEnabled t b) ∧
      (∀ s : AddrSpace, Rc.handleMemWrite s t = s) ∧
      (∀ (e : MemEp) m, matchBar e.bars t.address = .ok m → e.handleMemWrite t = .ok e) := by
  have h4 : 128 ≤ 128 <<< c.mps := by rw [mps_pow]; have := pow_pos' c.mps; omega
  have hl := (Region.writeTlp_fields c attr tc true addr [0] (by simp)).2.1
  have hl1 : 1 ≤ (Region.writeTlp c attr tc true addr [0]).length := by rw [hl]; simp; omega
  refine ⟨_, write_zero c addr attr tc hbm, Region.writeTlp_ok c attr tc true addr [0] (by simp) (by simp; omega) (by simp; omega),
    Region.writeTlp_zero c attr tc addr 0, fun s => rc_memWrite_none _ _ hl1 (Region.writeTlp_zero c attr tc addr 0), ?_⟩
  intro e m hm
  unfold MemEp.handleMemWrite
  simp only [hm, bind, Except.bind]
  cases m with
  | none => rfl
  | some r =>
    simp only
    rw [memRuns_none _ hl1 (Region.writeTlp_zero c attr tc addr 0)]
    split <;> rfl

example : (Region.read {} (rcAnswer {} { mem := fun a => UInt8.ofNat a } (fun _ => 3)) 0xfff 0).toOption = some [] := by
  decide +kernel

end Pcie
