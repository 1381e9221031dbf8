/-
C16: I/O transfers.
-/
import Verif.Lemmas.Io
namespace Pcie
open Tlp

theorem byteEnabled_tag (t : Tlp) (tag b : Nat) : Spec.byteEnabled { t with tag := tag } b ↔ Spec.byteEnabled t b := Iff.rfl

theorem not_memRead_io {t : Tlp} {ty : TlpType} (h : t.fmtType = some ty) (h1 : ty ≠ .MEM_READ) (h2 : ty ≠ .MEM_READ_64) :
    Region.isMemRead t = false := by
  unfold Region.isMemRead; rw [h]; simp [h1, h2]

/-- C16: the requests of an I/O read are one-dword requests for consecutive byte ranges that cover exactly the
addressed bytes. -/
theorem C16_read_requests (c : ReqCfg) (addr length : Nat) (reqs : List (Nat × Tlp)) (h0 : 0 < length)
    (h : IoRegion.readReqs c addr length = .ok reqs) :
    Spec.Segments addr length (reqs.map Prod.snd) ∧
    ∀ t ∈ reqs.map Prod.snd, Spec.IoOk .IO_READ t ∧ t.requester_id = c.id ∧ t.data = [] := by
  unfold IoRegion.readReqs at h
  have hz : ¬ length = 0 := by omega
  simp only [hz, if_false, decide_false] at h
  split at h
  · cases h
  · cases h
    have := IoRegion.readLoop_segments c length 0 addr (by omega)
    simpa using this

/-- C16: the same for an I/O write; every request has a one-dword payload. -/
theorem C16_write_requests (c : ReqCfg) (addr : Nat) (data : List UInt8) (reqs : List Tlp) (hne : data ≠ [])
    (h : IoRegion.writeReqs c addr data = .ok reqs) :
    Spec.Segments addr data.length reqs ∧
    ∀ t ∈ reqs, Spec.IoOk .IO_WRITE t ∧ t.requester_id = c.id ∧ t.data.length = 4 := by
  unfold IoRegion.writeReqs at h
  have h0 : ¬ data.length = 0 := fun h => hne (List.length_eq_zero_iff.1 h)
  simp only [h0, if_false, decide_false] at h
  split at h
  · cases h
  · cases h
    have := IoRegion.writeLoop_segments c data 0 addr (by omega)
    simpa using this

/-- C16: an I/O read returns exactly the addressed bytes, for any completer that answers each one-dword request with
the enabled bytes of its dword. -/
theorem C16_io_read (c : ReqCfg) (m : Mem) (op : Tlp → List Tlp) (addr length : Nat) (hbm : c.busMasterEnable = true)
    (h0 : 0 < length)
    (hop : ∀ t a l, 0 < l → addr ≤ a → a + l ≤ addr + length → Spec.IoOk .IO_READ t →
      (∀ b, Spec.byteEnabled t b ↔ a ≤ b ∧ b < a + l) → Spec.DwordAnswer m t (op t)) :
    ∃ bytes, IoRegion.read c op addr length = .ok bytes ∧ Spec.Holds m addr length bytes := by
  refine ⟨_, IoRegion.read_ok c length addr h0 hbm m op ?_, Mem.read_holds ..⟩
  intro a L h1 h2 h3 h4
  exact hop _ a L h1 h2 h3 (IoRegion.readTlp_ok c false a L h1 h4).1 (IoRegion.readTlp_enabled c a L)

/-- C16, root complex as completer. -/
theorem C16_rc_io_read (c : ReqCfg) (id : PcieId) (s : AddrSpace) (tag : Tlp → Nat) (addr length : Nat)
    (hbm : c.busMasterEnable = true) (h0 : 0 < length)
    (hcov : ∀ a k, addr / 4 * 4 ≤ a → a + k ≤ (addr + length + 3) / 4 * 4 → s.covers a k = true)
    (hr : ∀ a k, addr ≤ a → a + k ≤ addr + length → s.readOk a k = true) :
    ∃ bytes, IoRegion.read c (rcIoReadAnswer id s tag) addr length = .ok bytes ∧ Spec.Holds s.mem addr length bytes := by
  refine C16_io_read c s.mem _ addr length hbm h0 ?_
  intro t a l h1 h2 h3 hio hen
  have hen' : ∀ b, Spec.byteEnabled { t with tag := tag t } b ↔ a ≤ b ∧ b < a + l := hen
  have ha1 := (hen a).2 (by omega)
  have ha2 := (hen (a + l - 1)).2 (by omega)
  have hal := hio.aligned
  have hlo := ha1.1
  have hub : a + l ≤ t.address + 4 := by
    obtain ⟨q1, q2, -⟩ := ha2
    rw [hio.one_dword] at q2; omega
  obtain ⟨cp, e1, e2, -⟩ := rc_ioRead id s { t with tag := tag t } hio.one_dword (hcov _ _ (by simp only; omega) (by simp only; omega))
    (fun x n hn hx => by
      have hx1 := (hen' _).1 (hx x (by omega) (by omega))
      have hx2 := (hen' _).1 (hx (x + n - 1) (by omega) (by omega))
      exact hr _ _ (by omega) (by omega))
  unfold rcIoReadAnswer
  rw [e1, not_memRead_io hio.type (by simp) (by simp)]
  simp only
  rw [show Region.collect false [cp] = ([cp], []) by unfold Region.collect; simp]
  exact e2

/-- C16, memory endpoint with an I/O region as completer. -/
theorem C16_endpoint_io_read (c : ReqCfg) (e : MemEp) (tag : Tlp → Nat) (idx base k : Nat) (b : Buf) (addr length : Nat)
    (hbm : c.busMasterEnable = true) (h0 : 0 < length)
    (hcl : Spec.ClaimsIo e.bars idx base k) (hk : 2 ≤ k) (hal : base % 2 ^ k = 0)
    (hbuf : e.regions[idx]? = some (some b)) (hsz : b.size ≤ 2 ^ k)
    (hlo : base ≤ addr) (hhi : addr + length ≤ base + b.size) :
    ∃ bytes, IoRegion.read c (epIoReadAnswer e tag) addr length = .ok bytes ∧
      Spec.Holds b.mem (addr - base) length bytes := by
  have hb4 : base % 4 = 0 := by
    rw [show (4 : Nat) = 2 ^ 2 from rfl]
    exact Nat.mod_eq_zero_of_dvd (Nat.dvd_trans (Nat.pow_dvd_pow 2 hk) (Nat.dvd_of_mod_eq_zero hal))
  refine ⟨_, IoRegion.read_ok c length addr h0 hbm (Spec.busView b base) _ ?_, ?_⟩
  · intro a L h1 h2 h3 h4
    obtain ⟨hio, f1, -⟩ := IoRegion.readTlp_ok c false a L h1 h4
    have hen := IoRegion.readTlp_enabled c a L
    generalize IoRegion.readTlp c false a L = t at *
    have hen' : ∀ b, Spec.byteEnabled { t with tag := tag t } b ↔ a ≤ b ∧ b < a + L := hen
    obtain ⟨cp, e1, e2, -⟩ := ep_ioRead e b idx (a / 4 * 4 - base) { t with tag := tag t } hio.one_dword
      (by simp only [f1]; exact hcl _ (by omega) (by omega)) hbuf
      (fun i hi => by
        have := (hen' _).1 hi
        simp only [f1] at this; omega)
    unfold epIoReadAnswer
    rw [e1, not_memRead_io hio.type (by simp) (by simp)]
    simp only
    rw [show Region.collect false [cp] = ([cp], []) by unfold Region.collect; simp]
    obtain ⟨c', rest, g1, g2, g3, g4, g5⟩ := e2
    refine ⟨c', rest, g1, g2, g3, g4, ?_⟩
    intro i hi
    have := g5 i hi
    rw [this]
    unfold Spec.busView
    simp only [f1]
    congr 2; omega
  · rw [busView_read _ _ _ _ hlo]; exact Mem.read_holds ..

theorem storeTlp_range (m : Mem) (t : Tlp) (addr off : Nat) (chunk : List UInt8) (f1 : t.address = addr / 4 * 4)
    (hen : ∀ b, Spec.byteEnabled t b ↔ addr ≤ b ∧ b < addr + chunk.length)
    (f4 : ∀ i, (h : i < chunk.length) → t.data[addr % 4 + i]? = some chunk[i]) :
    storeTlp m t off = m.write (off + addr % 4) chunk := by
  funext a
  unfold storeTlp Mem.write
  simp only [hen, f1]
  by_cases h : off + addr % 4 ≤ a ∧ a < off + addr % 4 + chunk.length
  · rw [if_pos (by omega), if_pos h]
    have := f4 (a - (off + addr % 4)) (by omega)
    rw [show addr % 4 + (a - (off + addr % 4)) = a - off by omega] at this
    rw [List.getD_eq_getElem?_getD, this, List.getD_eq_getElem?_getD, List.getElem?_eq_getElem (by omega)]
  · rw [if_neg (by omega), if_neg h]

theorem rcIoWriteAll_loop (c : ReqCfg) (id : PcieId) (tag : Tlp → Nat) (data : List UInt8) (n addr : Nat)
    (hn : n ≤ data.length) (s : AddrSpace)
    (hcov : ∀ a k, addr / 4 * 4 ≤ a → a + k ≤ (addr + (data.length - n) + 3) / 4 * 4 → s.covers a k = true)
    (hw : ∀ a k, addr ≤ a → a + k ≤ addr + (data.length - n) → s.writeOk a k = true) :
    ∃ rs, rcIoWriteAll id tag s (IoRegion.writeLoop c false data n addr) =
      .ok ({ s with mem := s.mem.write addr (data.drop n) }, rs) ∧ IoRegion.checkAll rs = .ok () := by
  induction hk : data.length - n using Nat.strongRecOn generalizing n addr s with
  | ind k ih =>
    rw [IoRegion.writeLoop]
    by_cases h : n < data.length
    · simp only [h, dite_true]
      obtain ⟨l1, l2, l3, -⟩ := IoRegion.len_facts addr (data.length - n) (by omega)
      generalize IoRegion.len addr (data.length - n) = L at l1 l2 l3 ⊢
      have hs : (slice data n (n + L)).length = L := by rw [slice_length _ _ _ (by omega)]; omega
      obtain ⟨hio, f1, -, f3, f4⟩ := IoRegion.writeTlp_fields c false addr (slice data n (n + L)) (by omega) (by omega)
      have hen := IoRegion.writeTlp_enabled c addr (slice data n (n + L))
      generalize IoRegion.writeTlp c false addr (slice data n (n + L)) = t at *
      unfold rcIoWriteAll
      have hmr := not_memRead_io hio.type (by simp) (by simp)
      have g1 : ({ t with tag := tag t } : Tlp).address = addr / 4 * 4 := f1
      have g2 : ({ t with tag := tag t } : Tlp).length = 1 := hio.one_dword
      have g3 : ({ t with tag := tag t } : Tlp).data.length = 4 := f3
      have g4 : ∀ i, (h : i < (slice data n (n + L)).length) → ({ t with tag := tag t } : Tlp).data[addr % 4 + i]? = some (slice data n (n + L))[i] := f4
      have hen' : ∀ b, Spec.byteEnabled { t with tag := tag t } b ↔ addr ≤ b ∧ b < addr + (slice data n (n + L)).length := hen
      generalize ({ t with tag := tag t } : Tlp) = t' at *
      have hst := storeTlp_range s.mem t' addr (addr / 4 * 4) (slice data n (n + L)) g1 hen' g4
      obtain ⟨cp, e1, e2, -⟩ := rc_ioWrite id s t' g2 g3
        (by rw [g1]; exact hcov _ _ (by omega) (by omega))
        (fun a k' hk' hx => by
          have hx1 := (hen' _).1 (hx a (by omega) (by omega))
          have hx2 := (hen' _).1 (hx (a + k' - 1) (by omega) (by omega))
          exact hw _ _ (by omega) (by omega))
      obtain ⟨rs, i1, i2⟩ := ih (data.length - (n + L)) (by omega) (n + L) (addr + L) (by omega)
        { s with mem := s.mem.write addr (slice data n (n + L)) }
        (fun a k' h1 h2 => hcov a k' (by omega) (by omega)) (fun a k' h1 h2 => hw a k' (by omega) (by omega)) rfl
      rw [e1]
      simp only [bind, Except.bind, g1]
      rw [hst, show addr / 4 * 4 + addr % 4 = addr by omega, i1]
      refine ⟨(Region.collect (Region.isMemRead t) [cp]).1 :: rs, ?_, ?_⟩
      · have := Mem.write_append s.mem addr (slice data n (n + L)) (data.drop (n + L))
        rw [hs, slice_append_drop] at this
        simp only [this]
      · rw [hmr]
        rw [show Region.collect false [cp] = ([cp], []) by unfold Region.collect; simp]
        unfold IoRegion.checkAll
        simp only [e2, ne_eq, not_true_eq_false, if_false]
        exact i2
    · simp only [h, dite_false]
      refine ⟨[], ?_, rfl⟩
      rw [List.drop_eq_nil_of_le (by omega), Mem.write_nil]
      rfl

/-- C16: an I/O write to the root complex changes exactly the addressed bytes and reports success. -/
theorem C16_rc_io_write (c : ReqCfg) (id : PcieId) (s : AddrSpace) (tag : Tlp → Nat) (addr : Nat) (data : List UInt8)
    (hbm : c.busMasterEnable = true) (hne : data ≠ [])
    (hcov : ∀ a k, addr / 4 * 4 ≤ a → a + k ≤ (addr + data.length + 3) / 4 * 4 → s.covers a k = true)
    (hw : ∀ a k, addr ≤ a → a + k ≤ addr + data.length → s.writeOk a k = true) :
    ∃ reqs m' results, IoRegion.writeReqs c addr data = .ok reqs ∧
      rcIoWriteAll id tag s reqs = .ok ({ s with mem := m' }, results) ∧ IoRegion.checkAll results = .ok () ∧
      Spec.Replaced s.mem m' addr data := by
  obtain ⟨rs, e1, e2⟩ := rcIoWriteAll_loop c id tag data 0 addr (by omega) s (by simpa using hcov) (by simpa using hw)
  unfold IoRegion.writeReqs
  have h0 : ¬ data.length = 0 := fun h => hne (List.length_eq_zero_iff.1 h)
  simp only [h0, if_false, decide_false, hbm, not_true_eq_false]
  exact ⟨_, _, rs, rfl, e1, e2, by rw [List.drop_zero]; exact Mem.write_replaced ..⟩

theorem epIoWriteAll_loop (c : ReqCfg) (tag : Tlp → Nat) (data : List UInt8) (n addr : Nat) (hn : n ≤ data.length) (e : MemEp)
    (idx base k : Nat) (b : Buf) (hcl : Spec.ClaimsIo e.bars idx base k) (hk : 2 ≤ k) (hal : base % 2 ^ k = 0)
    (hbuf : e.regions[idx]? = some (some b)) (hsz : b.size ≤ 2 ^ k) (hlo : base ≤ addr)
    (hhi : addr + (data.length - n) ≤ base + b.size) :
    ∃ rs, epIoWriteAll tag e (IoRegion.writeLoop c false data n addr) =
      .ok ({ e with regions := e.regions.set idx (some { b with mem := b.mem.write (addr - base) (data.drop n) }) }, rs) ∧
      IoRegion.checkAll rs = .ok () := by
  have hb4 : base % 4 = 0 := by
    rw [show (4 : Nat) = 2 ^ 2 from rfl]
    exact Nat.mod_eq_zero_of_dvd (Nat.dvd_trans (Nat.pow_dvd_pow 2 hk) (Nat.dvd_of_mod_eq_zero hal))
  induction hm : data.length - n using Nat.strongRecOn generalizing n addr e b with
  | ind m ih =>
    rw [IoRegion.writeLoop]
    have hlt : idx < e.regions.length := by
      by_cases h : idx < e.regions.length
      · exact h
      · rw [List.getElem?_eq_none_iff.2 (by omega)] at hbuf; cases hbuf
    by_cases h : n < data.length
    · simp only [h, dite_true]
      obtain ⟨l1, l2, l3, -⟩ := IoRegion.len_facts addr (data.length - n) (by omega)
      generalize IoRegion.len addr (data.length - n) = L at l1 l2 l3 ⊢
      have hs : (slice data n (n + L)).length = L := by rw [slice_length _ _ _ (by omega)]; omega
      obtain ⟨hio, f1, -, f3, f4⟩ := IoRegion.writeTlp_fields c false addr (slice data n (n + L)) (by omega) (by omega)
      have hen := IoRegion.writeTlp_enabled c addr (slice data n (n + L))
      generalize IoRegion.writeTlp c false addr (slice data n (n + L)) = t at *
      unfold epIoWriteAll
      have hmr := not_memRead_io hio.type (by simp) (by simp)
      have g1 : ({ t with tag := tag t } : Tlp).address = addr / 4 * 4 := f1
      have g2 : ({ t with tag := tag t } : Tlp).length = 1 := hio.one_dword
      have g3 : ({ t with tag := tag t } : Tlp).data.length = 4 := f3
      have g4 : ∀ i, (h : i < (slice data n (n + L)).length) → ({ t with tag := tag t } : Tlp).data[addr % 4 + i]? = some (slice data n (n + L))[i] := f4
      have hen' : ∀ b, Spec.byteEnabled { t with tag := tag t } b ↔ addr ≤ b ∧ b < addr + (slice data n (n + L)).length := hen
      generalize ({ t with tag := tag t } : Tlp) = t' at *
      have hst := storeTlp_range b.mem t' addr (addr / 4 * 4 - base) (slice data n (n + L)) g1 hen' g4
      obtain ⟨cp, e1, e2, -⟩ := ep_ioWrite e b idx (addr / 4 * 4 - base) t' g2 g3
        (by rw [g1]; exact hcl _ (by omega) (by omega)) hbuf
        (fun i hi => by
          have := (hen' _).1 hi
          rw [g1, hs] at this; omega)
      obtain ⟨rs, i1, i2⟩ := ih (data.length - (n + L)) (by omega) (n + L) (addr + L) (by omega)
        { e with regions := e.regions.set idx (some { b with mem := (b.mem.write (addr - base) (slice data n (n + L))) }) }
        { b with mem := (b.mem.write (addr - base) (slice data n (n + L))) }
        hcl (by simp [hlt]) hsz (by omega) (by simp only; omega) rfl
      rw [e1]
      simp only [bind, Except.bind]
      rw [hst, show addr / 4 * 4 - base + addr % 4 = addr - base by omega, i1]
      refine ⟨(Region.collect (Region.isMemRead t) [cp]).1 :: rs, ?_, ?_⟩
      · have := Mem.write_append b.mem (addr - base) (slice data n (n + L)) (data.drop (n + L))
        rw [hs, slice_append_drop, show addr - base + L = addr + L - base by omega] at this
        simp only [this, List.set_set]
      · rw [hmr]
        rw [show Region.collect false [cp] = ([cp], []) by unfold Region.collect; simp]
        unfold IoRegion.checkAll
        simp only [e2, ne_eq, not_true_eq_false, if_false]
        exact i2
    · simp only [h, dite_false]
      refine ⟨[], ?_, rfl⟩
      rw [List.drop_eq_nil_of_le (by omega), Mem.write_nil]
      show Except.ok (e, []) = _
      congr 2
      obtain ⟨bars, regions, p, id, mps⟩ := e
      simp only at hbuf hlt ⊢
      congr 1
      rw [List.getElem?_eq_getElem hlt] at hbuf
      have : regions[idx] = some b := Option.some.inj hbuf
      symm
      show List.set regions idx (some b) = regions
      rw [← this, List.set_getElem_self]

/-- C16: an I/O write to an endpoint's I/O region changes exactly the addressed bytes and reports success. -/
theorem C16_endpoint_io_write (c : ReqCfg) (e : MemEp) (tag : Tlp → Nat) (idx base k : Nat) (b : Buf) (addr : Nat)
    (data : List UInt8) (hbm : c.busMasterEnable = true) (hne : data ≠ [])
    (hcl : Spec.ClaimsIo e.bars idx base k) (hk : 2 ≤ k) (hal : base % 2 ^ k = 0)
    (hbuf : e.regions[idx]? = some (some b)) (hsz : b.size ≤ 2 ^ k)
    (hlo : base ≤ addr) (hhi : addr + data.length ≤ base + b.size) :
    ∃ reqs m' results, IoRegion.writeReqs c addr data = .ok reqs ∧
      epIoWriteAll tag e reqs = .ok ({ e with regions := e.regions.set idx (some ⟨b.size, m'⟩) }, results) ∧
      IoRegion.checkAll results = .ok () ∧ Spec.Replaced b.mem m' (addr - base) data := by
  obtain ⟨rs, e1, e2⟩ := epIoWriteAll_loop c tag data 0 addr (by omega) e idx base k b hcl hk hal hbuf hsz hlo (by simpa using hhi)
  unfold IoRegion.writeReqs
  have h0 : ¬ data.length = 0 := fun h => hne (List.length_eq_zero_iff.1 h)
  simp only [h0, if_false, decide_false, hbm, not_true_eq_false]
  exact ⟨_, _, rs, rfl, e1, e2, by rw [List.drop_zero]; exact Mem.write_replaced ..⟩

/-- Non-trivial instances. -/
example : (IoRegion.read {} (rcIoReadAnswer ⟨0, 0, 0⟩ { mem := fun a => UInt8.ofNat a } (fun _ => 3)) 0x17e 7).toOption
    = some [0x7e, 0x7f, 0x80, 0x81, 0x82, 0x83, 0x84] := by decide +kernel
example : ((IoRegion.writeReqs {} 0x17e [1, 2, 3, 4, 5, 6, 7]).toOption.map (·.map (fun t => (t.address, t.first_be, t.data)))) =
    some [(0x17c, 12, [0, 0, 1, 2]), (0x180, 15, [3, 4, 5, 6]), (0x184, 1, [7, 0, 0, 0])] := by decide +kernel

end Pcie
