/-
Helper lemmas: I/O requests.
-/
import Verif.Lemmas.BeRange
import Verif.Model.System
namespace Pcie
open Tlp

namespace IoRegion

theorem len_facts (addr r : Nat) (h : 0 < r) : 0 < len addr r ∧ len addr r ≤ r ∧ addr % 4 + len addr r ≤ 4 ∧
    (len addr r < r → (addr + len addr r) % 4 = 0) := by
  unfold len; omega

theorem readTlp_ok (c : ReqCfg) (z : Bool) (addr L : Nat) (h0 : 0 < L) (h1 : addr % 4 + L ≤ 4) :
    Spec.IoOk .IO_READ (readTlp c z addr L) ∧ (readTlp c z addr L).address = addr / 4 * 4 ∧
    (readTlp c z addr L).requester_id = c.id ∧ (readTlp c z addr L).data = [] := by
  unfold readTlp
  simp only [setAddrBe_one _ addr L h0 h1]
  cases z
  · simp only [Bool.false_eq_true, if_false]
    refine ⟨⟨?_, by simp, ?_, by simp, rfl, rfl⟩, by simp, by simp [Tlp.setFmtType], by simp [Tlp.setFmtType]⟩
    · unfold Tlp.fmtType; simp only; decide
    · show addr / 4 * 4 % 4 = 0; omega
  · simp only [if_true]
    refine ⟨⟨?_, by simp, ?_, by simp, rfl, rfl⟩, by simp, by simp [Tlp.setFmtType], by simp [Tlp.setFmtType]⟩
    · unfold Tlp.fmtType; simp only; decide
    · show addr / 4 * 4 % 4 = 0; omega

theorem readTlp_enabled (c : ReqCfg) (addr L b : Nat) :
    Spec.byteEnabled (readTlp c false addr L) b ↔ addr ≤ b ∧ b < addr + L := by
  unfold readTlp
  simp only [Bool.false_eq_true, if_false]
  exact C06_enabled_bytes _ _ _ _

theorem writeTlp_fields (c : ReqCfg) (z : Bool) (addr : Nat) (chunk : List UInt8) (h0 : 0 < chunk.length)
    (h1 : addr % 4 + chunk.length ≤ 4) :
    let t := writeTlp c z addr chunk
    Spec.IoOk .IO_WRITE t ∧ t.address = addr / 4 * 4 ∧ t.requester_id = c.id ∧ t.data.length = 4 ∧
    (∀ i, (h : i < chunk.length) → t.data[addr % 4 + i]? = some chunk[i]) := by
  obtain ⟨p1, p2, p3⟩ := C07_payload { (({} : Tlp).setFmtType .IO_WRITE) with requester_id := c.id } addr chunk
  have hone := setAddrBe_one { (({} : Tlp).setFmtType .IO_WRITE) with requester_id := c.id } addr chunk.length h0 h1
  rw [hone] at p3
  have ha : (({ (({} : Tlp).setFmtType .IO_WRITE) with requester_id := c.id } : Tlp).setAddrBeData addr chunk).address = addr / 4 * 4 :=
    congrArg Tlp.address p3
  have hl : (({ (({} : Tlp).setFmtType .IO_WRITE) with requester_id := c.id } : Tlp).setAddrBeData addr chunk).length = 1 :=
    congrArg Tlp.length p3
  have hlb : (({ (({} : Tlp).setFmtType .IO_WRITE) with requester_id := c.id } : Tlp).setAddrBeData addr chunk).last_be = 0 :=
    congrArg Tlp.last_be p3
  have hat : (({ (({} : Tlp).setFmtType .IO_WRITE) with requester_id := c.id } : Tlp).setAddrBeData addr chunk).attr = 0 :=
    congrArg Tlp.attr p3
  have htc : (({ (({} : Tlp).setFmtType .IO_WRITE) with requester_id := c.id } : Tlp).setAddrBeData addr chunk).tc = 0 :=
    congrArg Tlp.tc p3
  have hid : (({ (({} : Tlp).setFmtType .IO_WRITE) with requester_id := c.id } : Tlp).setAddrBeData addr chunk).requester_id = c.id :=
    congrArg Tlp.requester_id p3
  have hft : (({ (({} : Tlp).setFmtType .IO_WRITE) with requester_id := c.id } : Tlp).setAddrBeData addr chunk).fmtType = some .IO_WRITE :=
    (congrArg Tlp.fmtType p3).trans (by unfold Tlp.fmtType; simp only; decide)
  unfold writeTlp
  have hd : ∀ i, (h : i < chunk.length) → (({ (({} : Tlp).setFmtType .IO_WRITE) with requester_id := c.id } : Tlp).setAddrBeData
      addr chunk).data[addr % 4 + i]? = some chunk[i] := by
    intro i h
    have := p2 i h
    rw [ha, show addr + i - addr / 4 * 4 = addr % 4 + i by omega] at this
    exact this
  cases z
  · exact ⟨⟨hft, hl, by simp only [Bool.false_eq_true, if_false]; rw [ha]; omega, hlb, hat, htc⟩, ha, hid, by
      simp only [Bool.false_eq_true, if_false]; rw [p1, hl], hd⟩
  · exact ⟨⟨hft, hl, by simp only [if_true]; rw [ha]; omega, hlb, hat, htc⟩, ha, hid, by
      simp only [if_true]; rw [p1, hl], hd⟩

theorem writeTlp_enabled (c : ReqCfg) (addr : Nat) (chunk : List UInt8) (b : Nat) :
    Spec.byteEnabled (writeTlp c false addr chunk) b ↔ addr ≤ b ∧ b < addr + chunk.length := by
  unfold writeTlp
  simp only [Bool.false_eq_true, if_false]
  exact C07_other_bytes_disabled _ _ _ _

theorem readLoop_segments (c : ReqCfg) (length n addr : Nat) (hn : n ≤ length) :
    Spec.Segments addr (length - n) ((readLoop c false length n addr).map Prod.snd) ∧
    ∀ t ∈ (readLoop c false length n addr).map Prod.snd, Spec.IoOk .IO_READ t ∧ t.requester_id = c.id ∧ t.data = [] := by
  induction hk : length - n using Nat.strongRecOn generalizing n addr with
  | ind k ih =>
    rw [readLoop]
    by_cases h : n < length
    · simp only [h, dite_true, List.map_cons]
      obtain ⟨l1, l2, l3, -⟩ := len_facts addr (length - n) (by omega)
      generalize len addr (length - n) = L at l1 l2 l3 ⊢
      obtain ⟨i1, i2⟩ := ih (length - (n + L)) (by omega) (n + L) (addr + L) (by omega) rfl
      constructor
      · rw [show k = L + (length - (n + L)) by omega]
        exact .cons _ _ _ _ _ l1 (readTlp_enabled c addr L) i1
      · intro t ht
        rcases List.mem_cons.1 ht with rfl | ht
        · obtain ⟨a, -, b, d⟩ := readTlp_ok c false addr L l1 l3
          exact ⟨a, b, d⟩
        · exact i2 t ht
    · simp only [h, dite_false, List.map_nil]
      have : k = 0 := by omega
      subst this
      exact ⟨.nil _, by simp⟩

theorem writeLoop_segments (c : ReqCfg) (data : List UInt8) (n addr : Nat) (hn : n ≤ data.length) :
    Spec.Segments addr (data.length - n) (writeLoop c false data n addr) ∧
    ∀ t ∈ writeLoop c false data n addr, Spec.IoOk .IO_WRITE t ∧ t.requester_id = c.id ∧ t.data.length = 4 := by
  induction hk : data.length - n using Nat.strongRecOn generalizing n addr with
  | ind k ih =>
    rw [writeLoop]
    by_cases h : n < data.length
    · simp only [h, dite_true]
      obtain ⟨l1, l2, l3, -⟩ := len_facts addr (data.length - n) (by omega)
      generalize len addr (data.length - n) = L at l1 l2 l3 ⊢
      have hs : (slice data n (n + L)).length = L := by rw [slice_length _ _ _ (by omega)]; omega
      obtain ⟨i1, i2⟩ := ih (data.length - (n + L)) (by omega) (n + L) (addr + L) (by omega) rfl
      constructor
      · rw [show k = L + (data.length - (n + L)) by omega]
        refine .cons _ _ _ _ _ l1 ?_ i1
        intro b
        rw [writeTlp_enabled, hs]
      · intro t ht
        rcases List.mem_cons.1 ht with rfl | ht
        · obtain ⟨a, -, b, d, -⟩ := writeTlp_fields c false addr (slice data n (n + L)) (by omega) (by omega)
          exact ⟨a, b, d⟩
        · exact i2 t ht
    · simp only [h, dite_false]
      have : k = 0 := by omega
      subst this
      exact ⟨.nil _, by simp⟩

/-- Reading: what the loop over the answers accumulates starts with the wanted bytes. -/
theorem consumeAll_readLoop (c : ReqCfg) (length n addr : Nat) (hn : n ≤ length) (M : Mem) (op : Tlp → List Tlp)
    (acc : List UInt8)
    (hop : ∀ a L, 0 < L → addr ≤ a → a + L ≤ addr + (length - n) → a % 4 + L ≤ 4 →
      Spec.DwordAnswer M (readTlp c false a L) (op (readTlp c false a L))) :
    ∃ tail, consumeAll op (readLoop c false length n addr) acc = .ok (acc ++ M.read addr (length - n) ++ tail) := by
  induction hk : length - n using Nat.strongRecOn generalizing n addr acc with
  | ind k ih =>
    rw [readLoop]
    by_cases h : n < length
    · simp only [h, dite_true]
      obtain ⟨l1, l2, l3, l4⟩ := len_facts addr (length - n) (by omega)
      generalize len addr (length - n) = L at l1 l2 l3 l4 ⊢
      obtain ⟨cp, rest, e1, e2, e3, e4, e5⟩ := hop addr L l1 (by omega) (by omega) l3
      obtain ⟨f0, f1, -⟩ := readTlp_ok c false addr L l1 l3
      have hdata : cp.data.drop (addr % 4) = M.read addr L ++ cp.data.drop (addr % 4 + L) := by
        apply List.ext_getElem?
        intro i
        by_cases hi : i < L
        · rw [List.getElem?_append_left (by rw [Mem.read_length]; exact hi), List.getElem?_drop]
          have := e5 (addr % 4 + i) (by rw [f1, readTlp_enabled]; omega)
          rw [this, f1, List.getElem?_eq_getElem (by rw [Mem.read_length]; exact hi), Mem.read_getElem]
          congr 2; omega
        · rw [List.getElem?_append_right (by rw [Mem.read_length]; omega), Mem.read_length, List.getElem?_drop,
            List.getElem?_drop]
          congr 1; omega
      unfold consumeAll
      rw [e1]
      simp only [e2, e3]
      rw [if_neg (by simp), if_neg (by simp)]
      by_cases hlast : L = length - n
      · rw [readLoop, dif_neg (by omega)]
        refine ⟨cp.data.drop (addr % 4 + L), ?_⟩
        unfold consumeAll
        rw [hdata, ← hk, hlast, List.append_assoc]
      · have hfull : cp.data.drop (addr % 4 + L) = [] := List.drop_eq_nil_of_le (by rw [e4]; have := l4 (by omega); omega)
        obtain ⟨tail, ht⟩ := ih (length - (n + L)) (by omega) (n + L) (addr + L) (by omega)
          (acc ++ cp.data.drop (addr % 4)) (fun a L' h1 h2 h3 => hop a L' h1 (by omega) (by omega)) rfl
        refine ⟨tail, ?_⟩
        rw [ht, hdata, hfull, List.append_nil, List.append_assoc acc, Mem.read_append, show L + (length - (n + L)) = k by omega]
    · simp only [h, dite_false]
      have : k = 0 := by omega
      subst this
      exact ⟨[], by simp [consumeAll, Mem.read]⟩

theorem read_ok (c : ReqCfg) (length addr : Nat) (h0 : 0 < length) (hbm : c.busMasterEnable = true) (M : Mem)
    (op : Tlp → List Tlp)
    (hop : ∀ a L, 0 < L → addr ≤ a → a + L ≤ addr + length → a % 4 + L ≤ 4 →
      Spec.DwordAnswer M (readTlp c false a L) (op (readTlp c false a L))) :
    read c op addr length = .ok (M.read addr length) := by
  have hz : ¬ length = 0 := by omega
  obtain ⟨tail, ht⟩ := consumeAll_readLoop c length 0 addr (by omega) M op [] (by simpa using hop)
  unfold read readReqs
  simp only [hz, hbm, if_false, decide_false, not_true_eq_false, bind, Except.bind, ht, List.nil_append, Nat.sub_zero]
  rw [List.take_append_of_le_length (by rw [Mem.read_length]; omega), List.take_of_length_le (by rw [Mem.read_length]; omega)]

end IoRegion

theorem readRuns_step (M : Mem) (base : Nat) (data : List UInt8) (a b : Nat) (h1 : a < b) (h2 : b ≤ data.length) (i : Nat)
    (hi : i < data.length) :
    (data.take a ++ M.read (base + a) (b - a) ++ data.drop b).length = data.length ∧
    (data.take a ++ M.read (base + a) (b - a) ++ data.drop b)[i]? = some (if a ≤ i ∧ i < b then M (base + i) else data[i]) := by
  constructor
  · simp [Mem.read_length]; omega
  · by_cases c1 : i < a
    · rw [if_neg (by omega), List.append_assoc, List.getElem?_append_left (by simp; omega), List.getElem?_take, if_pos c1,
        List.getElem?_eq_getElem hi]
    · by_cases c2 : i < b
      · rw [if_pos (by omega), List.getElem?_append_left (by simp [Mem.read_length]; omega),
          List.getElem?_append_right (by simp; omega), List.getElem?_eq_getElem (by simp [Mem.read_length]; omega), Mem.read_getElem]
        simp only [List.length_take]
        congr 2; omega
      · rw [if_neg (by omega), List.getElem?_append_right (by simp [Mem.read_length]; omega), List.getElem?_drop,
          List.getElem?_eq_getElem (by simp [Mem.read_length]; omega)]
        congr 2
        simp only [List.length_append, List.length_take, Mem.read_length]; omega

theorem rc_readRuns (s : AddrSpace) (base : Nat) (runs : List (Nat × Nat)) (data : List UInt8)
    (hr : ∀ r ∈ runs, r.1 < r.2 ∧ r.2 ≤ data.length) (hok : ∀ r ∈ runs, s.readOk (base + r.1) (r.2 - r.1) = true) :
    ∃ d, Rc.readRuns s base runs data = .ok d ∧ d.length = data.length ∧
      ∀ i, (hi : i < data.length) → d[i]? = some (if ∃ r ∈ runs, r.1 ≤ i ∧ i < r.2 then s.mem (base + i) else data[i]) := by
  induction runs generalizing data with
  | nil => exact ⟨data, rfl, rfl, fun i hi => by simp [hi]⟩
  | cons r rest ih =>
    have h1 := hr r (List.mem_cons_self ..)
    have hst := fun i hi => readRuns_step s.mem base data r.1 r.2 h1.1 h1.2 i hi
    have hlen : (data.take r.1 ++ s.mem.read (base + r.1) (r.2 - r.1) ++ data.drop r.2).length = data.length := by
      simp [Mem.read_length]; omega
    obtain ⟨d, d1, d2, d3⟩ := ih (data.take r.1 ++ s.mem.read (base + r.1) (r.2 - r.1) ++ data.drop r.2)
      (fun x hx => by rw [hlen]; exact hr x (List.mem_cons_of_mem _ hx))
      (fun x hx => hok x (List.mem_cons_of_mem _ hx))
    refine ⟨d, ?_, by rw [d2, hlen], ?_⟩
    · unfold Rc.readRuns AddrSpace.read
      rw [if_pos (hok r (List.mem_cons_self ..))]
      exact d1
    · intro i hi
      rw [d3 i (by rw [hlen]; exact hi)]
      congr 1
      by_cases hc : ∃ x ∈ rest, x.1 ≤ i ∧ i < x.2
      · obtain ⟨x, hx, hxi⟩ := hc
        rw [if_pos ⟨x, hx, hxi⟩, if_pos ⟨x, List.mem_cons_of_mem _ hx, hxi⟩]
      · rw [if_neg hc]
        have := (hst i hi).2
        rw [List.getElem?_eq_getElem (by rw [hlen]; exact hi)] at this
        rw [Option.some.inj this]
        by_cases hh : r.1 ≤ i ∧ i < r.2
        · rw [if_pos hh, if_pos ⟨r, List.mem_cons_self .., hh⟩]
        · rw [if_neg hh, if_neg]
          rintro ⟨x, hx, hxi⟩
          rcases List.mem_cons.1 hx with rfl | hx
          · exact hh hxi
          · exact hc ⟨x, hx, hxi⟩

theorem ep_readRuns (e : MemEp) (b : Buf) (region base : Nat) (hbuf : e.regions[region]? = some (some b))
    (runs : List (Nat × Nat)) (data : List UInt8)
    (hr : ∀ r ∈ runs, r.1 < r.2 ∧ r.2 ≤ data.length) (hok : ∀ r ∈ runs, base + r.2 ≤ b.size) :
    ∃ d, e.readRuns region base runs data = .ok d ∧ d.length = data.length ∧
      ∀ i, (hi : i < data.length) → d[i]? = some (if ∃ r ∈ runs, r.1 ≤ i ∧ i < r.2 then b.mem (base + i) else data[i]) := by
  induction runs generalizing data with
  | nil => exact ⟨data, rfl, rfl, fun i hi => by simp [hi]⟩
  | cons r rest ih =>
    have h1 := hr r (List.mem_cons_self ..)
    have h2 := hok r (List.mem_cons_self ..)
    have hst := fun i hi => readRuns_step b.mem base data r.1 r.2 h1.1 h1.2 i hi
    have hlen : (data.take r.1 ++ b.mem.read (base + r.1) (r.2 - r.1) ++ data.drop r.2).length = data.length := by
      simp [Mem.read_length]; omega
    obtain ⟨d, d1, d2, d3⟩ := ih (data.take r.1 ++ b.mem.read (base + r.1) (r.2 - r.1) ++ data.drop r.2)
      (fun x hx => by rw [hlen]; exact hr x (List.mem_cons_of_mem _ hx))
      (fun x hx => hok x (List.mem_cons_of_mem _ hx))
    refine ⟨d, ?_, by rw [d2, hlen], ?_⟩
    · unfold MemEp.readRuns MemEp.readRegion Buf.read
      simp only [hbuf, bind, Except.bind]
      rw [show min (base + r.1 + (r.2 - r.1)) b.size - (base + r.1) = r.2 - r.1 by omega]
      exact d1
    · intro i hi
      rw [d3 i (by rw [hlen]; exact hi)]
      congr 1
      by_cases hc : ∃ x ∈ rest, x.1 ≤ i ∧ i < x.2
      · obtain ⟨x, hx, hxi⟩ := hc
        rw [if_pos ⟨x, hx, hxi⟩, if_pos ⟨x, List.mem_cons_of_mem _ hx, hxi⟩]
      · rw [if_neg hc]
        have := (hst i hi).2
        rw [List.getElem?_eq_getElem (by rw [hlen]; exact hi)] at this
        rw [Option.some.inj this]
        by_cases hh : r.1 ≤ i ∧ i < r.2
        · rw [if_pos hh, if_pos ⟨r, List.mem_cons_self .., hh⟩]
        · rw [if_neg hh, if_neg]
          rintro ⟨x, hx, hxi⟩
          rcases List.mem_cons.1 hx with rfl | hx
          · exact hh hxi
          · exact hc ⟨x, hx, hxi⟩

theorem enabled_lt_length (t : Tlp) (i : Nat) (h : Spec.byteEnabled t (t.address + i)) : i < 4 * t.length := by
  obtain ⟨-, h2, -⟩ := h
  rw [Nat.add_sub_cancel_left] at h2; omega

theorem rc_ioRead (id : PcieId) (s : AddrSpace) (t : Tlp) (hl : t.length = 1) (hc : s.covers t.address 4 = true)
    (hr : ∀ a n, 0 < n → (∀ b, a ≤ b → b < a + n → Spec.byteEnabled t b) → s.readOk a n = true) :
    ∃ c, Rc.handleIoRead id s t = .ok [c] ∧ Spec.DwordAnswer s.mem t [c] ∧ c.requester_id = t.requester_id ∧
      c.tag = t.tag ∧ c.completer_id = id ∧ c.byte_count = 4 := by
  obtain ⟨r1, r2⟩ := ioRuns_spec t hl
  obtain ⟨d, d1, d2, d3⟩ := rc_readRuns s t.address (ioRuns t) [0, 0, 0, 0] r2 (fun r hr' => by
    have := r2 r hr'
    exact hr _ _ (by omega) (fun b hb1 hb2 => run_enabled t _ r1 r hr' b hb1 (by omega)))
  unfold Rc.handleIoRead
  rw [hl, hc]
  simp only [not_true_eq_false, if_false, ne_eq, d1]
  refine ⟨_, rfl, ⟨_, [], rfl, rfl, rfl, d2, ?_⟩, rfl, rfl, rfl, rfl⟩
  intro i hi
  have hlt := enabled_lt_length t i hi
  show d[i]? = _
  rw [d3 i (by simp; omega), if_pos ((r1 i).2 hi)]

theorem ep_ioRead (e : MemEp) (b : Buf) (idx off : Nat) (t : Tlp) (hl : t.length = 1)
    (hm : matchBar e.bars t.address true = .ok (some (idx, off))) (hbuf : e.regions[idx]? = some (some b))
    (hw : ∀ i, Spec.byteEnabled t (t.address + i) → off + i < b.size) :
    ∃ c, e.handleIoRead t = .ok [c] ∧ Spec.DwordAnswer (fun a => b.mem (a - t.address + off)) t [c] ∧
      c.requester_id = t.requester_id ∧ c.tag = t.tag ∧ c.completer_id = e.id ∧ c.byte_count = 4 := by
  obtain ⟨r1, r2⟩ := ioRuns_spec t hl
  obtain ⟨d, d1, d2, d3⟩ := ep_readRuns e b idx off hbuf (ioRuns t) [0, 0, 0, 0] r2 (fun r hr' => by
    have := r2 r hr'
    have := hw _ ((r1 (r.2 - 1)).1 ⟨r, hr', by omega, by omega⟩)
    omega)
  unfold MemEp.handleIoRead
  simp only [hm, bind, Except.bind, hl, ne_eq, not_true_eq_false, if_false, d1]
  refine ⟨_, rfl, ⟨_, [], rfl, rfl, rfl, d2, ?_⟩, rfl, rfl, rfl, rfl⟩
  intro i hi
  have hlt := enabled_lt_length t i hi
  show d[i]? = _
  rw [d3 i (by simp; omega), if_pos ((r1 i).2 hi)]
  simp [Nat.add_comm]

theorem rc_ioWrite (id : PcieId) (s : AddrSpace) (t : Tlp) (hl : t.length = 1) (hd : t.data.length = 4)
    (hc : s.covers t.address 4 = true)
    (hw : ∀ a n, 0 < n → (∀ b, a ≤ b → b < a + n → Spec.byteEnabled t b) → s.writeOk a n = true) :
    ∃ c, Rc.handleIoWrite id s t = .ok ({ s with mem := storeTlp s.mem t t.address }, [c]) ∧ c.status = CplStatus.SC ∧
      c.requester_id = t.requester_id ∧ c.tag = t.tag ∧ c.completer_id = id := by
  obtain ⟨r1, r2⟩ := ioRuns_spec t hl
  unfold Rc.handleIoWrite
  rw [hl, hc]
  simp only [not_true_eq_false, if_false, ne_eq]
  rw [rc_applyRuns _ _ _ _ (by rw [hd]; exact r2)]
  · simp only
    rw [writeRuns_storeTlp t s.mem t.address _ r1 (by rw [hd]; exact r2)]
    exact ⟨_, rfl, rfl, rfl, rfl, rfl⟩
  · intro r hr
    have := r2 r hr
    exact hw _ _ (by omega) (fun b hb1 hb2 => run_enabled t _ r1 r hr b hb1 (by omega))

theorem ep_ioWrite (e : MemEp) (b : Buf) (idx off : Nat) (t : Tlp) (hl : t.length = 1) (hd : t.data.length = 4)
    (hm : matchBar e.bars t.address true = .ok (some (idx, off))) (hbuf : e.regions[idx]? = some (some b))
    (hw : ∀ i, Spec.byteEnabled t (t.address + i) → off + i < b.size) :
    ∃ c, e.handleIoWrite t = .ok ({ e with regions := e.regions.set idx (some { b with mem := storeTlp b.mem t off }) }, [c]) ∧
      c.status = CplStatus.SC ∧ c.requester_id = t.requester_id ∧ c.tag = t.tag ∧ c.completer_id = e.id := by
  obtain ⟨r1, r2⟩ := ioRuns_spec t hl
  unfold MemEp.handleIoWrite
  simp only [hm, bind, Except.bind, hl, ne_eq, not_true_eq_false, if_false]
  rw [ep_applyRuns idx off t.data (ioRuns t) e b hbuf (by rw [hd]; exact r2)]
  · rw [writeRuns_storeTlp t b.mem off _ r1 (by rw [hd]; exact r2)]
    exact ⟨_, rfl, rfl, rfl, rfl, rfl⟩
  · intro r hr
    have := r2 r hr
    have := hw _ ((r1 (r.2 - 1)).1 ⟨r, hr, by omega, by omega⟩)
    omega

end Pcie
