/-
Helper lemmas: completions for memory reads and their consumption.
-/
import Verif.Lemmas.MemWrite
namespace Pcie
open Tlp

theorem and_3c (a : Nat) : a &&& 0x3c = (a % 64) / 4 * 4 := by
  have e : (0x3c : Nat) = 15 <<< 2 := by decide
  have e2 : a = (a / 4) <<< 2 ||| a % 4 := by rw [shl_or_add _ _ 2 (by omega)]; omega
  have h0 : a % 4 &&& 0x3c = 0 := by
    rw [show a % 4 = a % 2 ^ 2 from rfl, ← and_m2, Nat.and_assoc]; simp
  rw [e2, Nat.and_or_distrib_right]
  have : (a / 4) <<< 2 % 4 = 0 := by rw [Nat.shiftLeft_eq]; omega
  rw [h0, Nat.or_zero, e, ← Nat.shiftLeft_and_distrib, and_m4, Nat.shiftLeft_eq, ← e2]
  omega

theorem and_7c' (a : Nat) : a &&& 0x7c = (a % 128) / 4 * 4 := by
  have e : (0x7c : Nat) = 31 <<< 2 := by decide
  have e2 : a = (a / 4) <<< 2 ||| a % 4 := by rw [shl_or_add _ _ 2 (by omega)]; omega
  have h0 : a % 4 &&& 0x7c = 0 := by
    rw [show a % 4 = a % 2 ^ 2 from rfl, ← and_m2, Nat.and_assoc]; simp
  rw [e2, Nat.and_or_distrib_right]
  rw [h0, Nat.or_zero, e, ← Nat.shiftLeft_and_distrib, and_m5, Nat.shiftLeft_eq, ← e2]
  omega

theorem CplCfg.rcb_cases (c : CplCfg) : c.rcb = 128 ∨ c.rcb = 64 := by unfold CplCfg.rcb; split <;> simp

theorem CplCfg.mask_eq (c : CplCfg) (a : Nat) : a &&& ((c.rcb - 1) &&& 0xfc) = (a % c.rcb) / 4 * 4 := by
  rcases c.rcb_cases with h | h <;> rw [h]
  · exact and_7c' a
  · exact and_3c a

/-- The next completion is either the last, or ends on a read completion boundary; it fits the payload size. -/
theorem CplCfg.chunk_spec (c : CplCfg) (r a : Nat) (h : 0 < r) :
    0 < c.chunk r a ∧ c.chunk r a ≤ r ∧ 4 * c.chunk r a ≤ 128 <<< c.mps ∧
    (c.chunk r a = r ∨ (a / 4 * 4 + 4 * c.chunk r a) % c.rcb = 0) := by
  refine ⟨c.chunk_pos r a h, ?_⟩
  unfold CplCfg.chunk
  simp only [c.mask_eq, Nat.shiftRight_eq_div_pow, mps_pow]
  have hp := pow_pos' c.mps
  have e32 : 32 <<< c.mps = 32 * 2 ^ c.mps := Nat.shiftLeft_eq ..
  rw [e32]
  generalize 2 ^ c.mps = p at *
  rcases c.rcb_cases with hr | hr <;> rw [hr] <;> split
  · refine ⟨by omega, by omega, ?_⟩
    by_cases hm : r ≤ (128 - a % 128 / 4 * 4) / 2 ^ 2
    · left; omega
    · right; omega
  · split
    · refine ⟨by omega, by omega, ?_⟩; right; omega
    · refine ⟨by omega, by omega, ?_⟩; left; rfl
  · refine ⟨by omega, by omega, ?_⟩
    by_cases hm : r ≤ (64 - a % 64 / 4 * 4) / 2 ^ 2
    · left; omega
    · right; omega
  · split
    · refine ⟨by omega, by omega, ?_⟩; right; omega
    · refine ⟨by omega, by omega, ?_⟩; left; rfl

theorem be_first_le (t : Tlp) : t.firstBeOffset ≤ 3 := by
  unfold Tlp.firstBeOffset; split <;> (try split) <;> (try split) <;> omega

theorem be_last_le (t : Tlp) : t.lastBeOffset ≤ 3 := by
  unfold Tlp.lastBeOffset; simp only; generalize (if t.length = 1 then t.first_be else t.last_be) = x; split <;> (try split) <;> (try split) <;> omega

theorem be_one_dword (fb : Nat) :
    (if fb &&& 0x7 = 0 then 3 else if fb &&& 0x3 = 0 then 2 else if fb &&& 0x1 = 0 then 1 else 0) +
    (if fb &&& 0xf = 0x1 then 3 else if fb &&& 0xe = 0x2 then 2 else if fb &&& 0xc = 0x4 then 1 else 0) ≤ 3 := by
  have key : ∀ x : Nat, x < 16 →
      (if x &&& 0x7 = 0 then 3 else if x &&& 0x3 = 0 then 2 else if x &&& 0x1 = 0 then 1 else 0) +
      (if x &&& 0xf = 0x1 then 3 else if x &&& 0xe = 0x2 then 2 else if x &&& 0xc = 0x4 then 1 else 0) ≤ 3 := by decide
  have h := key (fb % 2 ^ 4) (by omega)
  have e : ∀ m, m &&& 0xf = m → fb % 2 ^ 4 &&& m = fb &&& m := by
    intro m hm
    rw [← and_m4, Nat.and_assoc, Nat.and_comm 0xf m, hm]
  rw [e 7 rfl, e 3 rfl, e 1 rfl, e 0xf rfl, e 0xe rfl, e 0xc rfl] at h
  exact h

/-- A read request always covers at least one byte, and its byte count reaches into the last dword. -/
theorem be_count (t : Tlp) (hl : 1 ≤ t.length) :
    t.beByteCount = 4 * t.length - t.firstBeOffset - t.lastBeOffset ∧ t.firstBeOffset + t.lastBeOffset < 4 * t.length := by
  refine ⟨by unfold Tlp.beByteCount; rw [Nat.mul_comm], ?_⟩
  by_cases h : t.length = 1
  · have := be_one_dword t.first_be
    unfold Tlp.firstBeOffset Tlp.lastBeOffset
    simp only [h, if_true]
    omega
  · have := be_first_le t
    have := be_last_le t
    omega

/-- The shape of one completion with data. -/
def mkCpl (id : PcieId) (t : Tlp) (bc la : Nat) (d : List UInt8) (k : Nat) : Tlp :=
  { fmt := 2, type := 10, requester_id := t.requester_id, completer_id := id, status := 0, attr := t.attr,
    tag := t.tag, tc := t.tc, byte_count := bc, lower_address := la, data := d, length := k }

theorem mkCpl_type (id : PcieId) (t : Tlp) (bc la : Nat) (d : List UInt8) (k : Nat) :
    (mkCpl id t bc la d k).fmtType = some .CPL_DATA := by
  unfold Tlp.fmtType mkCpl; simp only; decide

theorem mkCpl_check (id : PcieId) (t : Tlp) (bc la : Nat) (d : List UInt8) (k : Nat) (e1 : ¬ (k * 4 ≠ d.length))
    (e2 : ¬ (bc + (la &&& 3) + 3 < k * 4)) : (mkCpl id t bc la d k).check = .ok true := by
  have e1' : ¬ ((mkCpl id t bc la d k).length * 4 ≠ (mkCpl id t bc la d k).data.length) := e1
  have e2' : ¬ ((mkCpl id t bc la d k).byte_count + ((mkCpl id t bc la d k).lower_address &&& 3) + 3 < (mkCpl id t bc la d k).length * 4) := e2
  unfold Tlp.check
  rw [mkCpl_type]
  simp only [e1', e2', if_false]
  simp

theorem cplLoop_legal (c : CplCfg) (t : Tlp) (M : Mem) (A dw bl m n addr : Nat) (hA : A % 4 = 0) (hm : m < dw)
    (ha : addr / 4 * 4 = A + 4 * m) (hn : n < bl)
    (h1 : addr % 4 + (bl - n) ≤ 4 * (dw - m)) (h2 : 4 * (dw - m) ≤ addr % 4 + (bl - n) + 3) :
    Spec.LegalCpls M c.rcb (128 <<< c.mps) addr (bl - n) (cplLoop c t (M.read A (4 * dw)) dw bl m n addr) ∧
    ∀ x ∈ cplLoop c t (M.read A (4 * dw)) dw bl m n addr, x.requester_id = t.requester_id ∧ x.tag = t.tag ∧
      x.completer_id = c.id ∧ x.attr = t.attr ∧ x.tc = t.tc ∧ x.check = .ok true := by
  induction hk : dw - m using Nat.strongRecOn generalizing m n addr with
  | ind k0 ih =>
    rw [cplLoop]
    simp only [hm, dite_true]
    obtain ⟨k1, k2, k3, k4⟩ := c.chunk_spec (dw - m) addr (by omega)
    generalize hkk : c.chunk (dw - m) addr = k at *
    have hsl : slice (M.read A (4 * dw)) (m * 4) ((m + k) * 4) = M.read (A + m * 4) (4 * k) := by
      rw [Mem.read_slice _ _ _ _ _ (by omega) (by omega)]; congr 1; omega
    rw [hsl]
    have hlen : (M.read (A + m * 4) (4 * k)).length = 4 * k := Mem.read_length ..
    have hholds : Spec.Holds M (addr / 4 * 4) (4 * k) (M.read (A + m * 4) (4 * k)) := by
      rw [ha, show A + 4 * m = A + m * 4 by omega]; exact Mem.read_holds ..
    have hcl : ({ t.createCompletionData c.id with byte_count := bl - n, lower_address := addr &&& 0x7f } : Tlp).setData
        (M.read (A + m * 4) (4 * k)) = mkCpl c.id t (bl - n) (addr % 128) (M.read (A + m * 4) (4 * k)) k := by
      unfold Tlp.setData; rw [hlen, and_7f]
      rw [show 4 * k / 4 = k by omega]; rfl
    rw [hcl]
    have hchk : (mkCpl c.id t (bl - n) (addr % 128) (M.read (A + m * 4) (4 * k)) k).check = .ok true := by
      exact mkCpl_check _ _ _ _ _ _ (by rw [hlen]; omega) (by rw [and_m2]; omega)
    rw [and_m2, show addr % 2 ^ 2 = addr % 4 from rfl]
    by_cases hlast : k = dw - m
    · have hnil : cplLoop c t (M.read A (4 * dw)) dw bl (m + k) (n + (k * 4 - addr % 4)) (addr + (k * 4 - addr % 4)) = [] := by
        rw [cplLoop]; rw [dif_neg (by omega)]
      rw [hnil]
      constructor
      · refine .last addr (bl - n) _ (by omega) rfl ?_ rfl rfl ?_ ?_ hholds
        · exact mkCpl_type ..
        · show _ ; simp only [mkCpl]; omega
        · show _ ; simp only [mkCpl]; omega
      · intro x hx
        rcases List.mem_cons.1 hx with rfl | hx
        · exact ⟨rfl, rfl, rfl, rfl, rfl, hchk⟩
        · cases hx
    · have ha2 : (addr + (k * 4 - addr % 4)) / 4 * 4 = A + 4 * (m + k) := by omega
      have hal : (addr + (k * 4 - addr % 4)) % 4 = 0 := by omega
      obtain ⟨i1, i2⟩ := ih (dw - (m + k)) (by omega) (m + k) (n + (k * 4 - addr % 4)) (addr + (k * 4 - addr % 4)) (by omega)
        ha2 (by omega) (by omega) (by omega) rfl
      constructor
      · refine .more addr (bl - n) _ _ rfl ?_ rfl rfl ?_ ?_ ?_ ?_ hholds ?_
        · exact mkCpl_type ..
        · exact k1
        · show _ ; simp only [mkCpl]; omega
        · exact k3
        · rcases k4 with k4 | k4
          · omega
          · exact k4
        · simp only [mkCpl]
          rw [show addr / 4 * 4 + 4 * k = addr + (k * 4 - addr % 4) by omega,
            show addr % 4 + (bl - n) - 4 * k = bl - (n + (k * 4 - addr % 4)) by omega]
          exact i1
      · intro x hx
        rcases List.mem_cons.1 hx with rfl | hx
        · exact ⟨rfl, rfl, rfl, rfl, rfl, hchk⟩
        · exact i2 x hx

/-- The completions for any read request (any byte enables). -/
theorem memReadCpls_legal (c : CplCfg) (t : Tlp) (M : Mem) (hA : t.address % 4 = 0) (hl : 1 ≤ t.length) :
    Spec.LegalCpls M c.rcb (128 <<< c.mps) (t.address + t.firstBeOffset) t.beByteCount
      (memReadCpls c t (M.read t.address (4 * t.length))) ∧
    ∀ x ∈ memReadCpls c t (M.read t.address (4 * t.length)), x.requester_id = t.requester_id ∧ x.tag = t.tag ∧
      x.completer_id = c.id ∧ x.attr = t.attr ∧ x.tc = t.tc ∧ x.check = .ok true := by
  obtain ⟨b1, b2⟩ := be_count t hl
  have b3 := be_first_le t
  have b4 := be_last_le t
  unfold memReadCpls
  have := cplLoop_legal c t M t.address t.length t.beByteCount 0 0 (t.address + t.firstBeOffset) hA (by omega)
    (by omega) (by omega) (by omega) (by omega)
  simpa using this

/-! ### Consumption -/

theorem consume_legal {M : Mem} {rcb mps addr r : Nat} {cpls : List Tlp} (h : Spec.LegalCpls M rcb mps addr r cpls)
    (bl m : Nat) (acc : List UInt8) (hr : r = bl - m) : Region.consume bl m cpls acc = .ok (acc ++ M.read addr r) := by
  induction h generalizing m acc with
  | last addr r c h0 hs hf hla hbc hl hmp hh =>
    have hlt : m < bl := by omega
    have hoff : c.lower_address &&& 3 = addr % 4 := by rw [hla, and_m2]; omega
    rw [Region.consume.eq_def]
    simp only [hlt, if_true, hs, hbc, hoff, hl]
    rw [if_neg (by simp), if_neg (by omega), if_neg (by omega)]
    have hd := hh.eq
    have hdl := hh.1
    rw [Region.consume.eq_def]
    have hge : ¬ (m + (c.data.length - addr % 4) < bl) := by rw [hdl, hl]; omega
    simp only [hge, if_false]
    rw [hd, Mem.read_slice _ _ _ _ _ (by omega) (by rw [hl]; omega)]
    rw [show addr / 4 * 4 + addr % 4 = addr by omega, Nat.add_sub_cancel_left]
  | more addr r c rest hs hf hla hbc hl hgt hmp hb hh hrest ih =>
    have hlt : m < bl := by omega
    have hoff : c.lower_address &&& 3 = addr % 4 := by rw [hla, and_m2]; omega
    rw [Region.consume.eq_def]
    simp only [hlt, if_true, hs, hbc, hoff]
    rw [if_neg (by simp), if_neg (by omega), if_neg (by omega)]
    have hd := hh.eq
    have hdl := hh.1
    rw [ih (m + (c.data.length - addr % 4)) _ (by rw [hdl]; omega)]
    have hsl : slice c.data (addr % 4) (addr % 4 + r) = M.read addr (4 * c.length - addr % 4) := by
      have : slice c.data (addr % 4) (addr % 4 + r) = slice c.data (addr % 4) (4 * c.length) := by
        unfold slice
        rw [List.take_of_length_le (by omega), List.take_of_length_le (by omega)]
      rw [this, hd, Mem.read_slice _ _ _ _ _ (by omega) (by omega)]
      congr 1; omega
    rw [hsl, List.append_assoc]
    have := Mem.read_append M addr (4 * c.length - addr % 4) (addr % 4 + r - 4 * c.length)
    rw [show addr + (4 * c.length - addr % 4) = addr / 4 * 4 + 4 * c.length by omega,
      show 4 * c.length - addr % 4 + (addr % 4 + r - 4 * c.length) = r by omega] at this
    rw [this]

theorem collect_legal {M : Mem} {rcb mps addr r : Nat} {cpls : List Tlp} (h : Spec.LegalCpls M rcb mps addr r cpls)
    (extra : List Tlp) : Region.collect true (cpls ++ extra) = (cpls, extra) := by
  induction h with
  | last addr r c h0 hs hf hla hbc hl hmp hh =>
    have hoff : c.lower_address &&& 3 = addr % 4 := by rw [hla, and_m2]; omega
    show Region.collect true (c :: extra) = _
    unfold Region.collect
    rw [if_neg (by rw [hs]; simp), if_pos rfl, if_pos (by rw [hbc, hoff, hl]; omega)]
  | more addr r c rest hs hf hla hbc hl hgt hmp hb hh hrest ih =>
    have hoff : c.lower_address &&& 3 = addr % 4 := by rw [hla, and_m2]; omega
    show Region.collect true (c :: (rest ++ extra)) = _
    unfold Region.collect
    rw [if_neg (by rw [hs]; simp), if_pos rfl, if_neg (by rw [hbc, hoff]; omega), if_neg (by rw [hf]; simp), ih]

theorem consumeAll_readLoop (c : ReqCfg) (attr tc length n addr : Nat) (hn : n ≤ length) (M : Mem) (op : Tlp → List Tlp)
    (acc : List UInt8)
    (hop : ∀ a L, 0 < L → addr ≤ a → a + L ≤ addr + (length - n) → a % 4096 + L ≤ 4096 → a % 4 + L ≤ 128 <<< c.mrrs →
      ∃ rcb mps, Spec.LegalCpls M rcb mps a L (op (Region.readTlp c attr tc false a L))) :
    Region.consumeAll op (Region.readLoop c attr tc false length n addr) acc = .ok (acc ++ M.read addr (length - n)) := by
  induction hk : length - n using Nat.strongRecOn generalizing n addr acc with
  | ind k ih =>
    rw [Region.readLoop]
    by_cases h : n < length
    · simp only [h, dite_true]
      obtain ⟨l1, l2, l3, l4⟩ := Region.readLen_facts c addr (length - n) (by omega)
      generalize Region.readLen c addr (length - n) = L at l1 l2 l3 l4 ⊢
      obtain ⟨rcb, mps, hl⟩ := hop addr L l1 (by omega) (by omega) l4 l3
      unfold Region.consumeAll
      rw [consume_legal hl L 0 acc (by omega)]
      simp only [bind, Except.bind]
      rw [ih (length - (n + L)) (by omega) (n + L) (addr + L) (by omega) _ _ rfl]
      · rw [List.append_assoc, Mem.read_append, show L + (length - (n + L)) = k by omega]
      · intro a L' h1 h2 h3; exact hop a L' h1 (by omega) (by omega)
    · simp only [h, dite_false]
      have : k = 0 := by omega
      subst this
      simp [Region.consumeAll, Mem.read]

theorem region_read (c : ReqCfg) (attr tc length addr : Nat) (h0 : 0 < length) (hbm : c.busMasterEnable = true) (M : Mem)
    (op : Tlp → List Tlp)
    (hop : ∀ a L, 0 < L → addr ≤ a → a + L ≤ addr + length → a % 4096 + L ≤ 4096 → a % 4 + L ≤ 128 <<< c.mrrs →
      ∃ rcb mps, Spec.LegalCpls M rcb mps a L (op (Region.readTlp c attr tc false a L))) :
    Region.read c op addr length attr tc = .ok (M.read addr length) := by
  have hz : ¬ length = 0 := by omega
  have := consumeAll_readLoop c attr tc length 0 addr (by omega) M op [] (by simpa using hop)
  unfold Region.read Region.readReqs
  simp only [hz, hbm, if_false, decide_false, not_true_eq_false, bind, Except.bind, this, List.nil_append, Nat.sub_zero]
  rw [List.take_of_length_le (by rw [Mem.read_length]; omega)]

theorem rc_memRead (cfg : CplCfg) (s : AddrSpace) (t : Tlp) (hb : t.address % 4096 + 4 * t.length ≤ 4096)
    (hc : s.covers t.address (t.length * 4) = true) (hr : s.readOk t.address (t.length * 4) = true) :
    Rc.handleMemRead cfg s t = memReadCpls cfg t (s.mem.read t.address (4 * t.length)) := by
  unfold Rc.handleMemRead AddrSpace.read
  rw [and_fff, if_neg (by rw [hc]; simp), if_neg (by omega), if_pos hr, Nat.mul_comm]

open Spec (busView)

theorem busView_read (b : Buf) (base a n : Nat) (h : base ≤ a) : (busView b base).read a n = b.mem.read (a - base) n := by
  unfold Mem.read Spec.busView
  apply List.map_congr_left
  intro i _
  rw [show a + i - base = a - base + i by omega]

theorem ep_memRead (e : MemEp) (t : Tlp) (idx base : Nat) (b : Buf)
    (hm : matchBar e.bars t.address = .ok (some (idx, t.address - base))) (hbuf : e.regions[idx]? = some (some b))
    (hlo : base ≤ t.address) (hhi : t.address + 4 * t.length ≤ base + b.size)
    (hb : (t.address - base) % 4096 + 4 * t.length ≤ 4096) :
    e.handleMemRead t = .ok (memReadCpls e.cplCfg t ((busView b base).read t.address (4 * t.length))) := by
  unfold MemEp.handleMemRead
  simp only [hm, bind, Except.bind]
  rw [and_fff, if_neg (by omega)]
  unfold MemEp.readRegion Buf.read
  simp only [hbuf]
  rw [busView_read _ _ _ _ hlo]
  rw [show min (t.address - base + t.length * 4) b.size - (t.address - base) = 4 * t.length by omega]

theorem readTlp_tag_decode (c : ReqCfg) (attr tc a L tag : Nat) (h : 0 < L) :
    let t := { Region.readTlp c attr tc false a L with tag := tag }
    t.address + t.firstBeOffset = a ∧ t.beByteCount = L :=
  Region.readTlp_decode c attr tc a L h

theorem readTlp_tag_isMemRead (c : ReqCfg) (attr tc a L : Nat) (h : 0 < L) (z : Bool) :
    Region.isMemRead (Region.readTlp c attr tc z a L) = true := by
  have := (Region.readTlp_fields c attr tc z a L h).2.2.2.1
  unfold Region.isMemRead
  rw [this]; split <;> simp

end Pcie
