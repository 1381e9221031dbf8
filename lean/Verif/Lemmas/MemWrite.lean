/-
Helper lemmas: effect of write TLPs on a completer.
-/
import Verif.Lemmas.Region
namespace Pcie
open Tlp

/-- The memory after the enabled bytes of `t` are stored at `off ..` (`off` is where `t.address` is mapped). -/
def storeTlp (m : Mem) (t : Tlp) (off : Nat) : Mem :=
  fun a => if off ≤ a ∧ Spec.byteEnabled t (a - off + t.address) then t.data.getD (a - off) 0 else m a

theorem writeRuns_storeTlp (t : Tlp) (m : Mem) (off : Nat) (runs : List (Nat × Nat))
    (h1 : ∀ o, (∃ r ∈ runs, r.1 ≤ o ∧ o < r.2) ↔ Spec.byteEnabled t (t.address + o))
    (h2 : ∀ r ∈ runs, r.1 < r.2 ∧ r.2 ≤ t.data.length) :
    writeRuns off t.data runs m = storeTlp m t off := by
  funext a
  rw [writeRuns_spec off t.data runs h2]
  unfold storeTlp
  by_cases ha : off ≤ a
  · simp only [ha, true_and, h1, Nat.add_comm t.address]
  · simp [ha]

theorem run_enabled (t : Tlp) (runs : List (Nat × Nat))
    (h1 : ∀ o, (∃ r ∈ runs, r.1 ≤ o ∧ o < r.2) ↔ Spec.byteEnabled t (t.address + o))
    (r : Nat × Nat) (hr : r ∈ runs) (b : Nat) (hb1 : t.address + r.1 ≤ b) (hb2 : b < t.address + r.2) :
    Spec.byteEnabled t b := by
  have := (h1 (b - t.address)).1 ⟨r, hr, by omega, by omega⟩
  rwa [Nat.add_sub_cancel' (by omega)] at this

theorem rc_memWrite_effect (s : AddrSpace) (t : Tlp) (hl : 1 ≤ t.length) (hd : t.data.length = 4 * t.length)
    (hb : t.address % 4096 + 4 * t.length ≤ 4096) (hc : s.covers t.address (t.length * 4) = true)
    (hw : ∀ a n, 0 < n → (∀ b, a ≤ b → b < a + n → Spec.byteEnabled t b) → s.writeOk a n = true) :
    Rc.handleMemWrite s t = { s with mem := storeTlp s.mem t t.address } := by
  obtain ⟨r1, r2⟩ := memRuns_spec t hl
  unfold Rc.handleMemWrite
  rw [and_fff, if_neg (by rw [hc]; simp), if_neg (by omega)]
  rw [rc_applyRuns _ _ _ _ (by rw [hd]; exact r2)]
  · simp only
    rw [writeRuns_storeTlp t s.mem t.address _ r1 (by rw [hd]; exact r2)]
  · intro r hr
    have := r2 r hr
    exact hw _ _ (by omega) (fun b hb1 hb2 => run_enabled t _ r1 r hr b hb1 (by omega))

theorem rc_memWrite_none (s : AddrSpace) (t : Tlp) (hl : 1 ≤ t.length) (he : ∀ a, ¬ Spec.byteEnabled t a) :
    Rc.handleMemWrite s t = s := by
  obtain ⟨r1, r2⟩ := memRuns_spec t hl
  have : memRuns t = [] := by
    cases h : memRuns t with
    | nil => rfl
    | cons r rest =>
      exfalso
      have hr := r2 r (by rw [h]; exact List.mem_cons_self ..)
      exact he _ ((r1 r.1).1 ⟨r, by rw [h]; exact List.mem_cons_self .., Nat.le_refl _, hr.1⟩)
  unfold Rc.handleMemWrite
  split
  · rfl
  · split
    · rfl
    · rw [this]; rfl

theorem ep_memWrite_effect (e : MemEp) (t : Tlp) (idx off : Nat) (b : Buf)
    (hm : matchBar e.bars t.address = .ok (some (idx, off))) (hbuf : e.regions[idx]? = some (some b))
    (hl : 1 ≤ t.length) (hd : t.data.length = 4 * t.length)
    (hb : off % 4096 + 4 * t.length ≤ 4096)
    (hw : ∀ a, Spec.byteEnabled t a → a - t.address + off < b.size) :
    e.handleMemWrite t = .ok { e with regions := e.regions.set idx (some { b with mem := storeTlp b.mem t off }) } := by
  obtain ⟨r1, r2⟩ := memRuns_spec t hl
  unfold MemEp.handleMemWrite
  simp only [hm, bind, Except.bind]
  rw [and_fff, if_neg (by omega)]
  rw [ep_applyRuns idx off t.data (memRuns t) e b hbuf (by rw [hd]; exact r2)]
  · rw [writeRuns_storeTlp t b.mem off _ r1 (by rw [hd]; exact r2)]
  · intro r hr
    have := r2 r hr
    have := hw _ ((r1 (r.2 - 1)).1 ⟨r, hr, by omega, by omega⟩)
    omega

theorem storeTlp_write (m : Mem) (c : ReqCfg) (attr tc addr off : Nat) (chunk : List UInt8) (h0 : 0 < chunk.length)
    (hoff : off % 4 = 0) :
    storeTlp m (Region.writeTlp c attr tc false addr chunk) off = m.write (off + addr % 4) chunk := by
  obtain ⟨f1, f2, f3, f4, -⟩ := Region.writeTlp_fields c attr tc false addr chunk h0
  funext a
  unfold storeTlp Mem.write
  simp only [Region.writeTlp_enabled, f1]
  by_cases h : off + addr % 4 ≤ a ∧ a < off + addr % 4 + chunk.length
  · rw [if_pos (by omega), if_pos h]
    have := f4 (a - (off + addr % 4)) (by omega)
    rw [show addr % 4 + (a - (off + addr % 4)) = a - off by omega] at this
    rw [List.getD_eq_getElem?_getD, this, List.getD_eq_getElem?_getD, List.getElem?_eq_getElem (by omega)]
  · rw [if_neg (by omega), if_neg h]

theorem slice_append_drop (data : List UInt8) (n L : Nat) : slice data n (n + L) ++ data.drop (n + L) = data.drop n := by
  unfold slice
  rw [List.drop_take, Nat.add_sub_cancel_left, ← List.drop_drop, List.take_append_drop]

theorem rc_writeLoop (c : ReqCfg) (attr tc : Nat) (data : List UInt8) (n addr : Nat) (hn : n ≤ data.length) (s : AddrSpace)
    (hcov : ∀ a k, addr / 4 * 4 ≤ a → a + k ≤ (addr + (data.length - n) + 3) / 4 * 4 → s.covers a k = true)
    (hw : ∀ a k, addr ≤ a → a + k ≤ addr + (data.length - n) → s.writeOk a k = true) :
    (Region.writeLoop c attr tc false data n addr).foldl Rc.handleMemWrite s =
      { s with mem := s.mem.write addr (data.drop n) } := by
  induction hk : data.length - n using Nat.strongRecOn generalizing n addr s with
  | ind k ih =>
    rw [Region.writeLoop]
    by_cases h : n < data.length
    · simp only [h, dite_true]
      obtain ⟨l1, l2, l3, l4⟩ := Region.writeLen_facts c addr (data.length - n) (by omega)
      generalize Region.writeLen c addr (data.length - n) = L at l1 l2 l3 l4 ⊢
      have hs : (slice data n (n + L)).length = L := by rw [slice_length _ _ _ (by omega)]; omega
      obtain ⟨f1, f2, f3, -⟩ := Region.writeTlp_fields c attr tc false addr (slice data n (n + L)) (by omega)
      rw [List.foldl_cons, rc_memWrite_effect]
      · rw [ih (data.length - (n + L)) (by omega) (n + L) (addr + L) (by omega) _ _ _ rfl]
        · rw [f1, storeTlp_write _ _ _ _ _ _ _ (by omega) (by omega)]
          rw [show addr / 4 * 4 + addr % 4 = addr by omega]
          have := Mem.write_append s.mem addr (slice data n (n + L)) (data.drop (n + L))
          rw [hs, slice_append_drop] at this
          simp only [this]
        · intro a k' h1 h2; exact hcov a k' (by omega) (by omega)
        · intro a k' h1 h2; exact hw a k' (by omega) (by omega)
      · rw [f2, hs]; omega
      · exact f3
      · rw [f1, f2, hs]; omega
      · rw [f1, f2, hs]; exact hcov _ _ (by omega) (by omega)
      · intro a k' hk' hen
        have h1 := hen a (by omega) (by omega)
        have h2 := hen (a + k' - 1) (by omega) (by omega)
        rw [Region.writeTlp_enabled, hs] at h1 h2
        exact hw _ _ (by omega) (by omega)
    · simp only [h, dite_false, List.foldl_nil]
      rw [List.drop_eq_nil_of_le (by omega), Mem.write_nil]

theorem off_4k (base k a L : Nat) (hal : base % 2 ^ k = 0) (h1 : base ≤ a) (h2 : a + L ≤ base + 2 ^ k)
    (h3 : a % 4096 + L ≤ 4096) : (a - base) % 4096 + L ≤ 4096 := by
  by_cases hk : 12 ≤ k
  · have : base % 4096 = 0 := by
      rw [show (4096 : Nat) = 2 ^ 12 from rfl]
      exact Nat.mod_eq_zero_of_dvd (Nat.dvd_trans (Nat.pow_dvd_pow 2 hk) (Nat.dvd_of_mod_eq_zero hal))
    omega
  · have : 2 ^ k ≤ 2 ^ 12 := Nat.pow_le_pow_right (by omega) (by omega)
    have := Nat.mod_le (a - base) 4096
    omega

theorem ep_writeLoop (c : ReqCfg) (attr tc : Nat) (data : List UInt8) (n addr : Nat) (hn : n ≤ data.length) (e : MemEp)
    (idx base k : Nat) (b : Buf) (hcl : Spec.ClaimsMem e.bars idx base k) (hk : 2 ≤ k) (hal : base % 2 ^ k = 0)
    (hbuf : e.regions[idx]? = some (some b)) (hsz : b.size ≤ 2 ^ k) (hlo : base ≤ addr)
    (hhi : addr + (data.length - n) ≤ base + b.size) :
    (Region.writeLoop c attr tc false data n addr).foldlM MemEp.handleMemWrite e =
      .ok { e with regions := e.regions.set idx (some { b with mem := b.mem.write (addr - base) (data.drop n) }) } := by
  have hb4 : base % 4 = 0 := by
    rw [show (4 : Nat) = 2 ^ 2 from rfl]
    exact Nat.mod_eq_zero_of_dvd (Nat.dvd_trans (Nat.pow_dvd_pow 2 hk) (Nat.dvd_of_mod_eq_zero hal))
  have hk4 : 2 ^ k % 4 = 0 := by
    rw [show (4 : Nat) = 2 ^ 2 from rfl]
    exact Nat.mod_eq_zero_of_dvd (Nat.pow_dvd_pow 2 hk)
  induction hm : data.length - n using Nat.strongRecOn generalizing n addr e b with
  | ind m ih =>
    rw [Region.writeLoop]
    have hlt : idx < e.regions.length := by
      by_cases h : idx < e.regions.length
      · exact h
      · rw [List.getElem?_eq_none_iff.2 (by omega)] at hbuf; cases hbuf
    by_cases h : n < data.length
    · simp only [h, dite_true]
      obtain ⟨l1, l2, l3, l4⟩ := Region.writeLen_facts c addr (data.length - n) (by omega)
      generalize Region.writeLen c addr (data.length - n) = L at l1 l2 l3 l4 ⊢
      have hs : (slice data n (n + L)).length = L := by rw [slice_length _ _ _ (by omega)]; omega
      obtain ⟨f1, f2, f3, -⟩ := Region.writeTlp_fields c attr tc false addr (slice data n (n + L)) (by omega)
      rw [List.foldlM_cons, ep_memWrite_effect e _ idx (addr / 4 * 4 - base) b]
      · simp only [bind, Except.bind]
        have := ih (data.length - (n + L)) (by omega) (n + L) (addr + L) (by omega)
          { e with regions := e.regions.set idx (some { b with mem := (storeTlp b.mem
              (Region.writeTlp c attr tc false addr (slice data n (n + L))) (addr / 4 * 4 - base)) }) }
          { b with mem := (storeTlp b.mem (Region.writeTlp c attr tc false addr (slice data n (n + L))) (addr / 4 * 4 - base)) }
          hcl (by simp [hlt]) hsz (by omega) (by simp only; omega) rfl
        rw [this]
        congr 1
        simp only [List.set_set]
        congr 4
        rw [storeTlp_write _ _ _ _ _ _ _ (by omega) (by omega)]
        rw [show addr / 4 * 4 - base + addr % 4 = addr - base by omega]
        have := Mem.write_append b.mem (addr - base) (slice data n (n + L)) (data.drop (n + L))
        rw [hs, slice_append_drop, show addr - base + L = addr + L - base by omega] at this
        exact this
      · rw [f1]; exact hcl _ (by omega) (by omega)
      · exact hbuf
      · rw [f2, hs]; omega
      · exact f3
      · rw [f2, hs]
        exact off_4k base k (addr / 4 * 4) (4 * ((addr % 4 + L + 3) / 4)) hal (by omega) (by omega) (by omega)
      · intro a ha
        rw [Region.writeTlp_enabled, hs] at ha
        rw [f1]; omega
    · simp only [h, dite_false, List.foldlM_nil]
      rw [List.drop_eq_nil_of_le (by omega), Mem.write_nil]
      show Except.ok e = _
      congr 1
      obtain ⟨bars, regions, p, id, mps⟩ := e
      simp only at hbuf hlt ⊢
      congr 1
      rw [List.getElem?_eq_getElem hlt] at hbuf
      have : regions[idx] = some b := Option.some.inj hbuf
      symm
      show List.set regions idx (some b) = regions
      rw [← this, List.set_getElem_self]

end Pcie
