/-
Helper lemmas: base address registers.
-/
import Verif.Props.Utils
import Verif.Lemmas.Arith
import Verif.Spec.Bar
namespace Pcie

theorem xor_eq_zero' (a b : Nat) : a ^^^ b = 0 ↔ a = b := by
  constructor
  · intro h
    apply Nat.eq_of_testBit_eq
    intro i
    have := congrArg (fun n => n.testBit i) h
    simp only [Nat.testBit_xor, Nat.zero_testBit] at this
    revert this
    cases a.testBit i <;> cases b.testBit i <;> simp
  · intro h; rw [h, Nat.xor_self]

theorem xor_and_eq_zero (a v m : Nat) : (a ^^^ v) &&& m = 0 ↔ a &&& m = v &&& m := by
  rw [Nat.and_xor_distrib_right, xor_eq_zero']

theorem himask_eq (W k : Nat) (h : k ≤ W) : 2 ^ W - 2 ^ k = (2 ^ (W - k) - 1) * 2 ^ k := by
  rw [Nat.sub_mul, ← Nat.pow_add, Nat.sub_add_cancel h, Nat.one_mul]

theorem and_top (x W k : Nat) (hk : k ≤ W) (hx : x < 2 ^ W) : x &&& (2 ^ W - 2 ^ k) = x / 2 ^ k * 2 ^ k := by
  rw [himask_eq W k hk, and_himask]
  have : x / 2 ^ k < 2 ^ (W - k) := by
    rw [Nat.div_lt_iff_lt_mul (Nat.two_pow_pos k), ← Nat.pow_add, Nat.sub_add_cancel hk]; exact hx
  rw [Nat.mod_eq_of_lt this]

theorem andNot_top (x W k : Nat) (hk : k ≤ W) (hx : x < 2 ^ W) : andNot x (2 ^ W - 2 ^ k) = x % 2 ^ k := by
  apply Nat.eq_of_testBit_eq
  intro i
  rw [andNot_testBit, Nat.testBit_mod_two_pow, himask_eq W k hk, ← Nat.shiftLeft_eq, Nat.testBit_shiftLeft,
    Nat.testBit_two_pow_sub_one]
  by_cases h : i < k
  · simp [h]
  · by_cases h2 : i < W
    · have h3 : i - k < W - k := by omega
      have h4 : k ≤ i := by omega
      simp [h, h3, h4]
    · have : x.testBit i = false :=
        Nat.testBit_lt_two_pow (Nat.lt_of_lt_of_le hx (Nat.pow_le_pow_right (by omega) (by omega)))
      simp [h, this]

/-- A window of `2^k` addresses compares exactly the address bits above `k`. -/
theorem window_match (addr base fl W k : Nat) (hk : k ≤ W) (ha : addr < 2 ^ W) (hb : base < 2 ^ W) (hal : base % 2 ^ k = 0)
    (hfl : fl < 2 ^ k) :
    ((addr ^^^ (base + fl)) &&& (2 ^ W - 2 ^ k) = 0 ↔ base ≤ addr ∧ addr < base + 2 ^ k) ∧
    (base ≤ addr → addr < base + 2 ^ k → andNot addr (2 ^ W - 2 ^ k) = addr - base) := by
  have hp := Nat.two_pow_pos k
  have hbd : base / 2 ^ k * 2 ^ k = base := by
    have := Nat.div_add_mod base (2 ^ k); rw [hal] at this; rw [Nat.mul_comm]; omega
  have hbfl : (base + fl) / 2 ^ k = base / 2 ^ k := by
    rw [← hbd, Nat.mul_comm, Nat.mul_add_div hp, Nat.div_eq_of_lt hfl, Nat.mul_div_cancel_left _ hp, Nat.add_zero]
  have hlt : base + fl < 2 ^ W := by
    have h1 : base / 2 ^ k < 2 ^ (W - k) := by
      rw [Nat.div_lt_iff_lt_mul hp, ← Nat.pow_add, Nat.sub_add_cancel hk]; exact hb
    have h2 : (base / 2 ^ k + 1) * 2 ^ k ≤ 2 ^ (W - k) * 2 ^ k := Nat.mul_le_mul_right _ h1
    rw [Nat.add_mul, hbd, ← Nat.pow_add, Nat.sub_add_cancel hk, Nat.one_mul] at h2
    omega
  have hwin : addr / 2 ^ k = base / 2 ^ k ↔ base ≤ addr ∧ addr < base + 2 ^ k := by
    have hm := Nat.div_add_mod addr (2 ^ k)
    have hl := Nat.mod_lt addr hp
    constructor
    · intro h
      rw [h, Nat.mul_comm, hbd] at hm; omega
    · rintro ⟨h1, h2⟩
      have e : addr = 2 ^ k * (base / 2 ^ k) + (addr - base) := by rw [Nat.mul_comm, hbd]; omega
      have hlt : addr - base < 2 ^ k := by omega
      generalize addr - base = d at *
      rw [e, Nat.mul_add_div hp, Nat.div_eq_of_lt hlt, Nat.add_zero]
  constructor
  · rw [xor_and_eq_zero, and_top _ _ _ hk ha, and_top _ _ _ hk hlt, hbfl, ← hwin]
    constructor
    · intro h; exact Nat.eq_of_mul_eq_mul_right hp h
    · intro h; rw [h]
  · intro h1 h2
    rw [andNot_top _ _ _ hk ha]
    have hm := Nat.div_add_mod addr (2 ^ k)
    rw [hwin.2 ⟨h1, h2⟩, Nat.mul_comm, hbd] at hm
    omega

end Pcie

namespace Pcie
open Spec

theorem mod16_of_align (base k : Nat) (hk : 4 ≤ k) (h : base % 2 ^ k = 0) : base % 16 = 0 := by
  have h1 : (16 : Nat) ∣ 2 ^ k := by
    have : (16 : Nat) = 2 ^ 4 := rfl
    rw [this]; exact Nat.pow_dvd_pow 2 hk
  exact Nat.mod_eq_zero_of_dvd (Nat.dvd_trans h1 (Nat.dvd_of_mod_eq_zero h))

theorem mod4_of_align (base k : Nat) (hk : 2 ≤ k) (h : base % 2 ^ k = 0) : base % 4 = 0 := by
  have h1 : (4 : Nat) ∣ 2 ^ k := by
    have : (4 : Nat) = 2 ^ 2 := rfl
    rw [this]; exact Nat.pow_dvd_pow 2 hk
  exact Nat.mod_eq_zero_of_dvd (Nat.dvd_trans h1 (Nat.dvd_of_mod_eq_zero h))

theorem and_1 (x : Nat) : x &&& 1 = x % 2 := Nat.and_one_is_mod x

theorem pow_bounds (k W : Nat) (h : k < W) : 1 ≤ 2 ^ k ∧ 2 ^ k < 2 ^ W :=
  ⟨Nat.two_pow_pos k, Nat.pow_lt_pow_right (by omega) h⟩

theorem pow_ge (k j : Nat) (h : j ≤ k) : 2 ^ j ≤ 2 ^ k := Nat.pow_le_pow_right (by omega) h

theorem find_cons_contains (io : Bool) (addr : Nat) (w : Window) (ws : List Window) :
    (w :: ws).find? (fun w => w.io == io && w.contains addr) =
      if w.io = io ∧ (w.base ≤ addr ∧ addr < w.base + 2 ^ w.k) then some w
      else ws.find? (fun w => w.io == io && w.contains addr) := by
  rw [List.find?_cons]
  by_cases h1 : w.io = io
  rotate_left
  · have : (w.io == io) = false := by simpa using h1
    simp [h1, this]
  by_cases h2 : w.base ≤ addr ∧ addr < w.base + 2 ^ w.k <;>
    simp [h1, h2, Window.contains]

theorem matchBarFrom_layout (io : Bool) (addr i : Nat) (bars : List BarReg) (ws : List Window)
    (h : Layout i bars ws) (hk : ∀ w ∈ ws, w.k < 32) (ha : addr < 2 ^ 64)
    (hw : addr < 2 ^ 32 ∨ ∀ w ∈ ws, w.wide = true) :
    matchBarFrom io addr i bars =
      .ok ((ws.find? (fun w => w.io == io && w.contains addr)).map fun w => (w.idx, addr - w.base)) := by
  induction h with
  | nil i => rfl
  | absent i r rs ws h0 hl ih =>
    rw [matchBarFrom.eq_def]
    subst h0
    simp only [if_true]
    exact ih hk hw
  | mem32 i r rs ws base k hr hl ih =>
    obtain ⟨h4, h32, hal, hb, hv, hm⟩ := hr
    have hb16 := mod16_of_align base k h4 hal
    have ha32 : addr < 2 ^ 32 := by
      rcases hw with h | h
      · exact h
      · have := h ⟨i, false, false, base, k⟩ (by simp); simp at this
    have ⟨hp1, hp2⟩ := pow_bounds k 32 h32
    have hp3 := pow_ge k 4 h4
    have hm0 : r.mask ≠ 0 := by omega
    obtain ⟨fl, hfl, hv', hfv⟩ : ∃ fl, fl < 2 ^ k ∧ r.val = base + fl ∧ (fl = 0 ∨ fl = 8) := by
      rcases hv with h | h
      · exact ⟨0, by omega, by omega, by simp⟩
      · exact ⟨8, by omega, by omega, by simp⟩
    have hb1 : ¬ (r.val &&& 1 ≠ 0) := by rw [and_1]; omega
    have hb4 : ¬ (r.val &&& 4 ≠ 0) := by rw [and_b2]; omega
    obtain ⟨w1, w2⟩ := window_match addr base fl 32 k (by omega) ha32 hb hal hfl
    rw [matchBarFrom.eq_def, find_cons_contains]
    simp only [hm0, if_false, hb1, hb4]
    simp only [hv', hm, w1]
    have ih' := ih (fun w hw => hk w (by simp [hw])) (Or.inl ha32)
    cases io with
    | true => simpa using ih'
    | false =>
      by_cases hc : base ≤ addr ∧ addr < base + 2 ^ k
      · simp [hc, w2 hc.1 hc.2]
      · simp only [hc, and_false, if_false]; exact ih'
  | io i r rs ws base k hr hl ih =>
    obtain ⟨h4, h32, hal, hb, hv, hm⟩ := hr
    have hb4' := mod4_of_align base k h4 hal
    have ha32 : addr < 2 ^ 32 := by
      rcases hw with h | h
      · exact h
      · have := h ⟨i, true, false, base, k⟩ (by simp); simp at this
    have ⟨hp1, hp2⟩ := pow_bounds k 32 h32
    have hp3 := pow_ge k 2 h4
    have hm0 : r.mask ≠ 0 := by omega
    have hb1 : (r.val &&& 1 ≠ 0) := by rw [and_1]; omega
    obtain ⟨w1, w2⟩ := window_match addr base 1 32 k (by omega) ha32 hb hal (by omega)
    rw [matchBarFrom.eq_def, find_cons_contains]
    simp only [hm0, if_false, hb1, ne_eq, not_false_eq_true, if_true]
    simp only [hv, hm, w1]
    have ih' := ih (fun w hw => hk w (by simp [hw])) (Or.inl ha32)
    cases io with
    | false => simpa using ih'
    | true =>
      by_cases hc : base ≤ addr ∧ addr < base + 2 ^ k
      · simp [hc, w2 hc.1 hc.2]
      · simp only [hc, and_false, if_false]; exact ih'
  | mem64 i lo hi rs ws base k hr hl ih =>
    obtain ⟨h4, h64, hal, hb, hv, hvh, hm, hmh⟩ := hr
    have h32 : k < 32 := hk ⟨i, false, true, base, k⟩ (by simp)
    have hb16 := mod16_of_align base k h4 hal
    have ⟨hp1, hp2⟩ := pow_bounds k 32 h32
    have hp3 := pow_ge k 4 h4
    have hlm : lo.mask = 2 ^ 32 - 2 ^ k := by rw [hm]; omega
    have hm0 : lo.mask ≠ 0 := by omega
    obtain ⟨fl, hfl, hv', hfv⟩ : ∃ fl, fl < 2 ^ k ∧ lo.val = base % 2 ^ 32 + fl ∧ (fl = 4 ∨ fl = 12) := by
      rcases hv with h | h
      · exact ⟨4, by omega, by omega, by simp⟩
      · exact ⟨12, by omega, by omega, by simp⟩
    have hb1 : ¬ (lo.val &&& 1 ≠ 0) := by rw [and_1]; omega
    have hb4 : (lo.val &&& 4 ≠ 0) := by rw [and_b2]; omega
    have hval : lo.val ||| hi.val <<< 32 = base + fl := by
      rw [or_shl_add _ _ _ (by omega), hvh]; omega
    have hmask : lo.mask ||| hi.mask <<< 32 = 2 ^ 64 - 2 ^ k := by
      rw [or_shl_add _ _ _ (by omega), hm, hmh]; omega
    obtain ⟨w1, w2⟩ := window_match addr base fl 64 k (by omega) ha hb hal hfl
    rw [matchBarFrom.eq_def, find_cons_contains]
    simp only [hm0, if_false, hb1]
    simp only [hb4, ne_eq, not_false_eq_true, if_true, hval, hmask, w1]
    have ih' := ih (fun w hw => hk w (by simp [hw])) (by
      rcases hw with h | h
      · exact Or.inl h
      · exact Or.inr fun w hw => h w (by simp [hw]))
    cases io with
    | true => simpa using ih'
    | false =>
      by_cases hc : base ≤ addr ∧ addr < base + 2 ^ k
      · simp [hc, w2 hc.1 hc.2]
      · simp only [hc, and_false, if_false]; exact ih'

end Pcie

namespace Pcie
open Spec

/-- The exponent in `barSizeMask`. -/
def barExp (size : Nat) : Nat := if size = 0 then 1 else bitLength (size - 1)

theorem barSizeMask_eq (size : Nat) : barSizeMask size = 2 ^ barExp size - 1 := rfl

theorem bitLength_le (n j : Nat) : bitLength n ≤ j ↔ n < 2 ^ j := by
  unfold bitLength
  by_cases h : n = 0
  · simp only [h, if_true]; exact ⟨fun _ => Nat.two_pow_pos j, fun _ => Nat.zero_le _⟩
  · simp only [h, if_false]
    rw [← Nat.log2_lt h]; omega

theorem sizeExp_eq (size lo k : Nat) (hlo : 1 ≤ lo) (h : SizeExp size lo k) : k = max lo (barExp size) := by
  obtain ⟨h1, h2, h3⟩ := h
  have key : ∀ j, lo ≤ j → (size ≤ 2 ^ j ↔ barExp size ≤ j) := by
    intro j hj
    unfold barExp
    by_cases h0 : size = 0
    · simp only [h0, if_true]; constructor
      · intro; omega
      · intro; exact Nat.zero_le _
    · simp only [h0, if_false]; rw [bitLength_le]; omega
  have a := (key k h2).1 h1
  have b := h3 (max lo (barExp size)) (Nat.le_max_left _ _) ((key _ (Nat.le_max_left _ _)).2 (Nat.le_max_right _ _))
  omega

theorem mask_mem_tab : ∀ k < 32, andNot 0xfffffff0 (2 ^ k - 1) = 2 ^ 32 - 2 ^ (max 4 k) := by decide +kernel
theorem mask_io_tab : ∀ k < 32, andNot 0xfffffffc (2 ^ k - 1) = 2 ^ 32 - 2 ^ (max 2 k) := by decide +kernel
theorem mask_lo_tab : ∀ k < 64, andNot 0xfffffff0 (2 ^ k - 1) = (2 ^ 64 - 2 ^ (max 4 k)) % 2 ^ 32 ∧
    andNot 0xffffffff ((2 ^ k - 1) >>> 32) = (2 ^ 64 - 2 ^ (max 4 k)) / 2 ^ 32 := by decide +kernel

theorem f_testBit (i : Nat) : (0xf : Nat).testBit (i / 8) = decide (i < 32) := by
  have : (0xf : Nat) = 2 ^ 4 - 1 := rfl
  rw [this, Nat.testBit_two_pow_sub_one]
  by_cases h : i < 32
  · simp only [h, decide_true, decide_eq_true_eq]; omega
  · simp only [h, decide_false, decide_eq_false_iff_not]; omega

/-- A full dword write to a register whose writable bits are those above `k`. -/
theorem byteMaskUpdate_top (old new k : Nat) (hk : k ≤ 32) (ho : old < 2 ^ 32) (hn : new < 2 ^ 32) :
    byteMaskUpdate old 0xf new (some (2 ^ 32 - 2 ^ k)) = new / 2 ^ k * 2 ^ k + old % 2 ^ k := by
  have hd : new / 2 ^ k * 2 ^ k + old % 2 ^ k = new / 2 ^ k * 2 ^ k ||| old % 2 ^ k := by
    rw [Nat.or_comm, or_mul_add _ _ _ (Nat.mod_lt _ (Nat.two_pow_pos k)), Nat.add_comm]
  rw [hd]
  apply Nat.eq_of_testBit_eq
  intro i
  rw [C02_byte_mask_update, Nat.testBit_or, Nat.testBit_mod_two_pow, ← Nat.shiftRight_eq_div_pow, ← Nat.shiftLeft_eq,
    Nat.testBit_shiftLeft, Nat.testBit_shiftRight, f_testBit]
  have hm : (2 ^ 32 - 2 ^ k).testBit i = (decide (k ≤ i) && decide (i < 32)) := by
    rw [himask_eq 32 k hk, ← Nat.shiftLeft_eq, Nat.testBit_shiftLeft, Nat.testBit_two_pow_sub_one]
    by_cases h : k ≤ i
    · simp only [h, decide_true, Bool.true_and, decide_eq_decide]; omega
    · simp [h]
  have hold : 32 ≤ i → old.testBit i = false := fun h =>
    Nat.testBit_lt_two_pow (Nat.lt_of_lt_of_le ho (Nat.pow_le_pow_right (by omega) h))
  have hnew : 32 ≤ i → new.testBit i = false := fun h =>
    Nat.testBit_lt_two_pow (Nat.lt_of_lt_of_le hn (Nat.pow_le_pow_right (by omega) h))
  have hbm : (∀ b, some (2 ^ 32 - 2 ^ k) = some b → b.testBit i = true) ↔ (k ≤ i ∧ i < 32) := by
    constructor
    · intro h; have := h _ rfl; rw [hm] at this; simpa using this
    · intro h b hb; injection hb with hb; rw [← hb, hm]; simp [h]
  simp only [hbm, decide_eq_true_eq]
  by_cases h1 : i < 32
  · by_cases h2 : k ≤ i
    · have h3 : ¬ i < k := by omega
      have h4 : k + (i - k) = i := by omega
      simp [h1, h2, h3, h4]
    · have h3 : i < k := by omega
      simp [h2, h3]
  · have h2 : k ≤ i := by omega
    have h3 : ¬ i < k := by omega
    have h4 : k + (i - k) = i := by omega
    simp [h1, h2, h3, h4, hold (by omega), hnew (by omega)]

/-- A full dword write to a register with no writable bits. -/
theorem byteMaskUpdate_none (old be new : Nat) : byteMaskUpdate old be new (some 0) = old := by
  apply Nat.eq_of_testBit_eq
  intro i
  rw [C02_byte_mask_update]
  have : ¬ ∀ b, some 0 = some b → b.testBit i = true := fun h => by
    have := h 0 rfl; simp at this
  simp only [this, and_false, if_false]

end Pcie

namespace Pcie
open Spec

theorem layout_idx (i : Nat) (bars : List BarReg) (ws : List Window) (h : Layout i bars ws) : ∀ w ∈ ws, i ≤ w.idx := by
  induction h with
  | nil i => simp
  | absent i r rs ws h0 hl ih => intro w hw; have := ih w hw; omega
  | mem32 i r rs ws base k hr hl ih =>
    intro w hw
    rcases List.mem_cons.1 hw with rfl | hw
    · exact Nat.le_refl _
    · have := ih w hw; omega
  | io i r rs ws base k hr hl ih =>
    intro w hw
    rcases List.mem_cons.1 hw with rfl | hw
    · exact Nat.le_refl _
    · have := ih w hw; omega
  | mem64 i lo hi rs ws base k hr hl ih =>
    intro w hw
    rcases List.mem_cons.1 hw with rfl | hw
    · exact Nat.le_refl _
    · have := ih w hw; omega

theorem writeBar_cons_succ (r : BarReg) (rs : List BarReg) (j d be : Nat) :
    writeBar (r :: rs) (j + 1) d be = r :: writeBar rs j d be := by
  simp only [writeBar, List.getElem?_cons_succ]
  cases rs[j]? <;> simp

theorem writeBar_cons_zero (r : BarReg) (rs : List BarReg) (d be : Nat) :
    writeBar (r :: rs) 0 d be = { r with val := byteMaskUpdate r.val be d (some r.mask) } :: rs := by
  simp [writeBar]

/-- Programming of a window's registers. -/
def programBar (bars : List BarReg) (idx : Nat) (wide : Bool) (base : Nat) : List BarReg :=
  if wide then writeBar (writeBar bars idx (base % 2 ^ 32) 0xf) (idx + 1) (base / 2 ^ 32) 0xf
  else writeBar bars idx base 0xf

theorem programBar_succ (r : BarReg) (rs : List BarReg) (j : Nat) (wide : Bool) (base : Nat) :
    programBar (r :: rs) (j + 1) wide base = r :: programBar rs j wide base := by
  cases wide <;> simp [programBar, writeBar_cons_succ]

theorem div_mul_of_align (b k : Nat) (h : b % 2 ^ k = 0) : b / 2 ^ k * 2 ^ k = b := by
  have := Nat.div_add_mod b (2 ^ k); rw [h] at this; rw [Nat.mul_comm]; omega

theorem align_mod (fl base k : Nat) (hal : base % 2 ^ k = 0) (hfl : fl < 2 ^ k) : (base + fl) % 2 ^ k = fl := by
  rw [Nat.add_mod, hal, Nat.zero_add, Nat.mod_mod, Nat.mod_eq_of_lt hfl]

theorem map_other (ws : List Window) (idx base : Nat) (h : ∀ v ∈ ws, v.idx ≠ idx) :
    (ws.map fun v => if v.idx = idx then { v with base := base } else v) = ws := by
  conv => rhs; rw [← List.map_id ws]
  apply List.map_congr_left
  intro v hv
  rw [if_neg (h v hv)]; rfl

theorem IsMem32.rebase {r : BarReg} {base k : Nat} (h : IsMem32 r base k) (b : Nat) (hal : b % 2 ^ k = 0) (hb : b < 2 ^ 32) :
    IsMem32 { r with val := byteMaskUpdate r.val 0xf b (some r.mask) } b k := by
  obtain ⟨h4, h32, hal0, hb0, hv, hm⟩ := h
  have h16 := mod16_of_align base k h4 hal0
  have hp := pow_ge k 4 h4
  refine ⟨h4, h32, hal, hb, ?_, hm⟩
  simp only [hm]
  rw [byteMaskUpdate_top _ _ _ (by omega) (by omega) hb, div_mul_of_align _ _ hal]
  rcases hv with hv | hv
  · left; rw [hv, hal0]; omega
  · right; rw [hv, align_mod 8 base k hal0 (by omega)]

theorem IsIo.rebase {r : BarReg} {base k : Nat} (h : IsIo r base k) (b : Nat) (hal : b % 2 ^ k = 0) (hb : b < 2 ^ 32) :
    IsIo { r with val := byteMaskUpdate r.val 0xf b (some r.mask) } b k := by
  obtain ⟨h4, h32, hal0, hb0, hv, hm⟩ := h
  have h16 := mod4_of_align base k h4 hal0
  have hp := pow_ge k 2 h4
  refine ⟨h4, h32, hal, hb, ?_, hm⟩
  simp only [hm]
  rw [byteMaskUpdate_top _ _ _ (by omega) (by omega) hb, div_mul_of_align _ _ hal, hv, align_mod 1 base k hal0 (by omega)]

theorem mod_pow_mod (b j k : Nat) (h : k ≤ j) : b % 2 ^ j % 2 ^ k = b % 2 ^ k :=
  Nat.mod_mod_of_dvd b (Nat.pow_dvd_pow 2 h)

theorem top_split (k : Nat) (hk : k < 64) :
    (k < 32 → (2 ^ 64 - 2 ^ k) % 2 ^ 32 = 2 ^ 32 - 2 ^ k ∧ (2 ^ 64 - 2 ^ k) / 2 ^ 32 = 2 ^ 32 - 2 ^ 0) ∧
    (32 ≤ k → (2 ^ 64 - 2 ^ k) % 2 ^ 32 = 0 ∧ (2 ^ 64 - 2 ^ k) / 2 ^ 32 = 2 ^ 32 - 2 ^ (k - 32)) := by
  have : ∀ k < 64, (k < 32 → (2 ^ 64 - 2 ^ k) % 2 ^ 32 = 2 ^ 32 - 2 ^ k ∧ (2 ^ 64 - 2 ^ k) / 2 ^ 32 = 2 ^ 32 - 2 ^ 0) ∧
    (32 ≤ k → (2 ^ 64 - 2 ^ k) % 2 ^ 32 = 0 ∧ (2 ^ 64 - 2 ^ k) / 2 ^ 32 = 2 ^ 32 - 2 ^ (k - 32)) := by decide +kernel
  exact this k hk

theorem IsMem64.rebase {lo hi : BarReg} {base k : Nat} (h : IsMem64 lo hi base k) (b : Nat) (hal : b % 2 ^ k = 0)
    (hb : b < 2 ^ 64) :
    IsMem64 { lo with val := byteMaskUpdate lo.val 0xf (b % 2 ^ 32) (some lo.mask) }
      { hi with val := byteMaskUpdate hi.val 0xf (b / 2 ^ 32) (some hi.mask) } b k := by
  obtain ⟨h4, h64, hal0, hb0, hv, hvh, hm, hmh⟩ := h
  have h16 := mod16_of_align base k h4 hal0
  have hp := pow_ge k 4 h4
  obtain ⟨s1, s2⟩ := top_split k h64
  have hb2 : b / 2 ^ 32 < 2 ^ 32 := by omega
  have hbase2 : base / 2 ^ 32 < 2 ^ 32 := by omega
  refine ⟨h4, h64, hal, hb, ?_, ?_, hm, hmh⟩
  · simp only [hm]
    by_cases hk : k < 32
    · rw [(s1 hk).1, byteMaskUpdate_top _ _ _ (by omega) (by omega) (by omega),
        div_mul_of_align _ _ (by rw [mod_pow_mod _ _ _ (by omega)]; first | done | exact hal)]
      have hz : base % 2 ^ 32 % 2 ^ k = 0 := by rw [mod_pow_mod _ _ _ (by omega)]; exact hal0
      rcases hv with hv | hv
      · left; rw [hv, align_mod 4 _ k hz (by omega)]
      · right; rw [hv, align_mod 12 _ k hz (by omega)]
    · rw [(s2 (by omega)).1, byteMaskUpdate_none]
      have h0 : b % 2 ^ 32 = 0 := by
        rw [← Nat.mod_mod_of_dvd b (Nat.pow_dvd_pow 2 (show 32 ≤ k by omega)), hal]
      have h1 : base % 2 ^ 32 = 0 := by
        rw [← Nat.mod_mod_of_dvd base (Nat.pow_dvd_pow 2 (show 32 ≤ k by omega)), hal0]
      rw [h1] at hv; rw [h0]; exact hv
  · simp only [hmh]
    by_cases hk : k < 32
    · rw [(s1 hk).2, byteMaskUpdate_top _ _ _ (by omega) (by omega) hb2]; omega
    · rw [(s2 (by omega)).2, byteMaskUpdate_top _ _ _ (by omega) (by omega) hb2]
      have e : 2 ^ k = 2 ^ 32 * 2 ^ (k - 32) := by rw [← Nat.pow_add]; congr 1; omega
      have a0 : b / 2 ^ 32 % 2 ^ (k - 32) = 0 := by
        rw [e] at hal
        have hd := Nat.dvd_of_mod_eq_zero hal
        exact Nat.mod_eq_zero_of_dvd ((Nat.dvd_div_iff_mul_dvd (Nat.dvd_trans (Nat.dvd_mul_right _ _) hd)).2 hd)
      have a1 : base / 2 ^ 32 % 2 ^ (k - 32) = 0 := by
        rw [e] at hal0
        have hd := Nat.dvd_of_mod_eq_zero hal0
        exact Nat.mod_eq_zero_of_dvd ((Nat.dvd_div_iff_mul_dvd (Nat.dvd_trans (Nat.dvd_mul_right _ _) hd)).2 hd)
      rw [hvh, a1, div_mul_of_align _ _ a0, Nat.add_zero]

theorem program_layout (i : Nat) (bars : List BarReg) (ws : List Window) (w : Window) (base : Nat)
    (h : Layout i bars ws) (hin : w ∈ ws) (hal : base % 2 ^ w.k = 0) (hb : base < if w.wide then 2 ^ 64 else 2 ^ 32) :
    Layout i (programBar bars (w.idx - i) w.wide base)
      (ws.map fun v => if v.idx = w.idx then { v with base := base } else v) := by
  induction h with
  | nil i => simp at hin
  | absent i r rs ws h0 hl ih =>
    have := layout_idx _ _ _ hl w hin
    rw [show w.idx - i = (w.idx - (i + 1)) + 1 by omega, programBar_succ]
    exact .absent _ _ _ _ h0 (ih hin)
  | mem32 i r rs ws b0 k hr hl ih =>
    have hidx := layout_idx _ _ _ hl
    rcases List.mem_cons.1 hin with hw | hin
    · subst hw
      simp only [if_true, List.map_cons, Nat.sub_self, Bool.false_eq_true, if_false] at hb hal ⊢
      rw [map_other ws i base (fun v hv => by have := hidx v hv; omega)]
      simp only [programBar, Bool.false_eq_true, if_false, writeBar_cons_zero]
      exact .mem32 _ _ _ _ _ _ (IsMem32.rebase hr base hal hb) hl
    · have := hidx w hin
      rw [show w.idx - i = (w.idx - (i + 1)) + 1 by omega, programBar_succ, List.map_cons, if_neg (by simp only; omega)]
      exact .mem32 _ _ _ _ _ _ hr (ih hin)
  | io i r rs ws b0 k hr hl ih =>
    have hidx := layout_idx _ _ _ hl
    rcases List.mem_cons.1 hin with hw | hin
    · subst hw
      simp only [if_true, List.map_cons, Nat.sub_self, Bool.false_eq_true, if_false] at hb hal ⊢
      rw [map_other ws i base (fun v hv => by have := hidx v hv; omega)]
      simp only [programBar, Bool.false_eq_true, if_false, writeBar_cons_zero]
      exact .io _ _ _ _ _ _ (IsIo.rebase hr base hal hb) hl
    · have := hidx w hin
      rw [show w.idx - i = (w.idx - (i + 1)) + 1 by omega, programBar_succ, List.map_cons, if_neg (by simp only; omega)]
      exact .io _ _ _ _ _ _ hr (ih hin)
  | mem64 i lo hi rs ws b0 k hr hl ih =>
    have hidx := layout_idx _ _ _ hl
    rcases List.mem_cons.1 hin with hw | hin
    · subst hw
      simp only [if_true, List.map_cons, Nat.sub_self] at hb hal ⊢
      rw [map_other ws i base (fun v hv => by have := hidx v hv; omega)]
      simp only [programBar, if_true, writeBar_cons_zero, writeBar_cons_succ]
      exact .mem64 _ _ _ _ _ _ _ (IsMem64.rebase hr base hal hb) hl
    · have := hidx w hin
      rw [show w.idx - i = (w.idx - (i + 2)) + 1 + 1 by omega, programBar_succ, programBar_succ, List.map_cons,
        if_neg (by simp only; omega)]
      exact .mem64 _ _ _ _ _ _ _ hr (ih hin)

/-- The registers `configure_bar` writes. -/
def cfgLo (size : Nat) (ext prefetch io : Bool) : BarReg :=
  if io then ⟨1, andNot 0xfffffffc (barSizeMask size)⟩
  else ⟨(if ext then 4 else 0) ||| (if prefetch then 8 else 0), andNot 0xfffffff0 (barSizeMask size)⟩

def cfgHi (size : Nat) : BarReg := ⟨0, andNot 0xffffffff (barSizeMask size >>> 32)⟩

theorem configureBar_eq (bars : List BarReg) (idx size : Nat) (ext prefetch io : Bool) (h : idx < bars.length)
    (h2 : ext = true → idx + 1 < bars.length) (hio : io = true → ext = false) :
    configureBar bars idx size ext prefetch io = .ok (if ext then
      (bars.set idx (cfgLo size ext prefetch io)).set (idx + 1) (cfgHi size) else bars.set idx (cfgLo size ext prefetch io)) := by
  unfold configureBar
  rw [if_neg (by rintro (h1 | ⟨h1, h3⟩); omega; have := h2 h1; omega)]
  cases io <;> cases ext <;> simp_all [cfgLo, cfgHi]

theorem IsMem32.config (size k : Nat) (pf : Bool) (hs : SizeExp size 4 k) (hk : k < 32) :
    IsMem32 (cfgLo size false pf false) 0 k := by
  have he := sizeExp_eq size 4 k (by omega) hs
  refine ⟨by omega, hk, Nat.zero_mod _, by omega, ?_, ?_⟩
  · cases pf <;> simp [cfgLo]
  · simp only [cfgLo, Bool.false_eq_true, if_false, barSizeMask_eq]
    rw [mask_mem_tab _ (by omega), he]

theorem IsIo.config (size k : Nat) (ext pf : Bool) (hs : SizeExp size 2 k) (hk : k < 32) :
    IsIo (cfgLo size ext pf true) 0 k := by
  have he := sizeExp_eq size 2 k (by omega) hs
  refine ⟨by omega, hk, Nat.zero_mod _, by omega, ?_, ?_⟩
  · simp [cfgLo]
  · simp only [cfgLo, if_true, barSizeMask_eq]
    rw [mask_io_tab _ (by omega), he]

theorem IsMem64.config (size k : Nat) (pf : Bool) (hs : SizeExp size 4 k) (hk : k < 64) :
    IsMem64 (cfgLo size true pf false) (cfgHi size) 0 k := by
  have he := sizeExp_eq size 4 k (by omega) hs
  have ht := mask_lo_tab (barExp size) (by omega)
  refine ⟨by omega, hk, Nat.zero_mod _, by omega, ?_, rfl, ?_, ?_⟩
  · cases pf <;> simp [cfgLo]
  · simp only [cfgLo, Bool.false_eq_true, if_false, barSizeMask_eq]
    rw [ht.1, he]
  · simp only [cfgHi, barSizeMask_eq]
    rw [ht.2, he]

/-- The registers after `configure_bar`. -/
def configured (bars : List BarReg) (idx size : Nat) (ext prefetch io : Bool) : List BarReg :=
  if ext then (bars.set idx (cfgLo size ext prefetch io)).set (idx + 1) (cfgHi size)
  else bars.set idx (cfgLo size ext prefetch io)

theorem configured_succ (r : BarReg) (bars : List BarReg) (idx size : Nat) (ext prefetch io : Bool) :
    configured (r :: bars) (idx + 1) size ext prefetch io = r :: configured bars idx size ext prefetch io := by
  cases ext <;> simp [configured]

theorem configure_layout' (i : Nat) (bars : List BarReg) (ws : List Window) (idx size k : Nat) (ext prefetch io : Bool)
    (h : Layout i bars ws) (hs : SizeExp size (if io then 2 else 4) k) (hk : k < if ext then 64 else 32)
    (hio : io = true → ext = false)
    (hfree : idx < bars.length ∧ Unused ws (i + idx))
    (hfree2 : ext = true → idx + 1 < bars.length ∧ Unused ws (i + (idx + 1))) :
    ∃ ws', Layout i (configured bars idx size ext prefetch io) ws' ∧
      ∀ v, v ∈ ws' ↔ v ∈ ws ∨ v = ⟨i + idx, io, ext, 0, k⟩ := by
  induction h generalizing idx with
  | nil i => simp at hfree
  | absent i r rs ws h0 hl ih =>
    cases idx with
    | zero =>
      cases ext with
      | false =>
        refine ⟨⟨i, io, false, 0, k⟩ :: ws, ?_, by intro v; simp [or_comm]⟩
        cases io with
        | false => exact .mem32 _ _ _ _ _ _ (IsMem32.config size k prefetch hs hk) hl
        | true => exact .io _ _ _ _ _ _ (IsIo.config size k false prefetch hs hk) hl
      | true =>
        have hio' : io = false := by cases io <;> simp_all
        subst hio'
        obtain ⟨hlen, hun⟩ := hfree2 rfl
        cases rs with
        | nil => simp at hlen
        | cons q rs =>
          have hl2 : Layout (i + 2) rs ws := by
            cases hl with
            | absent _ _ _ _ _ hl => exact hl
            | mem32 _ _ _ _ b k hr hl => exact absurd rfl (hun _ List.mem_cons_self).1
            | io _ _ _ _ b k hr hl => exact absurd rfl (hun _ List.mem_cons_self).1
            | mem64 _ _ hi _ _ b k hr hl => exact absurd rfl (hun _ List.mem_cons_self).1
          refine ⟨⟨i, false, true, 0, k⟩ :: ws, ?_, by intro v; simp [or_comm]⟩
          exact .mem64 _ _ _ _ _ _ _ (IsMem64.config size k prefetch hs hk) hl2
    | succ j =>
      have e : i + (j + 1) = i + 1 + j := by omega
      have e2 : i + (j + 1 + 1) = i + 1 + (j + 1) := by omega
      simp only [List.length_cons, e, e2, Nat.add_lt_add_iff_right] at hfree hfree2
      obtain ⟨ws', h1, h2⟩ := ih j hfree hfree2
      exact ⟨ws', by rw [configured_succ]; exact .absent _ _ _ _ h0 h1, by rw [e]; exact h2⟩
  | mem32 i r rs ws b0 k0 hr hl ih =>
    cases idx with
    | zero => exact absurd rfl (hfree.2 _ List.mem_cons_self).1
    | succ j =>
      have e : i + (j + 1) = i + 1 + j := by omega
      have e2 : i + (j + 1 + 1) = i + 1 + (j + 1) := by omega
      simp only [List.length_cons, e, e2, Nat.add_lt_add_iff_right] at hfree hfree2
      obtain ⟨ws', h1, h2⟩ := ih j ⟨hfree.1, fun v hv => hfree.2 v (List.mem_cons_of_mem _ hv)⟩
        (fun he => ⟨(hfree2 he).1, fun v hv => (hfree2 he).2 v (List.mem_cons_of_mem _ hv)⟩)
      exact ⟨_ :: ws', by rw [configured_succ]; exact .mem32 _ _ _ _ _ _ hr h1, by
        intro v; rw [e, List.mem_cons, List.mem_cons, h2 v]; exact (or_assoc).symm⟩
  | io i r rs ws b0 k0 hr hl ih =>
    cases idx with
    | zero => exact absurd rfl (hfree.2 _ List.mem_cons_self).1
    | succ j =>
      have e : i + (j + 1) = i + 1 + j := by omega
      have e2 : i + (j + 1 + 1) = i + 1 + (j + 1) := by omega
      simp only [List.length_cons, e, e2, Nat.add_lt_add_iff_right] at hfree hfree2
      obtain ⟨ws', h1, h2⟩ := ih j ⟨hfree.1, fun v hv => hfree.2 v (List.mem_cons_of_mem _ hv)⟩
        (fun he => ⟨(hfree2 he).1, fun v hv => (hfree2 he).2 v (List.mem_cons_of_mem _ hv)⟩)
      exact ⟨_ :: ws', by rw [configured_succ]; exact .io _ _ _ _ _ _ hr h1, by
        intro v; rw [e, List.mem_cons, List.mem_cons, h2 v]; exact (or_assoc).symm⟩
  | mem64 i lo hi rs ws b0 k0 hr hl ih =>
    cases idx with
    | zero => exact absurd rfl (hfree.2 _ List.mem_cons_self).1
    | succ j =>
      cases j with
      | zero => exact absurd rfl ((hfree.2 _ List.mem_cons_self).2 rfl)
      | succ j =>
        have e : i + (j + 1 + 1) = i + 2 + j := by omega
        have e2 : i + (j + 1 + 1 + 1) = i + 2 + (j + 1) := by omega
        simp only [List.length_cons, e, e2, Nat.add_lt_add_iff_right] at hfree hfree2
        obtain ⟨ws', h1, h2⟩ := ih j ⟨hfree.1, fun v hv => hfree.2 v (List.mem_cons_of_mem _ hv)⟩
          (fun he => ⟨(hfree2 he).1, fun v hv => (hfree2 he).2 v (List.mem_cons_of_mem _ hv)⟩)
        exact ⟨_ :: ws', by rw [configured_succ, configured_succ]; exact .mem64 _ _ _ _ _ _ _ hr h1, by
          intro v; rw [e, List.mem_cons, List.mem_cons, h2 v]; exact (or_assoc).symm⟩

theorem configure_layout (bars : List BarReg) (ws : List Window) (idx size k : Nat) (ext prefetch io : Bool)
    (h : Layout 0 bars ws) (hs : SizeExp size (if io then 2 else 4) k) (hk : k < if ext then 64 else 32)
    (hio : io = true → ext = false)
    (hfree : idx < bars.length ∧ Unused ws idx)
    (hfree2 : ext = true → idx + 1 < bars.length ∧ Unused ws (idx + 1)) :
    ∃ bars' ws', configureBar bars idx size ext prefetch io = .ok bars' ∧ Layout 0 bars' ws' ∧
      ∀ v, v ∈ ws' ↔ v ∈ ws ∨ v = ⟨idx, io, ext, 0, k⟩ := by
  obtain ⟨ws', h1, h2⟩ := configure_layout' 0 bars ws idx size k ext prefetch io h hs hk hio
    (by simpa using hfree) (by simpa using hfree2)
  refine ⟨_, ws', configureBar_eq bars idx size ext prefetch io hfree.1 (fun h => (hfree2 h).1) hio, h1, ?_⟩
  simpa using h2

end Pcie
