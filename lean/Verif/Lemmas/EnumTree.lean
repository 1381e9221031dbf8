/-
Helper lemmas: sizing and assignment for a whole function and for the tree of buses.
-/
import Verif.Lemmas.EnumBridge
import Verif.Lemmas.EnumHdr
namespace Pcie
open Spec

theorem align_ge (v m : Nat) : v ≤ align v m := by
  unfold align
  have : v &&& m ≤ m := Nat.and_le_right
  split <;> omega

theorem layout_sep (i : Nat) (rs : List BarReg) (ws : List Window) (h : Layout i rs ws) :
    ∀ w ∈ ws, ∀ v ∈ ws, w.wide = true → w.idx + 1 ≠ v.idx := by
  induction h with
  | nil => simp
  | absent i r rs ws h0 hl ih => exact ih
  | mem32 i r rs ws b k hr hl ih =>
    have hidx := layout_idx _ _ _ hl
    intro w hw v hv hwide
    rcases List.mem_cons.1 hw with rfl | hw
    · simp at hwide
    · rcases List.mem_cons.1 hv with rfl | hv
      · have := hidx w hw; simp only; omega
      · exact ih w hw v hv hwide
  | io i r rs ws b k hr hl ih =>
    have hidx := layout_idx _ _ _ hl
    intro w hw v hv hwide
    rcases List.mem_cons.1 hw with rfl | hw
    · simp at hwide
    · rcases List.mem_cons.1 hv with rfl | hv
      · have := hidx w hw; simp only; omega
      · exact ih w hw v hv hwide
  | mem64 i lo hi rs ws b k hr hl ih =>
    have hidx := layout_idx _ _ _ hl
    intro w hw v hv hwide
    rcases List.mem_cons.1 hw with rfl | hw
    · rcases List.mem_cons.1 hv with rfl | hv
      · simp
      · have := hidx v hv; simp only; omega
    · rcases List.mem_cons.1 hv with rfl | hv
      · have := hidx w hw; simp only; omega
      · exact ih w hw v hv hwide

theorem layout_none (i : Nat) (rs : List BarReg) (ws : List Window) (h : Layout i rs ws) (h0 : ∀ b ∈ rs, b = {}) : ws = [] := by
  induction h with
  | nil => rfl
  | absent i r rs ws _ hl ih => exact ih (fun b hb => h0 b (List.mem_cons_of_mem _ hb))
  | mem32 i r rs ws b k hr hl ih =>
    have := h0 r (by simp)
    obtain ⟨h4, h32, hal, hb, hv, hm⟩ := hr
    rw [this] at hm
    have := Nat.pow_lt_pow_right (a := 2) (by omega) h32
    simp only at hm; omega
  | io i r rs ws b k hr hl ih =>
    have := h0 r (by simp)
    obtain ⟨h4, h32, hal, hb, hv, hm⟩ := hr
    rw [this] at hv
    simp only at hv; omega
  | mem64 i lo hi rs ws b k hr hl ih =>
    have := h0 lo (by simp)
    obtain ⟨h4, h64, hal, hb, hv, hvh, hm, hmh⟩ := hr
    rw [this] at hv
    simp only at hv; omega

theorem romIs_none {σ} (f : Common σ) (r : Option (Nat × Nat)) (h : RomIs f r) (h0 : f.romMask = 0) : r = none := by
  cases r with
  | none => rfl
  | some p =>
    obtain ⟨b, k⟩ := p
    obtain ⟨_, h32, _, _, hm, _⟩ := h
    have := Nat.pow_lt_pow_right (a := 2) (by omega) h32
    omega

theorem unused_rebase (base : Nat → Nat) (ws : List Window) (j : Nat) (h : Unused (rebase base ws) j) : Unused ws j := by
  intro w hw
  have := h { w with base := base w.idx } (List.mem_map_of_mem hw)
  exact this

theorem mem_rebase {base : Nat → Nat} {ws : List Window} {w : Window} (h : w ∈ rebase base ws) :
    ∃ v ∈ ws, w = { v with base := base v.idx } := by
  obtain ⟨v, hv, e⟩ := List.mem_map.1 h
  exact ⟨v, hv, e.symm⟩

theorem barRegions_rebase (bars : List BarReg) (base : Nat → Nat) (ws : List Window) :
    barRegions bars (rebase base ws) = ws.map fun w => ⟨poolOf bars w, base w.idx, 2 ^ w.k⟩ := by
  unfold barRegions rebase
  rw [List.map_map]; rfl

theorem poolOf_eq (bars : List BarReg) (w : Window) : poolOf bars w = poolR (bars.getD (w.idx - 0) {}) w := rfl

theorem shape_append (a b : List Region) : shape (a ++ b) = shape a ++ shape b := by simp [shape]

theorem shape_bars (bars bars' : List BarReg) (base : Nat → Nat) (ws : List Window)
    (h : ∀ w ∈ ws, poolOf bars' w = poolOf bars w) :
    shape (barRegions bars' (rebase base ws)) = shape (barRegions bars ws) := by
  rw [barRegions_rebase]
  unfold shape barRegions
  rw [List.map_map, List.map_map]
  apply List.map_congr_left
  intro w hw
  simp only [Function.comp, h w hw]

theorem shape_rom (r r' : Option (Nat × Nat)) (h : r'.map Prod.snd = r.map Prod.snd) : shape (romRegions r') = shape (romRegions r) := by
  cases r with
  | none => cases r' with
    | none => rfl
    | some p => simp at h
  | some q => cases r' with
    | none => simp at h
    | some p =>
      simp only [Option.map_some, Option.some.injEq] at h
      simp [romRegions, shape, h]

theorem assignRom_spec {τ σ} {ops : CapOps τ} {cops : CapOps σ} {get put cnt rom}
    (P : HdrPort ops cops get put cnt rom) (s s' : τ) (d d' : DevBars) (l l' : Limits) (r : Option (Nat × Nat))
    (hr : RomIs (get s) r) (hd : d.rom = some (romInfo (get s).romEnable r))
    (h : assignRom ops rom s d l = .ok (s', d', l')) :
    ∃ ra r', s' = put s { get s with romAddr := ra } ∧ RomIs { get s with romAddr := ra } r' ∧
      r'.map Prod.snd = r.map Prod.snd ∧ Seq l (romRegions r') l' ∧ (∀ b k, r' = some (b, k) → d'.romAddr = some b) ∧
      d'.addr = d.addr ∧ (r = none → l' = l) := by
  unfold assignRom at h
  rw [hd] at h
  cases r with
  | none =>
    simp only [romInfo, if_true, Except.ok.injEq, Prod.mk.injEq] at h
    obtain ⟨rfl, rfl, rfl⟩ := h
    exact ⟨(get s).romAddr, none, (P.put_get s).symm, hr, rfl, .done _ _ (Limits.Le.refl _), by simp, rfl, fun _ => rfl⟩
  | some p =>
    obtain ⟨b, k⟩ := p
    obtain ⟨h11, h32, hal, hb, hm, ha⟩ := hr
    have hpw := pow_ge k 11 h11
    have hk0 : (2 : Nat) ^ k ≠ 0 := by omega
    simp only [romInfo, hk0, if_false] at h
    have hen := toNat_le_one (get s).romEnable
    have e1 : (get s).romEnable.toNat + b &&& 0x7ff = (get s).romEnable.toNat := by
      have : b % 2 ^ 11 = 0 :=
        Nat.mod_eq_zero_of_dvd (Nat.dvd_trans (Nat.pow_dvd_pow 2 h11) (Nat.dvd_of_mod_eq_zero hal))
      rw [show (0x7ff : Nat) = 2 ^ 11 - 1 by decide, Nat.and_two_pow_sub_one_eq_mod]; omega
    obtain ⟨a1, a2⟩ := align_dvd l.mem k
    rw [e1] at h
    generalize align l.mem (2 ^ k - 1) = a at *
    rw [fl_or_align _ a k a1 (by omega)] at h
    unfold writeDword at h
    by_cases hlt : a + (get s).romEnable.toNat < 2 ^ 32
    swap
    · rw [if_neg hlt] at h; cases h
    rw [if_pos hlt, P.romWrite, writeRom_eq, ha, hm, bmu_flags _ _ _ _ (by omega) hb a1 (by omega) hlt,
      byteMaskUpdate_top _ _ _ (by omega) hb (by omega), hal, Nat.add_zero, div_mul_of_align _ _ a1,
      and_rom a k h11 a1 (by omega)] at h
    have hev := even_of_align a k (by omega) a1
    have hbit : bitSet (a + (get s).romEnable.toNat) 0 = (get s).romEnable := by
      rw [bitSet_eq, Nat.testBit_zero]
      cases (get s).romEnable <;> simp <;> omega
    rw [hbit] at h
    simp only [Except.ok.injEq, Prod.mk.injEq] at h
    obtain ⟨rfl, rfl, rfl⟩ := h
    refine ⟨a, some (a, k), by rw [← hm], ⟨h11, h32, a1, by omega, hm, rfl⟩, rfl, ?_, ?_, rfl, by simp⟩
    · exact .next _ _ _ _ a2 (.done _ _ (Limits.Le.refl _))
    · intro b k e; simp only [Option.some.injEq, Prod.mk.injEq] at e; rw [← e.1]

/-- What the host must have recorded before assignment. -/
def Sized {σ} (f : Common σ) (d : DevBars) (ws : List Window) (r : Option (Nat × Nat)) : Prop :=
  Known 0 f.bars ws d ∧ d.rom = some (romInfo f.romEnable r)

theorem assignBars_spec {τ σ} {ops : CapOps τ} {cops : CapOps σ} {get put cnt rom}
    (P : HdrPort ops cops get put cnt rom) (s s' : τ) (d d' : DevBars) (l l' : Limits) (ws : List Window)
    (r : Option (Nat × Nat)) (hf : FnRes cnt (get s) ws r) (hk : Sized (get s) d ws r)
    (hrun : assignBars ops cnt rom s d l = .ok (s', d', l')) (hlim : l'.mem ≤ 2 ^ 64 ∧ l'.pref ≤ 2 ^ 64) :
    ∃ c' ws' r', s' = put s c' ∧ FnRes cnt c' ws' r' ∧ Recorded c' d' ws' r' ∧ Seq l (fnRegions c' ws' r') l' ∧
      shape (fnRegions c' ws' r') = shape (fnRegions (get s) ws r) ∧ (NoRes (get s) → l' = l ∧ fnRegions c' ws' r' = []) := by
  unfold assignBars at hrun
  cases hb : assignBarsFrom ops cnt 0 s d l with
  | error e => rw [hb] at hrun; cases hrun
  | ok x =>
    obtain ⟨s1, d1, l1⟩ := x
    rw [hb] at hrun
    simp only at hrun
    -- the limits only grow
    have hl1 : l1.Le l' := by
      unfold assignRom at hrun
      cases hd : d1.rom with
      | none => 
        rw [hd] at hrun
        simp only [Except.ok.injEq, Prod.mk.injEq] at hrun
        rw [hrun.2.2]; exact Limits.Le.refl _
      | some x =>
        obtain ⟨raw, size⟩ := x
        rw [hd] at hrun
        simp only at hrun
        by_cases h0 : size = 0
        · rw [if_pos h0] at hrun
          simp only [Except.ok.injEq, Prod.mk.injEq] at hrun
          rw [hrun.2.2]; exact Limits.Le.refl _
        · rw [if_neg h0] at hrun
          unfold writeDword at hrun
          by_cases hlt : raw &&& 2047 ||| align l1.mem (size - 1) < 2 ^ 32
          · rw [if_pos hlt] at hrun
            simp only [Except.ok.injEq, Prod.mk.injEq] at hrun
            have hg := align_ge l1.mem (size - 1)
            rw [← hrun.2.2]
            exact ⟨Nat.le_refl _, by simp only; omega, Nat.le_refl _⟩
          · rw [if_neg hlt] at hrun; cases hrun
    obtain ⟨rs', base, e, hA⟩ := assignBarsFrom_spec P.bars 0 (get s).bars ws hf.lay [] s s1 d d1 l l1 rfl rfl
      (by rw [hf.len]; omega) hk.1 (by rw [hf.len]; exact hb) ⟨Nat.le_trans hl1.2.1 hlim.1, Nat.le_trans hl1.2.2 hlim.2⟩
    rw [List.nil_append] at e
    have hg : get s1 = { get s with bars := rs' } := by rw [e, P.get_put]
    obtain ⟨ra, r', e2, hr', hsz, hseq, hrec, haddr, hnone⟩ := assignRom_spec P s1 s' d1 d' l1 l' r
      (by rw [hg]; have := hf.rom; cases r <;> exact this) (by rw [hA.rom.1, hk.2, hg]) hrun
    rw [hg] at e2 hr'
    rw [e, P.put_put] at e2
    have hpool : ∀ w ∈ ws, poolOf rs' w = poolOf (get s).bars w := by
      intro w hw
      unfold poolOf
      cases hio : w.io with
      | true => rfl
      | false =>
        have := hA.flag w hw hio
        rw [Nat.sub_zero] at this
        rw [this]
    refine ⟨_, rebase base ws, r', e2, ⟨hA.lay, by simp only; rw [hA.len, hf.len], hr'⟩, ⟨?_, hrec⟩, ?_, ?_, ?_⟩
    · intro w hw
      obtain ⟨v, hv, rfl⟩ := mem_rebase hw
      rw [haddr]; exact hA.addr v hv
    · refine Seq.append (l1 := l1) ?_ hseq
      simp only
      rw [barRegions_rebase]
      have := hA.seq
      rw [List.map_congr_left (g := fun w : Window => (⟨poolOf rs' w, base w.idx, 2 ^ w.k⟩ : Region))
        (fun w hw => by rw [hpool w hw]; rfl)] at this
      exact this
    · unfold fnRegions
      rw [shape_append, shape_append, shape_rom r r' hsz]
      congr 1
      exact shape_bars _ _ _ _ hpool
    · intro hn
      have hw := layout_none 0 _ ws hf.lay hn.1
      have hr0 := romIs_none _ r hf.rom hn.2.1
      refine ⟨by rw [hnone hr0, hA.none hw], ?_⟩
      have : r' = none := by rw [hr0] at hsz; simpa using hsz
      rw [hw, this]; rfl

theorem readBars_fn {τ σ} {ops : CapOps τ} {cops : CapOps σ} {get put cnt rom}
    (P : HdrPort ops cops get put cnt rom) (s : τ) (d : DevBars) (ws : List Window)
    (r : Option (Nat × Nat)) (hf : FnRes cnt (get s) ws r) :
    ∃ c' d' ws', readBars ops cnt rom s d = .ok (put s c', d') ∧ FnRes cnt c' ws' r ∧ Sized c' d' ws' r ∧
      shape (fnRegions c' ws' r) = shape (fnRegions (get s) ws r) ∧ (NoRes (get s) → NoRes c') := by
  obtain ⟨bars', d', e, hp⟩ := readBars_spec P s d ws r hf.lay hf.len hf.rom
  obtain ⟨base, hl⟩ := hp.lay
  have hlow : ∀ w ∈ ws, bars'.getD w.idx {} = (get s).bars.getD w.idx {} := by
    intro w hw
    have := hp.same w.idx (fun v hv hwide => by
      rw [Nat.zero_add]; exact layout_sep _ _ _ hf.lay v hv w hw hwide)
    rw [List.getD_eq_getElem?_getD, List.getD_eq_getElem?_getD, this]
  refine ⟨_, _, rebase base ws, e, ⟨hl, by simp only; rw [hp.len, hf.len], ?_⟩, ⟨⟨?_, ?_⟩, rfl⟩, ?_, ?_⟩
  · have := hf.rom; cases r <;> exact this
  · intro w hw
    obtain ⟨v, hv, rfl⟩ := mem_rebase hw
    obtain ⟨raw, h1, h2⟩ := hp.info v hv
    refine ⟨raw, h1, ?_⟩
    rw [h2, Nat.sub_zero]; simp only; rw [hlow v hv]
  · intro j hj hu
    exact hp.absent j (by rw [← hp.len]; exact hj) (unused_rebase _ _ _ hu)
  · unfold fnRegions
    rw [shape_append, shape_append]
    congr 1
    apply shape_bars
    intro w hw
    unfold poolOf
    rw [hlow w hw]
  · intro hn
    refine ⟨?_, hn.2⟩
    have hw := layout_none 0 _ ws hf.lay hn.1
    intro b hb
    obtain ⟨j, hj, rfl⟩ := List.getElem_of_mem hb
    have := hp.same j (fun v hv => by rw [hw] at hv; simp at hv)
    rw [List.getElem?_eq_getElem hj] at this
    have h2 := List.mem_of_getElem? this.symm
    exact hn.1 _ h2

end Pcie
