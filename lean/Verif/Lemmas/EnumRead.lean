/-
Helper lemmas: BAR sizing.
-/
import Verif.Lemmas.Enum
namespace Pcie
open Spec

theorem rebase_cons (base : Nat → Nat) (w : Window) (ws : List Window) :
    rebase base (w :: ws) = { w with base := base w.idx } :: rebase base ws := rfl

theorem rebase_upd (base : Nat → Nat) (i b : Nat) (ws : List Window) (h : ∀ w ∈ ws, w.idx ≠ i) :
    rebase (fun j => if j = i then b else base j) ws = rebase base ws := by
  apply List.map_congr_left
  intro w hw
  simp only [h w hw, if_false]

theorem layout_len (i : Nat) (bars : List BarReg) (ws : List Window) (h : Layout i bars ws) :
    ∀ w ∈ ws, w.idx < i + bars.length ∧ (w.wide = true → w.idx + 1 < i + bars.length) := by
  induction h with
  | nil i => simp
  | absent i r rs ws h0 hl ih =>
    intro w hw; have := ih w hw; simp only [List.length_cons]
    exact ⟨by omega, fun h => by have := this.2 h; omega⟩
  | mem32 i r rs ws base k hr hl ih =>
    intro w hw
    simp only [List.length_cons]
    rcases List.mem_cons.1 hw with rfl | hw
    · exact ⟨by simp only; omega, by simp⟩
    · have := ih w hw; exact ⟨by omega, fun h => by have := this.2 h; omega⟩
  | io i r rs ws base k hr hl ih =>
    intro w hw
    simp only [List.length_cons]
    rcases List.mem_cons.1 hw with rfl | hw
    · exact ⟨by simp only; omega, by simp⟩
    · have := ih w hw; exact ⟨by omega, fun h => by have := this.2 h; omega⟩
  | mem64 i lo hi rs ws base k hr hl ih =>
    intro w hw
    simp only [List.length_cons]
    rcases List.mem_cons.1 hw with rfl | hw
    · exact ⟨by simp only; omega, by simp only; intro; omega⟩
    · have := ih w hw; exact ⟨by omega, fun h => by have := this.2 h; omega⟩

/-- What sizing does: the registers `rs`, numbered from `i`, become `rs'`; the collected data `d` become `d'`. -/
structure Probed (i : Nat) (rs rs' : List BarReg) (ws : List Window) (d d' : DevBars) : Prop where
  len : rs'.length = rs.length
  lay : ∃ base, Layout i rs' (rebase base ws)
  same : ∀ j, (∀ w ∈ ws, w.wide = true → w.idx + 1 ≠ i + j) → rs'[j]? = rs[j]?
  info : ∀ w ∈ ws, ∃ raw, d'.info w.idx = some ⟨raw, 2 ^ w.k⟩ ∧ raw % 2 ^ 32 = (rs.getD (w.idx - i) {}).val
  absent : ∀ j < rs.length, Unused ws (i + j) → d'.info (i + j) = some ⟨0, 0⟩
  before : ∀ j < i, d'.info j = d.info j
  other : d'.addr = d.addr ∧ d'.rom = d.rom ∧ d'.romAddr = d.romAddr

theorem getD_cons_sub (r : BarReg) (rs : List BarReg) (n i : Nat) (h : i + 1 ≤ n) :
    (r :: rs).getD (n - i) {} = rs.getD (n - (i + 1)) {} := by
  rw [show n - i = (n - (i + 1)) + 1 by omega]; rfl

theorem Probed.absent_cons {i r rs rs' ws d d'} (hl : Layout (i + 1) rs ws) (h0 : r = {})
    (h : Probed (i + 1) rs rs' ws (d.setInfo i 0 0) d') : Probed i (r :: rs) (r :: rs') ws d d' := by
  have hidx := layout_idx _ _ _ hl
  refine ⟨by simp [h.len], ?_, ?_, ?_, ?_, ?_, ?_⟩
  · obtain ⟨b, hb⟩ := h.lay
    exact ⟨b, .absent _ _ _ _ h0 hb⟩
  · intro j hj
    cases j with
    | zero => rfl
    | succ j =>
      simp only [List.getElem?_cons_succ]
      exact h.same j fun w hw hwd => by have := hj w hw hwd; omega
  · intro w hw
    obtain ⟨raw, h1, h2⟩ := h.info w hw
    exact ⟨raw, h1, by rw [h2, getD_cons_sub _ _ _ _ (hidx w hw)]⟩
  · intro j hj hu
    cases j with
    | zero => rw [Nat.add_zero, h.before i (by omega)]; simp [DevBars.setInfo]
    | succ j =>
      have := h.absent j (by simpa using hj) (by rw [show i + 1 + j = i + (j + 1) by omega]; exact hu)
      rwa [show i + 1 + j = i + (j + 1) by omega] at this
  · intro j hj
    rw [h.before j (by omega)]
    simp only [DevBars.setInfo]; rw [if_neg (by omega)]
  · exact h.other

theorem Probed.single_cons {i r rs rs' ws d d'} (w : Window) (hw : w.idx = i) (hn : w.wide = false)
    (hl : Layout (i + 1) rs ws) (hcons : ∀ ws, Layout (i + 1) rs' ws → Layout i (r :: rs') (w :: ws)) (hv : r.val < 2 ^ 32)
    (h : Probed (i + 1) rs rs' ws (d.setInfo i r.val (2 ^ w.k)) d') : Probed i (r :: rs) (r :: rs') (w :: ws) d d' := by
  have hidx := layout_idx _ _ _ hl
  refine ⟨by simp [h.len], ?_, ?_, ?_, ?_, ?_, ?_⟩
  · obtain ⟨b, hb⟩ := h.lay
    refine ⟨fun j => if j = i then w.base else b j, ?_⟩
    rw [rebase_cons, rebase_upd _ _ _ _ (fun w hw => by have := hidx w hw; omega)]
    simp only [hw, if_true]
    subst hw
    exact hcons _ hb
  · intro j hj
    cases j with
    | zero => rfl
    | succ j =>
      simp only [List.getElem?_cons_succ]
      exact h.same j fun v hv hvd => by have := hj v (List.mem_cons_of_mem _ hv) hvd; omega
  · intro v hv
    rcases List.mem_cons.1 hv with rfl | hv
    · refine ⟨r.val, ?_, ?_⟩
      · rw [hw, h.before i (by omega)]; simp [DevBars.setInfo]
      · rw [hw, Nat.sub_self, Nat.mod_eq_of_lt (by assumption)]; rfl
    · obtain ⟨raw, h1, h2⟩ := h.info v hv
      exact ⟨raw, h1, by rw [h2, getD_cons_sub _ _ _ _ (hidx v hv)]⟩
  · intro j hj hu
    cases j with
    | zero => exact absurd hw (hu w List.mem_cons_self).1
    | succ j =>
      have := h.absent j (by simpa using hj) (by
        rw [show i + 1 + j = i + (j + 1) by omega]; exact fun v hv => hu v (List.mem_cons_of_mem _ hv))
      rwa [show i + 1 + j = i + (j + 1) by omega] at this
  · intro j hj
    rw [h.before j (by omega)]
    simp only [DevBars.setInfo]; rw [if_neg (by omega)]
  · exact h.other

theorem Probed.wide_cons {i lo hi hi' rs rs' ws d d' raw b} (w : Window) (hw : w.idx = i) (hn : w.wide = true)
    (hl : Layout (i + 2) rs ws)
    (hcons : ∀ ws, Layout (i + 2) rs' ws → Layout i (lo :: hi' :: rs') ({ w with base := b } :: ws))
    (hraw : raw % 2 ^ 32 = lo.val)
    (h : Probed (i + 2) rs rs' ws (d.setInfo i raw (2 ^ w.k)) d') :
    Probed i (lo :: hi :: rs) (lo :: hi' :: rs') (w :: ws) d d' := by
  have hidx := layout_idx _ _ _ hl
  refine ⟨by simp [h.len], ?_, ?_, ?_, ?_, ?_, ?_⟩
  · obtain ⟨bb, hb⟩ := h.lay
    refine ⟨fun j => if j = i then b else bb j, ?_⟩
    rw [rebase_cons, rebase_upd _ _ _ _ (fun w hw => by have := hidx w hw; omega)]
    simp only [hw, if_true]
    have := hcons _ hb
    rwa [hw] at this
  · intro j hj
    match j with
    | 0 => rfl
    | 1 => exact absurd (by omega) (hj w List.mem_cons_self hn)
    | j + 2 =>
      simp only [List.getElem?_cons_succ]
      exact h.same j fun v hv hvd => by have := hj v (List.mem_cons_of_mem _ hv) hvd; omega
  · intro v hv
    rcases List.mem_cons.1 hv with rfl | hv
    · refine ⟨raw, ?_, ?_⟩
      · rw [hw, h.before i (by omega)]; simp [DevBars.setInfo]
      · rw [hw, Nat.sub_self, hraw]; rfl
    · obtain ⟨raw, h1, h2⟩ := h.info v hv
      have := hidx v hv
      exact ⟨raw, h1, by rw [h2, getD_cons_sub _ _ _ _ (by omega), getD_cons_sub _ _ _ _ (by omega)]⟩
  · intro j hj hu
    match j with
    | 0 => exact absurd hw (hu w List.mem_cons_self).1
    | 1 => exact absurd (by omega) ((hu w List.mem_cons_self).2 hn)
    | j + 2 =>
      have := h.absent j (by simpa using hj) (by
        rw [show i + 2 + j = i + (j + 2) by omega]; exact fun v hv => hu v (List.mem_cons_of_mem _ hv))
      rwa [show i + 2 + j = i + (j + 2) by omega] at this
  · intro j hj
    rw [h.before j (by omega)]
    simp only [DevBars.setInfo]; rw [if_neg (by omega)]
  · exact h.other

theorem readBarsFrom_spec {τ} {ops : CapOps τ} {get put cnt} (P : BarPort ops get put cnt) (i : Nat)
    (rs : List BarReg) (ws : List Window) (h : Layout i rs ws) (pre : List BarReg) (s : τ) (d : DevBars)
    (hs : get s = pre ++ rs) (hpi : pre.length = i) (hc : i + rs.length ≤ cnt) :
    ∃ rs' d', readBarsFrom ops rs.length i s d = .ok (put s (pre ++ rs'), d') ∧ Probed i rs rs' ws d d' := by
  induction h generalizing pre s d with
  | nil i =>
    refine ⟨[], d, ?_, ⟨rfl, ⟨fun _ => 0, .nil _⟩, fun _ _ => rfl, by simp, by simp, fun _ _ => rfl, ⟨rfl, rfl, rfl⟩⟩⟩
    rw [← hs, P.put_get]; rfl
  | absent i r rs ws h0 hl ih =>
    simp only [List.length_cons] at hc
    obtain ⟨p1, p2, p3⟩ := P.probe s pre rs r i hs hpi (by omega) (by rw [h0]; decide)
      (by rw [h0, byteMaskUpdate_none]; decide)
    have hz : byteMaskUpdate r.val 0xf 0xffffffff (some r.mask) = 0 := by rw [h0]; exact byteMaskUpdate_none _ _ _
    obtain ⟨rs', d', e, hp⟩ := ih (pre ++ [r]) s (d.setInfo i 0 0) (by simp [hs]) (by simp [hpi]) (by omega)
    refine ⟨r :: rs', d', ?_, hp.absent_cons hl h0⟩
    rw [List.length_cons, readBarsFrom.eq_def]
    simp only
    rw [p1, p2, p3, hz]
    simp only [if_true]
    rw [e]; simp
  | mem32 i r rs ws base k hr hl ih =>
    simp only [List.length_cons] at hc
    obtain ⟨fl, f1, f2, f3, f4, f5⟩ := IsMem32.ones hr
    obtain ⟨t1, t2, t3, t4, t5⟩ := size32_tab k hr.2.1 hr.1 fl (by rcases f2 with rfl | rfl <;> simp)
    obtain ⟨p1, p2, p3⟩ := P.probe s pre rs r i hs hpi (by omega) f3 (by rw [f5]; exact t5)
    obtain ⟨rs', d', e, hp⟩ := ih (pre ++ [r]) s (d.setInfo i r.val (2 ^ k)) (by simp [hs]) (by simp [hpi]) (by omega)
    refine ⟨r :: rs', d', ?_, hp.single_cons ⟨i, false, false, base, k⟩ rfl rfl hl (fun ws h => .mem32 _ _ _ _ _ _ hr h) f3⟩
    rw [List.length_cons, readBarsFrom.eq_def]
    simp only
    rw [p1, p2, p3, f5]
    simp only [t2, t3, t4, if_false, ne_eq, not_true_eq_false, t1]
    rw [e]; simp
  | io i r rs ws base k hr hl ih =>
    simp only [List.length_cons] at hc
    obtain ⟨f3, f5⟩ := IsIo.ones hr
    obtain ⟨t1, t2, t3, t5⟩ := sizeIo_tab k hr.2.1 hr.1
    obtain ⟨p1, p2, p3⟩ := P.probe s pre rs r i hs hpi (by omega) f3 (by rw [f5]; exact t5)
    obtain ⟨rs', d', e, hp⟩ := ih (pre ++ [r]) s (d.setInfo i r.val (2 ^ k)) (by simp [hs]) (by simp [hpi]) (by omega)
    refine ⟨r :: rs', d', ?_, hp.single_cons ⟨i, true, false, base, k⟩ rfl rfl hl (fun ws h => .io _ _ _ _ _ _ hr h) f3⟩
    rw [List.length_cons, readBarsFrom.eq_def]
    simp only
    rw [p1, p2, p3, f5]
    simp only [t2, t3, if_false, ne_eq, not_false_eq_true, if_true, t1]
    rw [e]; simp
  | mem64 i lo hi rs ws base k hr hl ih =>
    simp only [List.length_cons] at hc
    obtain ⟨fl, f1, f2, f3, f3', f4, f5, f6⟩ := IsMem64.ones hr
    obtain ⟨t1, t2, t3, t4, t5⟩ := size64_tab k hr.2.1 hr.1 fl (by rcases f2 with rfl | rfl <;> simp)
    obtain ⟨b, hb, hb2⟩ := IsMem64.clobber hr
    obtain ⟨p1, p2, p3⟩ := P.probe s pre (hi :: rs) lo i hs hpi (by omega) f3 (by rw [f5]; exact t5)
    have w1 : ops.write s (4 + (i + 1)) 0xffffffff 0xf =
        put s ((pre ++ [lo]) ++ { hi with val := (2 ^ 64 - 2 ^ k) / 2 ^ 32 } :: rs) := by
      rw [P.write _ _ _ (by omega), hs, show pre ++ lo :: hi :: rs = (pre ++ [lo]) ++ hi :: rs by simp,
        writeBar_mid _ _ _ _ _ _ (by simp [hpi]), f6]
    have r1 : ops.read (put s ((pre ++ [lo]) ++ { hi with val := (2 ^ 64 - 2 ^ k) / 2 ^ 32 } :: rs)) (4 + (i + 1)) =
        (2 ^ 64 - 2 ^ k) / 2 ^ 32 := by
      have := Nat.two_pow_pos k
      rw [P.read _ _ (by omega) (by rw [P.get_put, getD_mid _ _ _ _ (by simp [hpi])]; simp only; omega), P.get_put,
        getD_mid _ _ _ _ (by simp [hpi])]
    have w2 : ops.write (put s ((pre ++ [lo]) ++ { hi with val := (2 ^ 64 - 2 ^ k) / 2 ^ 32 } :: rs)) (4 + (i + 1)) lo.val 0xf =
        put s ((pre ++ [lo]) ++ { hi with val := byteMaskUpdate (byteMaskUpdate hi.val 0xf 0xffffffff (some hi.mask)) 0xf lo.val (some hi.mask) } :: rs) := by
      rw [P.write _ _ _ (by omega), P.get_put, writeBar_mid _ _ _ _ _ _ (by simp [hpi]), P.put_put, f6]
    generalize hh : ({ hi with val := byteMaskUpdate (byteMaskUpdate hi.val 0xf 0xffffffff (some hi.mask)) 0xf lo.val (some hi.mask) } : BarReg) = hi' at *
    have hraw : (lo.val ||| lo.val <<< 32) % 2 ^ 32 = lo.val := by
      rw [or_shl_add _ _ _ f3]; omega
    obtain ⟨rs', d', e, hp⟩ := ih (pre ++ [lo] ++ [hi']) (put s ((pre ++ [lo]) ++ hi' :: rs))
      (d.setInfo i (lo.val ||| lo.val <<< 32) (2 ^ k)) (by rw [P.get_put]; simp) (by simp [hpi]) (by omega)
    refine ⟨lo :: hi' :: rs', d', ?_, hp.wide_cons ⟨i, false, true, base, k⟩ rfl rfl hl
      (fun ws h => .mem64 _ _ _ _ _ _ _ hb h) hraw⟩
    rw [List.length_cons, List.length_cons, readBarsFrom.eq_def]
    simp only
    rw [p1, p2, p3, f5]
    simp only [t2, t3, t4, if_false, ne_eq, not_true_eq_false, not_false_eq_true, if_true]
    rw [p1, w1, r1, w2, t1, e, P.put_put]
    simp

end Pcie
