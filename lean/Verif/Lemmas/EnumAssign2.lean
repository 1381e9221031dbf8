/-
Helper lemmas: BAR assignment, the loop.
-/
import Verif.Lemmas.EnumAssign
namespace Pcie
open Spec

theorem bmu_low (old be new m j : Nat) (h : m % 2 ^ j = 0) :
    byteMaskUpdate old be new (some m) % 2 ^ j = old % 2 ^ j := by
  apply Nat.eq_of_testBit_eq
  intro i
  rw [Nat.testBit_mod_two_pow, Nat.testBit_mod_two_pow]
  by_cases hi : i < j
  · have : m.testBit i = false := by
      have := Nat.testBit_mod_two_pow m j i
      rw [h, Nat.zero_testBit] at this
      simpa [hi] using this.symm
    rw [bmu_some, if_neg (by simp [this])]
  · simp [hi]

theorem testBit3_mod (x : Nat) : x.testBit 3 = (x % 2 ^ 4).testBit 3 := by
  rw [Nat.testBit_mod_two_pow]; simp

/-- The pool of the window a register stands for. -/
def poolR (r : BarReg) (w : Window) : Pool :=
  if w.io then .io else if w.wide && r.val.testBit 3 then .pref else .mem

structure Assigned (i : Nat) (rs rs' : List BarReg) (ws : List Window) (d d' : DevBars) (l l' : Limits)
    (base : Nat → Nat) : Prop where
  len : rs'.length = rs.length
  lay : Layout i rs' (rebase base ws)
  seq : Seq l (ws.map fun w => ⟨poolR (rs.getD (w.idx - i) {}) w, base w.idx, 2 ^ w.k⟩) l'
  flag : ∀ w ∈ ws, w.io = false → (rs'.getD (w.idx - i) {}).val.testBit 3 = (rs.getD (w.idx - i) {}).val.testBit 3
  addr : ∀ w ∈ ws, d'.addr w.idx = some (base w.idx)
  before : ∀ j < i, d'.addr j = d.addr j
  rom : d'.rom = d.rom ∧ d'.romAddr = d.romAddr
  none : ws = [] → l' = l

theorem Assigned.absent_cons {i r rs rs' ws d d' l l' base} (hl : Layout (i + 1) rs ws) (h0 : r = {})
    (h : Assigned (i + 1) rs rs' ws d d' l l' base) : Assigned i (r :: rs) (r :: rs') ws d d' l l' base := by
  have hidx := layout_idx _ _ _ hl
  refine ⟨by simp [h.len], .absent _ _ _ _ h0 h.lay, ?_, ?_, h.addr, fun j hj => h.before j (by omega), h.rom, h.none⟩
  · have := h.seq
    rw [List.map_congr_left (g := fun w : Window =>
      (⟨poolR ((r :: rs).getD (w.idx - i) {}) w, base w.idx, 2 ^ w.k⟩ : Region))
      (fun w hw => by rw [getD_cons_sub _ _ _ _ (hidx w hw)])] at this
    exact this
  · intro w hw hio
    rw [getD_cons_sub _ _ _ _ (hidx w hw), getD_cons_sub _ _ _ _ (hidx w hw)]; exact h.flag w hw hio

theorem Assigned.single_cons {i r r' rs rs' ws d d1 d' l l' base} (w : Window) (b : Nat) (hw : w.idx = i)
    (hn : w.wide = false)
    (hl : Layout (i + 1) rs ws)
    (hcons : ∀ ws, Layout (i + 1) rs' ws → Layout i (r' :: rs') ({ w with base := b } :: ws))
    (hfl : w.io = false → r'.val.testBit 3 = r.val.testBit 3)
    (hlim : lim l (if w.io then .io else .mem) ≤ b)
    (hd1 : d1.addr i = some b) (hd2 : ∀ j < i, d1.addr j = d.addr j) (hd3 : d1.rom = d.rom ∧ d1.romAddr = d.romAddr)
    (h : Assigned (i + 1) rs rs' ws d1 d' (l.setTo (if w.io then .io else .mem) (b + 2 ^ w.k)) l' base) :
    ∃ base, Assigned i (r :: rs) (r' :: rs') (w :: ws) d d' l l' base := by
  have hidx := layout_idx _ _ _ hl
  have hp : poolR ((r :: rs).getD (w.idx - i) {}) w = if w.io then .io else .mem := by
    unfold poolR; rw [hn]; simp
  refine ⟨fun j => if j = i then b else base j, by simp [h.len], ?_, ?_, ?_, ?_, ?_, ?_, by simp⟩
  · rw [rebase_cons, rebase_upd _ _ _ _ (fun w hw => by have := hidx w hw; omega)]
    simp only [hw, if_true]
    have := hcons _ h.lay
    rwa [hw] at this
  · rw [List.map_cons]
    refine .next _ _ _ _ ?_ ?_
    · simp only [hp]; simp only [hw, if_true]; exact hlim
    · simp only [hp]; simp only [hw, if_true]
      have := h.seq
      rwa [List.map_congr_left (g := fun w : Window =>
        (⟨poolR ((r :: rs).getD (w.idx - i) {}) w, if w.idx = i then b else base w.idx, 2 ^ w.k⟩ : Region))
        (fun w hw => by
          have := hidx w hw
          rw [getD_cons_sub _ _ _ _ (hidx w hw), if_neg (show ¬ w.idx = i by omega)])] at this
  · intro v hv hio
    rcases List.mem_cons.1 hv with rfl | hv
    · rw [hw, Nat.sub_self]; exact hfl hio
    · rw [getD_cons_sub _ _ _ _ (hidx v hv), getD_cons_sub _ _ _ _ (hidx v hv)]; exact h.flag v hv hio
  · intro v hv
    rcases List.mem_cons.1 hv with rfl | hv
    · simp only [hw, if_true]; rw [h.before i (by omega), hd1]
    · have := hidx v hv
      rw [if_neg (by omega)]; exact h.addr v hv
  · intro j hj; rw [h.before j (by omega), hd2 j hj]
  · rw [h.rom.1, h.rom.2]; exact hd3

theorem Assigned.wide_cons {i lo hi lo' hi' rs rs' ws d d1 d' l l' base} (w : Window) (b : Nat) (hw : w.idx = i)
    (hn : w.wide = true) (hio : w.io = false)
    (hl : Layout (i + 2) rs ws)
    (hcons : ∀ ws, Layout (i + 2) rs' ws → Layout i (lo' :: hi' :: rs') ({ w with base := b } :: ws))
    (hfl : lo'.val.testBit 3 = lo.val.testBit 3)
    (hlim : lim l (if lo.val.testBit 3 then .pref else .mem) ≤ b)
    (hd1 : d1.addr i = some b) (hd2 : ∀ j < i, d1.addr j = d.addr j) (hd3 : d1.rom = d.rom ∧ d1.romAddr = d.romAddr)
    (h : Assigned (i + 2) rs rs' ws d1 d' (l.setTo (if lo.val.testBit 3 then .pref else .mem) (b + 2 ^ w.k)) l' base) :
    ∃ base, Assigned i (lo :: hi :: rs) (lo' :: hi' :: rs') (w :: ws) d d' l l' base := by
  have hidx := layout_idx _ _ _ hl
  have hp : poolR ((lo :: hi :: rs).getD (w.idx - i) {}) w = if lo.val.testBit 3 then .pref else .mem := by
    unfold poolR; rw [hn, hio, hw, Nat.sub_self]; simp
  have hget : ∀ (a b : BarReg) (rs : List BarReg) (n : Nat), i + 2 ≤ n →
      (a :: b :: rs).getD (n - i) {} = rs.getD (n - (i + 2)) {} := by
    intro a b rs n hn
    rw [getD_cons_sub _ _ _ _ (by omega), getD_cons_sub _ _ _ _ (by omega)]
  refine ⟨fun j => if j = i then b else base j, by simp [h.len], ?_, ?_, ?_, ?_, ?_, ?_, by simp⟩
  · rw [rebase_cons, rebase_upd _ _ _ _ (fun w hw => by have := hidx w hw; omega)]
    simp only [hw, if_true]
    have := hcons _ h.lay
    rwa [hw] at this
  · rw [List.map_cons]
    refine .next _ _ _ _ ?_ ?_
    · simp only [hp]; simp only [hw, if_true]; exact hlim
    · simp only [hp]; simp only [hw, if_true]
      have := h.seq
      rwa [List.map_congr_left (g := fun w : Window =>
        (⟨poolR ((lo :: hi :: rs).getD (w.idx - i) {}) w, if w.idx = i then b else base w.idx, 2 ^ w.k⟩ : Region))
        (fun w hw => by
          have := hidx w hw
          rw [hget _ _ _ _ (hidx w hw), if_neg (show ¬ w.idx = i by omega)])] at this
  · intro v hv hio
    rcases List.mem_cons.1 hv with rfl | hv
    · rw [hw, Nat.sub_self]; exact hfl
    · rw [hget _ _ _ _ (hidx v hv), hget _ _ _ _ (hidx v hv)]; exact h.flag v hv hio
  · intro v hv
    rcases List.mem_cons.1 hv with rfl | hv
    · simp only [hw, if_true]; rw [h.before i (by omega), hd1]
    · have := hidx v hv
      rw [if_neg (by omega)]; exact h.addr v hv
  · intro j hj; rw [h.before j (by omega), hd2 j hj]
  · rw [h.rom.1, h.rom.2]; exact hd3

theorem setAddr_info (d : DevBars) (bar raw size addr j : Nat) (h : bar < j) :
    (d.setAddr bar raw size addr).info j = d.info j := by
  simp only [DevBars.setAddr, DevBars.setInfo]; rw [if_neg (by omega)]

theorem setAddr64_info (d : DevBars) (bar raw size addr j : Nat) (h : bar < j) :
    (d.setAddr64 bar raw size addr).info j = d.info j := by
  simp only [DevBars.setAddr64, DevBars.setInfo]; rw [if_neg (by omega)]

theorem and_8_ne (x : Nat) : (x &&& 8 ≠ 0) ↔ x.testBit 3 = true := and_ne_bit x 3

theorem assignBarsFrom_spec {τ} {ops : CapOps τ} {get put cnt} (P : BarPort ops get put cnt) (i : Nat)
    (rs : List BarReg) (ws : List Window) (h : Layout i rs ws) (pre : List BarReg) (s s' : τ) (d d' : DevBars)
    (l l' : Limits)
    (hs : get s = pre ++ rs) (hpi : pre.length = i) (hc : i + rs.length ≤ cnt) (hk : Known i rs ws d)
    (hrun : assignBarsFrom ops rs.length i s d l = .ok (s', d', l')) (hlim : l'.mem ≤ 2 ^ 64 ∧ l'.pref ≤ 2 ^ 64) :
    ∃ rs' base, s' = put s (pre ++ rs') ∧ Assigned i rs rs' ws d d' l l' base := by
  induction h generalizing pre s d l with
  | nil i =>
    simp only [List.length_nil, assignBarsFrom, Except.ok.injEq, Prod.mk.injEq] at hrun
    obtain ⟨rfl, rfl, rfl⟩ := hrun
    refine ⟨[], fun _ => 0, by rw [← hs, P.put_get], rfl, .nil _, .done _ _ (Limits.Le.refl _), by simp, by simp,
      fun _ _ => rfl, ⟨rfl, rfl⟩, fun _ => rfl⟩
  | absent i r rs ws h0 hl ih =>
    simp only [List.length_cons] at hc
    have hidx := layout_idx _ _ _ hl
    have hinf : d.info i = some ⟨0, 0⟩ := by
      have := hk.absent 0 (by simp) (fun v hv => by have := hidx v hv; exact ⟨by omega, fun _ => by omega⟩)
      simpa using this
    rw [List.length_cons, assignBarsFrom.eq_def] at hrun
    simp only [hinf, if_true] at hrun
    obtain ⟨rs', base, e, hp⟩ := ih (pre ++ [r]) s d l (by simp [hs]) (by simp [hpi]) (by omega)
      (hk.tail1 hl (fun _ h => h) (fun _ _ h => h) (fun _ _ => rfl)) hrun
    exact ⟨r :: rs', base, by rw [e]; simp, hp.absent_cons hl h0⟩
  | mem32 i r rs ws base k hr hl ih =>
    simp only [List.length_cons] at hc
    have hidx := layout_idx _ _ _ hl
    obtain ⟨fl, f1, f2, f3, f4, -⟩ := IsMem32.ones hr
    obtain ⟨h4, h32, hal, hb, hv, hm⟩ := id hr
    have h16 := mod16_of_align base k h4 hal
    have hpw := pow_ge k 4 h4
    obtain ⟨raw, hinf, hraw⟩ := hk.info ⟨i, false, false, base, k⟩ (by simp)
    simp only [Nat.sub_self, List.getD_cons_zero] at hinf hraw
    have q1 : raw &&& 1 = 0 := by rw [raw_low raw _ 1 hraw 1 (by omega) rfl]; omega
    have q4 : raw &&& 4 = 0 := by rw [and_b2]; omega
    have qf : raw &&& 0xf = fl := by rw [raw_low raw _ 0xf hraw 4 (by omega) rfl]; omega
    obtain ⟨a1, a2⟩ := align_dvd l.mem k
    rw [List.length_cons, assignBarsFrom.eq_def] at hrun
    have hk0 : (2 : Nat) ^ k ≠ 0 := by omega
    simp only [hinf, hk0, if_false, q1, q4, qf, ne_eq, not_true_eq_false] at hrun
    generalize align l.mem (2 ^ k - 1) = a at *
    rw [fl_or_align fl a k a1 (by omega)] at hrun
    unfold writeDword at hrun
    by_cases hlt : a + fl < 2 ^ 32
    · simp only [hlt, if_true] at hrun
      rw [P.write _ _ _ (by omega), hs, writeBar_mid _ _ _ _ _ _ hpi] at hrun
      have hbm : byteMaskUpdate r.val 0xf (a + fl) (some r.mask) = byteMaskUpdate r.val 0xf a (some r.mask) := by
        rw [hm]; exact bmu_flags _ _ _ _ (by omega) f3 a1 (by omega) hlt
      rw [hbm] at hrun
      have hreb := IsMem32.rebase hr a a1 (by omega)
      have hbit : (byteMaskUpdate r.val 0xf a (some r.mask)).testBit 3 = r.val.testBit 3 := by
        rw [testBit3_mod, bmu_low, ← testBit3_mod]
        rw [hm]
        have : ∀ k < 32, 4 ≤ k → (2 ^ 32 - 2 ^ k) % 2 ^ 4 = 0 := by decide +kernel
        exact this k h32 h4
      generalize hr' : ({ r with val := byteMaskUpdate r.val 0xf a (some r.mask) } : BarReg) = r' at *
      obtain ⟨rs', bs, e, hp⟩ := ih (pre ++ [r']) (put s (pre ++ r' :: rs)) _ _ (by rw [P.get_put]; simp) (by simp [hpi])
        (by omega)
        (hk.tail1 hl (fun _ h => List.mem_cons_of_mem _ h) (fun j hj h v hv => by
          rcases List.mem_cons.1 hv with rfl | hv
          · exact ⟨by simp only; omega, by simp⟩
          · exact h v hv) (fun j hj => setAddr_info _ _ _ _ _ _ (by omega))) hrun
      obtain ⟨bs', hA⟩ := Assigned.single_cons (i := i) (r := r) (r' := r') (d := d) (l := l) ⟨i, false, false, base, k⟩ a rfl rfl hl
        (fun ws h => .mem32 _ _ _ _ _ _ hreb h) (fun _ => by rw [← hr']; exact hbit) a2
        (by simp [DevBars.setAddr]) (fun j hj => by simp only [DevBars.setAddr]; rw [if_neg (by omega)]) (by exact ⟨rfl, rfl⟩) hp
      exact ⟨r' :: rs', bs', by rw [e, P.put_put]; simp, hA⟩
    · simp only [hlt, if_false] at hrun; cases hrun
  | io i r rs ws base k hr hl ih =>
    simp only [List.length_cons] at hc
    have hidx := layout_idx _ _ _ hl
    obtain ⟨f3, -⟩ := IsIo.ones hr
    obtain ⟨h4, h32, hal, hb, hv, hm⟩ := id hr
    have h16 := mod4_of_align base k h4 hal
    have hpw := pow_ge k 2 h4
    obtain ⟨raw, hinf, hraw⟩ := hk.info ⟨i, true, false, base, k⟩ (by simp)
    simp only [Nat.sub_self, List.getD_cons_zero] at hinf hraw
    have q1 : raw &&& 1 ≠ 0 := by rw [raw_low raw _ 1 hraw 1 (by omega) rfl]; omega
    have qf : raw &&& 3 = 1 := by rw [raw_low raw _ 3 hraw 2 (by omega) rfl]; omega
    obtain ⟨a1, a2⟩ := align_dvd l.io k
    rw [List.length_cons, assignBarsFrom.eq_def] at hrun
    have hk0 : (2 : Nat) ^ k ≠ 0 := by omega
    simp only [hinf, hk0, if_false, q1, qf, ne_eq, not_false_eq_true, if_true] at hrun
    generalize align l.io (2 ^ k - 1) = a at *
    rw [fl_or_align 1 a k a1 (by omega)] at hrun
    unfold writeDword at hrun
    by_cases hlt : a + 1 < 2 ^ 32
    · simp only [hlt, if_true] at hrun
      rw [P.write _ _ _ (by omega), hs, writeBar_mid _ _ _ _ _ _ hpi] at hrun
      have hbm : byteMaskUpdate r.val 0xf (a + 1) (some r.mask) = byteMaskUpdate r.val 0xf a (some r.mask) := by
        rw [hm]; exact bmu_flags _ _ _ _ (by omega) f3 a1 (by omega) hlt
      rw [hbm] at hrun
      have hreb := IsIo.rebase hr a a1 (by omega)
      generalize hr' : ({ r with val := byteMaskUpdate r.val 0xf a (some r.mask) } : BarReg) = r' at *
      obtain ⟨rs', bs, e, hp⟩ := ih (pre ++ [r']) (put s (pre ++ r' :: rs)) _ _ (by rw [P.get_put]; simp) (by simp [hpi])
        (by omega)
        (hk.tail1 hl (fun _ h => List.mem_cons_of_mem _ h) (fun j hj h v hv => by
          rcases List.mem_cons.1 hv with rfl | hv
          · exact ⟨by simp only; omega, by simp⟩
          · exact h v hv) (fun j hj => setAddr_info _ _ _ _ _ _ (by omega))) hrun
      obtain ⟨bs', hA⟩ := Assigned.single_cons (i := i) (r := r) (r' := r') (d := d) (l := l) ⟨i, true, false, base, k⟩ a rfl rfl hl
        (fun ws h => .io _ _ _ _ _ _ hreb h) (by simp) a2
        (by simp [DevBars.setAddr]) (fun j hj => by simp only [DevBars.setAddr]; rw [if_neg (by omega)]) (by exact ⟨rfl, rfl⟩) hp
      exact ⟨r' :: rs', bs', by rw [e, P.put_put]; simp, hA⟩
    · simp only [hlt, if_false] at hrun; cases hrun
  | mem64 i lo hi rs ws base k hr hl ih =>
    simp only [List.length_cons] at hc
    have hidx := layout_idx _ _ _ hl
    obtain ⟨fl, f1, f2, f3, f3', f4, -, -⟩ := IsMem64.ones hr
    obtain ⟨h4, h64, hal, hb, hv, hvh, hm, hmh⟩ := id hr
    have h16 := mod16_of_align base k h4 hal
    have hpw := pow_ge k 4 h4
    obtain ⟨raw, hinf, hraw⟩ := hk.info ⟨i, false, true, base, k⟩ (by simp)
    simp only [Nat.sub_self, List.getD_cons_zero] at hinf hraw
    have q1 : raw &&& 1 = 0 := by rw [raw_low raw _ 1 hraw 1 (by omega) rfl]; omega
    have q4 : raw &&& 4 ≠ 0 := by rw [and_b2]; omega
    have qf : raw &&& 0xf = fl := by rw [raw_low raw _ 0xf hraw 4 (by omega) rfl]; omega
    have q8 : (raw &&& 8 ≠ 0) ↔ lo.val.testBit 3 = true := by
      rw [and_8_ne, testBit3_mod raw, testBit3_mod lo.val, ← hraw, mod_pow_mod _ _ _ (by omega)]
    rw [List.length_cons, List.length_cons, assignBarsFrom.eq_def] at hrun
    have hk0 : (2 : Nat) ^ k ≠ 0 := by omega
    simp only [hinf, hk0, if_false, q1, qf, q4, q8, ne_eq, not_true_eq_false, not_false_eq_true, if_true] at hrun
    -- the address and the pool
    obtain ⟨pool, hpool⟩ : ∃ p : Pool, p = if lo.val.testBit 3 then .pref else .mem := ⟨_, rfl⟩
    have ea : (if lo.val.testBit 3 = true then align l.pref (2 ^ k - 1) else align l.mem (2 ^ k - 1)) =
        align (lim l pool) (2 ^ k - 1) := by rw [hpool]; split <;> rfl
    have el : ∀ v, (if lo.val.testBit 3 = true then { l with pref := v } else { l with mem := v } : Limits) =
        l.setTo pool v := by intro v; rw [hpool]; split <;> rfl
    rw [ea, el] at hrun
    obtain ⟨a1, a2⟩ := align_dvd (lim l pool) k
    generalize align (lim l pool) (2 ^ k - 1) = a at *
    rw [fl_or_align fl a k a1 (by omega)] at hrun
    have e1 : (a + fl) &&& 0xffffffff = (a + fl) % 2 ^ 32 := Nat.and_two_pow_sub_one_eq_mod _ 32
    have e2 : (a + fl) >>> 32 &&& 0xffffffff = (a + fl) / 2 ^ 32 % 2 ^ 32 := by
      rw [Nat.shiftRight_eq_div_pow]; exact Nat.and_two_pow_sub_one_eq_mod _ 32
    rw [e1, e2, P.write _ i _ (by omega), hs, writeBar_mid _ _ _ _ _ _ hpi, P.write _ _ _ (by omega), P.get_put, P.put_put] at hrun
    generalize hlo' : ({ lo with val := byteMaskUpdate lo.val 0xf ((a + fl) % 2 ^ 32) (some lo.mask) } : BarReg) = lo' at *
    rw [show pre ++ lo' :: hi :: rs = (pre ++ [lo']) ++ hi :: rs by simp, writeBar_mid _ _ _ _ _ _ (by simp [hpi])] at hrun
    generalize hhi' : ({ hi with val := byteMaskUpdate hi.val 0xf ((a + fl) / 2 ^ 32 % 2 ^ 32) (some hi.mask) } : BarReg) = hi' at *
    obtain ⟨rs', bs, e, hp⟩ := ih (pre ++ [lo'] ++ [hi']) (put s (pre ++ [lo'] ++ hi' :: rs)) _ _
      (by rw [P.get_put]; simp) (by simp [hpi]) (by omega)
      (hk.tail2 hl (fun _ h => List.mem_cons_of_mem _ h) (fun j hj h v hv => by
        rcases List.mem_cons.1 hv with rfl | hv
        · exact ⟨by simp only; omega, by simp only; intro; omega⟩
        · exact h v hv) (fun j hj => setAddr64_info _ _ _ _ _ _ (by omega))) hrun
    have hle := hp.seq.le.lim pool
    rw [lim_setTo, if_pos rfl] at hle
    have hl64 : lim l' pool ≤ 2 ^ 64 := by rw [hpool]; split; exact hlim.2; exact hlim.1
    have hafl : a + fl < 2 ^ 64 := by omega
    have hmod16 := mod16_of_align a k h4 a1
    have hreb := IsMem64.rebase hr a a1 (by omega)
    have elo : (a + fl) % 2 ^ 32 = a % 2 ^ 32 + fl := by omega
    have ehi : (a + fl) / 2 ^ 32 % 2 ^ 32 = a / 2 ^ 32 := by omega
    obtain ⟨s1, s2⟩ := top_split k h64
    have hlov : byteMaskUpdate lo.val 0xf ((a + fl) % 2 ^ 32) (some lo.mask) =
        byteMaskUpdate lo.val 0xf (a % 2 ^ 32) (some lo.mask) := by
      by_cases hk32 : k < 32
      · rw [hm, (s1 hk32).1, elo]
        exact bmu_flags _ _ _ _ (by omega) f3 (by rw [mod_pow_mod _ _ _ (by omega)]; exact a1) (by omega) (by omega)
      · rw [hm, (s2 (by omega)).1, byteMaskUpdate_none, byteMaskUpdate_none]
    rw [← hlov, ← ehi, hlo', hhi'] at hreb
    have hbit : lo'.val.testBit 3 = lo.val.testBit 3 := by
      rw [← hlo']
      simp only
      rw [testBit3_mod, bmu_low, ← testBit3_mod]
      rw [hm]
      have : ∀ k < 64, 4 ≤ k → (2 ^ 64 - 2 ^ k) % 2 ^ 32 % 2 ^ 4 = 0 := by decide +kernel
      exact this k h64 h4
    obtain ⟨bs', hA⟩ := Assigned.wide_cons (i := i) (lo := lo) (hi := hi) (lo' := lo') (hi' := hi') (d := d) (l := l)
      ⟨i, false, true, base, k⟩ a rfl rfl rfl hl
      (fun ws h => .mem64 _ _ _ _ _ _ _ hreb h) hbit (by rw [← hpool]; exact a2)
      (by simp [DevBars.setAddr64]) (fun j hj => by simp only [DevBars.setAddr64]; rw [if_neg (by omega)]) (by exact ⟨rfl, rfl⟩)
      (hpool ▸ hp)
    exact ⟨lo' :: hi' :: rs', bs', by rw [e, P.put_put]; simp, hA⟩

end Pcie
