import Verif.Lemmas.MsiFlags
/-
C36: interrupts reach the handlers of the requested vector.
-/
namespace Pcie
open Spec

/-- MSI: after any sequence of calls, if a function has MSI enabled, an interrupt with a number below its number of messages
starts exactly the handlers that were registered for this number and this function, in order.
Hypotheses: vectors are allocated in multiples of 32 (MSI itself always allocates 32, so this concerns MSI-X tables and
direct calls), no more than 2^16 (the message data has 16 bits), and the function requests at most 32 messages.
Missing (and false, see below): allocations of any number of vectors. -/
theorem C36_msi_partial {s0 s : IrqSys} (h0 : NewSys s0) {ops : List IrqOp} (hr : ops.foldlM IrqSys.run s0 = .ok s)
    (hb : Blocks32 s0 ops) (hlim : s.region.limit ≤ 2 ^ 16) {f : Nat} {c : MsiCap} (hc : (s.fns f).msi = some c) (he : c.enable = true)
    (hm : c.mmc ≤ 5) {n : Nat} (hn : n < 2 ^ c.mmc) : s.msi f n = .ok (handlers ops f n) := by
  have hi := run_all ops [] (sysInv_new h0) hr
  have ha := al_all ops [] (sysInv_new h0) (al_new h0 hb.2) hr hb.1
  rw [List.nil_append] at hi
  obtain ⟨v, rest, hv, hp⟩ := ((hi.fns f).msi c hc).2 he
  obtain ⟨a1, a2⟩ := ha.vecs f v rest hv
  have hmme : c.mme = c.mmc := by
    rw [hp.mme, show (7 : Nat) = 2 ^ 3 - 1 from rfl, Nat.and_two_pow_sub_one_eq_mod]; omega
  have h32 : 2 ^ c.mmc ≤ 2 ^ 5 := Nat.pow_le_pow_right (by omega) hm
  have hn32 : n < (s.fns f).vecs.length := by
    have : (2 : Nat) ^ 5 = 32 := rfl
    omega
  obtain ⟨w, hw⟩ : ∃ w, (s.fns f).vecs[n]? = some w := ⟨_, List.getElem?_eq_getElem hn32⟩
  obtain ⟨b, hvb⟩ := hi.vecs f
  have h1 := hvb 0 v (by rw [hv]; rfl)
  have h2 := hvb n w hw
  have hdl : ∀ x i, s.region.vectors x = some i → x < 2 ^ 16 := fun x i hx => by have := (hi.dict x i hx).1; omega
  have hvd := hdl _ _ h1.2.2
  have hwd := hdl _ _ h2.2.2
  have hdata : (if c.extCap = true ∧ c.extEnable = true then c.data else c.data &&& 0xffff) = v.data := by
    rw [show (0xffff : Nat) = 2 ^ 16 - 1 from rfl, Nat.and_two_pow_sub_one_eq_mod, hp.data]
    cases hx : c.extCap
    · simp; omega
    · simp [hp.ext hx]
  have hdiv : v.data % 2 ^ c.mmc = 0 := by
    have : (2 : Nat) ^ c.mmc ∣ 32 := ⟨2 ^ (5 - c.mmc), by rw [← Nat.pow_add, show c.mmc + (5 - c.mmc) = 5 by omega]⟩
    exact Nat.mod_eq_zero_of_dvd (Nat.dvd_trans this (Nat.dvd_of_mod_eq_zero a1))
  have hor : andNot v.data (2 ^ c.mmc - 1) ||| n = w.data := by rw [or_low hdiv hn]; omega
  have hissue : c.issue n = .ok (s.region.base, w.data) := by
    simp only [MsiCap.issue, he, hmme, Nat.min_self, hdata, hor]
    rw [if_neg (by simp), if_neg (by omega), if_neg (by omega), hp.addr, h1.1]
  simp only [IrqSys.msi, hc, hissue, ok_bind]
  exact deliver_ok hi hw

/-- MSI: a number that is out of range, or a function with MSI disabled, sends nothing. -/
theorem C36_msi_rejected (c : MsiCap) (n : Nat) (h : c.enable = false ∨ 2 ^ c.mmc ≤ n) : ∃ e, c.issue n = .error e := by
  simp only [MsiCap.issue]
  split
  · exact ⟨_, rfl⟩
  · rename_i he
    rw [if_pos]
    · exact ⟨_, rfl⟩
    · rcases h with h | h
      · rw [h] at he; simp at he
      · exact Nat.le_trans (Nat.pow_le_pow_right (by omega) (Nat.min_le_right _ _)) h

/-- MSI-X: after any sequence of calls whatsoever, if a function has MSI-X enabled, the interrupt that an entry of its table
describes starts exactly the handlers that were registered for this entry and this function, in order (as long as less than
2^32 vectors have been allocated). -/
theorem C36_msix {s0 s : IrqSys} (h0 : NewSys s0) {ops : List IrqOp} (hr : ops.foldlM IrqSys.run s0 = .ok s)
    (hlim : s.region.limit ≤ 2 ^ 32) {f : Nat} {c : MsixCap} (hc : (s.fns f).msix = some c) (he : c.enable = true)
    {n : Nat} (hn : n ≤ c.tableSize % 2048) : s.msix f n = .ok (handlers ops f n) := by
  have hi := run_all ops [] (sysInv_new h0) hr
  rw [List.nil_append] at hi
  obtain ⟨w, hw, e1, e2, e3, _⟩ := (hi.fns f).msix c hc he n (by omega)
  obtain ⟨b, hvb⟩ := hi.vecs f
  have h2 := hvb n w hw
  have hwd : w.data < 2 ^ 32 := by have := (hi.dict _ _ h2.2.2).1; omega
  have ha : w.addr &&& 0xfffffffc ||| (w.addr >>> 32 &&& 0xffffffff) <<< 32 = s.region.base := by
    rw [h2.1, hi.base]; decide
  have hd : w.data &&& 0xffffffff = w.data := by
    rw [show (0xffffffff : Nat) = 2 ^ 32 - 1 from rfl, Nat.and_two_pow_sub_one_eq_mod, Nat.mod_eq_of_lt hwd]
  have hissue : c.issue s.region.base w.data = .ok (s.region.base, w.data) := by
    simp only [MsixCap.issue, he]
    rw [if_neg (by simp), if_neg (by omega)]
  simp only [IrqSys.msix, hc, e1, e2, e3, ha, hd, hissue, ok_bind]
  exact deliver_ok hi hw

/-- MSI-X: after any sequence of calls, if a function has MSI-X enabled, no entry of its table is masked: the vector control dword is 0. -/
theorem C36_unmasked {s0 s : IrqSys} (h0 : NewSys s0) {ops : List IrqOp} (hr : ops.foldlM IrqSys.run s0 = .ok s) {f : Nat} {c : MsixCap}
    (hc : (s.fns f).msix = some c) (he : c.enable = true) {n : Nat} (hn : n ≤ c.tableSize % 2048) :
    (s.fns f).mem (c.tableBir &&& 7) ((c.tableOffset &&& 0xfffffff8) + n * 16 + 12) = 0 := by
  have hi := run_all ops [] (sysInv_new h0) hr
  obtain ⟨_, _, _, _, _, h⟩ := (hi.fns f).msix c hc he n (by omega)
  exact h

/-- After any sequence of calls, no function has both MSI and MSI-X enabled. -/
theorem C36_exclusive {s0 s : IrqSys} (h0 : NewSys s0) {ops : List IrqOp} (hr : ops.foldlM IrqSys.run s0 = .ok s) {f : Nat} {c : MsiCap} {x : MsixCap}
    (hc : (s.fns f).msi = some c) (hx : (s.fns f).msix = some x) : ¬ (c.enable = true ∧ x.enable = true) := by
  have h := all_flags ops (new_flags h0) hr f
  have h1 := h.msi
  have h2 := h.msix
  rw [hc] at h1
  rw [hx] at h2
  rintro ⟨e1, e2⟩
  exact h.one ⟨h1.trans e1, h2.trans e2⟩

/-- After `free_irq_vectors`, a function sends no interrupts, whatever was done before. -/
theorem C36_freed {s0 s : IrqSys} (h0 : NewSys s0) {ops : List IrqOp} {f : Nat} (hr : (ops ++ [IrqOp.freeIrq f]).foldlM IrqSys.run s0 = .ok s) (n : Nat) :
    (∃ e, s.msi f n = .error e) ∧ ∃ e, s.msix f n = .error e := by
  rw [List.foldlM_append] at hr
  cases h1 : ops.foldlM IrqSys.run s0 with
  | error e => rw [h1, error_bind] at hr; cases hr
  | ok s1 =>
    rw [h1, ok_bind] at hr
    have h := all_flags ops (new_flags h0) h1 f
    have hs : s.fns f = (s1.fns f).disableMsi.disableMsix := by
      simp only [List.foldlM_cons, List.foldlM_nil, IrqSys.run] at hr
      cases hr
      simp only [IrqSys.setFn, if_true]
    obtain ⟨a1, a2, _⟩ := disableMsi_flags h
    obtain ⟨b1, b2, b3⟩ := disableMsix_flags a1
    rw [← hs] at b1 b2 b3
    rw [a2] at b3
    constructor
    · unfold IrqSys.msi
      have := b1.msi
      cases hc : (s.fns f).msi with
      | none => exact ⟨_, rfl⟩
      | some c =>
        rw [hc, b3] at this
        simp only [MsiCap.issue, ← this]
        exact ⟨_, rfl⟩
    · unfold IrqSys.msix
      have := b1.msix
      cases hc : (s.fns f).msix with
      | none => exact ⟨_, rfl⟩
      | some c =>
        rw [hc, b2] at this
        simp only [MsixCap.issue, ← this]
        exact ⟨_, rfl⟩

/-- `alloc_irq_vectors` for a function that has no interrupts enabled: MSI-X is enabled if its table is large enough, else MSI if it has enough messages; in both cases not the other. -/
theorem C36_alloc {s0 s s' : IrqSys} (h0 : NewSys s0) {ops : List IrqOp} (hr : ops.foldlM IrqSys.run s0 = .ok s) {f lo hi : Nat} (hlo : lo ≤ hi) (hhi : 0 < hi)
    (hm : ∀ c, (s.fns f).msi = some c → c.enable = false) (hx : ∀ c, (s.fns f).msix = some c → c.enable = false) (h : s.run (.allocIrq f lo hi) = .ok s') :
    ((∃ c, (s.fns f).msix = some c ∧ lo ≤ c.tableSize % 2048 + 1) → ∃ c, (s'.fns f).msix = some c ∧ c.enable = true) ∧
    ((∀ c, (s.fns f).msix = some c → c.tableSize % 2048 + 1 < lo) → (∃ c, (s.fns f).msi = some c ∧ c.mmc < 8 ∧ lo ≤ 2 ^ c.mmc) → ∃ c, (s'.fns f).msi = some c ∧ c.enable = true) := by
  have hf := all_flags ops (new_flags h0) hr f
  have m0 : (s.fns f).msiEnabled = false := by
    rw [hf.msi]; cases hc : (s.fns f).msi with
    | none => rfl
    | some c => exact hm c hc
  have x0 : (s.fns f).msixEnabled = false := by
    rw [hf.msix]; cases hc : (s.fns f).msix with
    | none => rfl
    | some c => exact hx c hc
  simp only [IrqSys.run] at h
  cases h1 : (s.fns f).allocIrq s.region lo hi with
  | error e => rw [h1, error_bind] at h; cases h
  | ok p =>
    rw [h1, ok_bind] at h
    cases h
    obtain ⟨a1, a2, a3⟩ := allocIrq_flags hf h1
    simp only [IrqSys.setFn, if_true]
    constructor
    · rintro ⟨c, c1, c2⟩
      have := a2 ⟨c, c1, m0, hlo, hhi, c2⟩
      rw [a1.msix] at this
      cases hc : p.2.msix with
      | none => rw [hc] at this; cases this
      | some c => rw [hc] at this; exact ⟨c, rfl, this⟩
    · rintro hs ⟨c, c1, c2, c3⟩
      have e7 : c.mmc &&& 7 = c.mmc := by
        rw [show (7 : Nat) = 2 ^ 3 - 1 from rfl, Nat.and_two_pow_sub_one_eq_mod]; omega
      have := a3 (by cases hc : (s.fns f).msix with
        | none => exact .inl rfl
        | some x => exact .inr ⟨x, rfl, hs x hc⟩) ⟨c, c1, x0, hlo, by rw [e7]; exact c3⟩
      rw [a1.msi] at this
      cases hc : p.2.msi with
      | none => rw [hc] at this; cases this
      | some c => rw [hc] at this; exact ⟨c, rfl, this⟩

/-- Function 0 has MSI-X with 5 vectors, function 1 has MSI with 32 messages, function 2 MSI-X with 64 vectors, function 3 MSI
with 4 messages and a 64 bit address. -/
def exIrq : IrqSys := { fns := fun
  | 0 => { msix := some { tableSize := 4 } }
  | 1 => { msi := some { mmc := 5 } }
  | 2 => { msix := some { tableSize := 63, tableBir := 2, tableOffset := 0x1000 } }
  | 3 => { msi := some { mmc := 2, cap64 := true } }
  | _ => {} }

theorem exIrq_new : NewSys exIrq := by
  refine ⟨rfl, rfl, ?_, ?_, ?_⟩
  · intro f; simp only [exIrq]; split <;> exact ⟨rfl, rfl, rfl⟩
  · intro f c; simp only [exIrq]; split <;> intro h <;> cases h <;> exact ⟨rfl, rfl, rfl⟩
  · intro f c; simp only [exIrq]; split <;> intro h <;> cases h <;> rfl

/-- The claim fails without the hypothesis on allocations: after a function has been given 5 MSI-X vectors, the vectors of the
next function start at 10, which is not a multiple of 32. Its interrupt 0 then starts the handler of the other function. -/
theorem C36_violated : ∃ s0 s ops, NewSys s0 ∧ ops = [.enableMsix 0 1 5, .enableMsi 1 1 32, .request 0 0 100, .request 1 0 200] ∧
    ops.foldlM IrqSys.run s0 = .ok s ∧ handlers ops 1 0 = [200] ∧ (s.msi 1 0).toOption = some [100] := by
  cases hr : [IrqOp.enableMsix 0 1 5, .enableMsi 1 1 32, .request 0 0 100, .request 1 0 200].foldlM IrqSys.run exIrq with
  | error e =>
    have : ([IrqOp.enableMsix 0 1 5, .enableMsi 1 1 32, .request 0 0 100, .request 1 0 200].foldlM IrqSys.run exIrq).toBool = true := by
      decide +kernel
    rw [hr] at this; cases this
  | ok s =>
    refine ⟨exIrq, s, _, exIrq_new, rfl, hr, by decide, ?_⟩
    have : (do let s ← [IrqOp.enableMsix 0 1 5, .enableMsi 1 1 32, .request 0 0 100, .request 1 0 200].foldlM IrqSys.run exIrq
               s.msi 1 0 : Py (List Nat)).toOption = some [100] := by decide +kernel
    rw [hr] at this
    exact this

/-- The hypotheses of the theorems can be met: both MSI functions and the MSI-X function with 64 vectors are enabled, and the
interrupts arrive. -/
example : (do
    let s ← [IrqOp.enableMsi 1 1 32, .enableMsix 2 1 64, .allocIrq 3 1 4, .request 1 7 10, .request 3 3 11, .request 3 3 12,
      .request 2 63 13].foldlM IrqSys.run exIrq
    return ([(s.fns 1).msi.map (·.enable), (s.fns 3).msi.map (·.enable), (s.fns 2).msix.map (·.enable)], s.region.limit,
      [← s.msi 1 7, ← s.msi 3 3, ← s.msix 2 63]) : Py (List (Option Bool) × Nat × List (List Nat))).toOption =
    some ([some true, some true, some true], 128, [[10], [11, 12], [13]]) := by decide +kernel

/-- `alloc_irq_vectors` enables MSI-X for function 2 and MSI for function 3; after `free_irq_vectors`, there are no interrupts. -/
example : (do
    let s ← [IrqOp.allocIrq 2 1 64, .allocIrq 3 1 4, .freeIrq 2].foldlM IrqSys.run exIrq
    return ((s.fns 2).msix.map (·.enable), (s.fns 3).msi.map (·.enable), (s.msix 2 0).toBool) : Py (Option Bool × Option Bool × Bool)).toOption =
    some (some false, some true, false) := by decide +kernel

example : Blocks32 { exIrq with fns := fun k => if k = 0 then {} else exIrq.fns k }
    [.enableMsi 1 1 32, .enableMsix 2 1 64, .alloc 64, .allocIrq 3 1 4, .request 1 7 10] := by
  refine ⟨by simp, fun f c => ?_⟩
  simp only
  split
  · intro h; cases h
  · simp only [exIrq]; split <;> intro h <;> cases h <;> first | rfl | contradiction

end Pcie
