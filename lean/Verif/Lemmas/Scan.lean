/- Lemmas for the bus scan: routing in a hierarchy with a hole, probing of one bus. -/
import Verif.Spec.Scan
import Verif.Lemmas.EnumBridge
namespace Pcie
open Spec
variable {σ : Type}

namespace Phys

/-- Concatenation of the functions of two buses. -/
def app : Phys σ → Phys σ → Phys σ
  | nil, b => b
  | ep d fn f rest, b => ep d fn f (rest.app b)
  | br d fn dsp f child rest, b => br d fn dsp f child (rest.app b)

theorem app_nil (a : Phys σ) : a.app nil = a := by
  induction a with
  | nil => rfl
  | ep d fn f rest ih => simp [app, ih]
  | br d fn dsp f child rest _ ih => simp [app, ih]

theorem app_assoc (a b c : Phys σ) : (a.app b).app c = a.app (b.app c) := by
  induction a with
  | nil => rfl
  | ep d fn f rest ih => simp [app, ih]
  | br d fn dsp f child rest _ ih => simp [app, ih]

theorem at_app (a b : Phys σ) (t0 : Bool) (id : PcieId) : (a.app b).at_ t0 id = a.at_ t0 id ++ b.at_ t0 id := by
  induction a with
  | nil => rfl
  | ep d fn f rest ih => simp [app, at_, ih]
  | br d fn dsp f child rest _ ih => simp [app, at_, ih]

theorem write_app (ops : CapOps σ) (reg v : Nat) (a b : Phys σ) (t0 : Bool) (id : PcieId) :
    (a.app b).write ops reg v t0 id = (a.write ops reg v t0 id).app (b.write ops reg v t0 id) := by
  induction a with
  | nil => rfl
  | ep d fn f rest ih => simp [app, write, ih]
  | br d fn dsp f child rest _ ih => simp [app, write, ih]

theorem top_app (a b : Phys σ) : top (a.app b) = top a ++ top b := by
  induction a with
  | nil => rfl
  | ep d fn f rest ih => simp [app, top, ih]
  | br d fn dsp f child rest _ ih => simp [app, top, ih]

theorem brsOf_app (a b : Phys σ) : brsOf (a.app b) = brsOf a ++ brsOf b := by
  induction a with
  | nil => rfl
  | ep d fn f rest ih => simp [app, brsOf, ih]
  | br d fn dsp f child rest _ ih => simp [app, brsOf, ih]

/-- All bridges on the bus have only buses below `n` behind them. -/
def Below (n : Nat) (b : Phys σ) : Prop := ∀ p ∈ brsOf b, p.1.subBus < n

theorem at_below {n : Nat} {b : Phys σ} (h : Below n b) (id : PcieId) (hn : n ≤ id.bus) : b.at_ false id = [] := by
  induction b with
  | nil => rfl
  | ep d fn f rest ih => simpa [at_] using ih (fun p hp => h p hp)
  | br d fn dsp f child rest _ ih =>
    have h0 := h (f, child) (by simp [brsOf])
    have h1 : behind f id = false := by simp [behind]; intro _ h2; simp at h0; omega
    simpa [at_, h1] using ih (fun p hp => h p (by simp [brsOf, hp]))

theorem takers_app (a b : Phys σ) (t0 : Bool) (id : PcieId) : (a.app b).takers t0 id = a.takers t0 id + b.takers t0 id := by
  induction a with
  | nil => simp [app, takers]
  | ep d fn f rest ih => simp only [app, takers, ih]; omega
  | br d fn dsp f child rest _ ih => simp only [app, takers, ih]; omega

theorem takers_below {n : Nat} {b : Phys σ} (h : Below n b) (id : PcieId) (hn : n ≤ id.bus) : b.takers false id = 0 := by
  induction b with
  | nil => rfl
  | ep d fn f rest ih => simpa [takers] using ih (fun p hp => h p hp)
  | br d fn dsp f child rest _ ih =>
    have h0 := h (f, child) (by simp [brsOf])
    have h1 : behind f id = false := by simp [behind]; intro _ h2; simp at h0; omega
    simpa [takers, h1] using ih (fun p hp => h p (by simp [brsOf, hp]))

theorem clear_below {n : Nat} {b : Phys σ} (h : Below n b) (id : PcieId) (hn : n ≤ id.bus) : b.clear false id = true := by
  induction b with
  | nil => rfl
  | ep d fn f rest ih => simpa [clear] using ih (fun p hp => h p hp)
  | br d fn dsp f child rest _ ih =>
    have h0 := h (f, child) (by simp [brsOf])
    have h1 : behind f id = false := by simp [behind]; intro _ h2; simp at h0; omega
    simpa [clear, h1] using ih (fun p hp => h p (by simp [brsOf, hp]))

/-- Functions that do not take the request, before others. -/
theorem clear_app {n : Nat} {a b : Phys σ} (h : Below n a) (id : PcieId) (hn : n ≤ id.bus) : (a.app b).clear false id = b.clear false id := by
  induction a with
  | nil => rfl
  | ep d fn f rest ih => simpa [app, clear] using ih (fun p hp => h p hp)
  | br d fn dsp f child rest _ ih =>
    have h0 := h (f, child) (by simp [brsOf])
    have h1 : behind f id = false := by simp [behind]; intro _ h2; simp at h0; omega
    simpa [app, clear, h1] using ih (fun p hp => h p (by simp [brsOf, hp]))

theorem write_below (ops : CapOps σ) (reg v : Nat) {n : Nat} {b : Phys σ} (h : Below n b) (id : PcieId) (hn : n ≤ id.bus) :
    b.write ops reg v false id = b := by
  induction b with
  | nil => rfl
  | ep d fn f rest ih => simpa [write] using ih (fun p hp => h p hp)
  | br d fn dsp f child rest _ ih =>
    have h0 := h (f, child) (by simp [brsOf])
    have h1 : behind f id = false := by simp [behind]; intro _ h2; simp at h0; omega
    simpa [write, h1] using ih (fun p hp => h p (by simp [brsOf, hp]))

end Phys
open Phys

/-- A bridge on the way to the bus in question, with the functions before and after it. -/
structure Frame (σ : Type) where
  L : Phys σ
  dev : Nat
  fn : Nat
  dsp : Bool
  f : Br σ
  R : Phys σ

/-- The hierarchy around a bus. -/
def plug : List (Frame σ) → Phys σ → Phys σ
  | [], b => b
  | fr :: C, b => plug C (fr.L.app (.br fr.dev fr.fn fr.dsp fr.f b fr.R))

/-- The state of the hierarchy around bus `n` while bus `n` is being scanned. -/
def CtxOk : List (Frame σ) → Nat → Prop
  | [], n => n = 0
  | fr :: C, n => ∃ p, CtxOk C p ∧ p < n ∧ fr.f.secBus = n ∧ fr.f.subBus = 255 ∧ Below n fr.L ∧ Below n fr.R

theorem plug_at {C : List (Frame σ)} {n : Nat} (h : CtxOk C n) (b : Phys σ) (id : PcieId) (hn : n ≤ id.bus)
    (h255 : id.bus ≤ 255) : (plug C b).at_ (id.bus = 0) id = b.at_ (id.bus = n) id := by
  induction C generalizing n b with
  | nil => subst h; rfl
  | cons fr C ih =>
    obtain ⟨p, hC, hp, hs, hu, hL, hR⟩ := h
    rw [plug, ih hC _ (by omega), at_app]
    have h1 : decide (id.bus = p) = false := by simp; omega
    have h2 : behind fr.f id = true := by
      simp [behind, hs, hu, hn, h255]
      intro h; rw [h] at hn; simp at hn; omega
    rw [h1, at_below hL id hn]
    simp [at_, h2, at_below hR id hn, hs]

theorem plug_clear {C : List (Frame σ)} {n : Nat} (h : CtxOk C n) (b : Phys σ) (id : PcieId) (hn : n ≤ id.bus)
    (h255 : id.bus ≤ 255) : (plug C b).clear (id.bus = 0) id = b.clear (id.bus = n) id := by
  induction C generalizing n b with
  | nil => subst h; rfl
  | cons fr C ih =>
    obtain ⟨p, hC, hp, hs, hu, hL, hR⟩ := h
    rw [plug, ih hC _ (by omega)]
    have h1 : decide (id.bus = p) = false := by simp; omega
    have h2 : behind fr.f id = true := by
      simp [behind, hs, hu, hn, h255]
      intro h; rw [h] at hn; simp at hn; omega
    rw [h1, clear_app hL id hn]
    simp [clear, h2, takers_below hR id hn, clear_below hR id hn, hs]

theorem plug_write (ops : CapOps σ) (reg v : Nat) {C : List (Frame σ)} {n : Nat} (h : CtxOk C n) (b : Phys σ) (id : PcieId)
    (hn : n ≤ id.bus) (h255 : id.bus ≤ 255) :
    (plug C b).write ops reg v (id.bus = 0) id = plug C (b.write ops reg v (id.bus = n) id) := by
  induction C generalizing n b with
  | nil => subst h; rfl
  | cons fr C ih =>
    obtain ⟨p, hC, hp, hs, hu, hL, hR⟩ := h
    rw [plug, ih hC _ (by omega), write_app]
    have h1 : decide (id.bus = p) = false := by simp; omega
    have h2 : behind fr.f id = true := by
      simp [behind, hs, hu, hn, h255]
      intro h; rw [h] at hn; simp at hn; omega
    rw [h1, write_below ops reg v hL id hn]
    simp [write, h2, write_below ops reg v hR id hn, hs, plug]

/-! ### One bus -/

theorem at_true (b : Phys σ) (id : PcieId) :
    b.at_ true id = ((top b).filter fun e => e.1 = id.device ∧ e.2.1 = id.function).map (·.2.2) := by
  induction b with
  | nil => rfl
  | ep d fn f rest ih =>
    simp only [at_, top, List.filter_cons, ih]
    by_cases h : d = id.device ∧ fn = id.function <;> simp [h]
  | br d fn dsp f child rest _ ih =>
    simp only [at_, top, List.filter_cons, ih]
    by_cases h : d = id.device ∧ fn = id.function <;> simp [h]

theorem takers_true (b : Phys σ) (id : PcieId) :
    b.takers true id = ((top b).filter fun e => e.1 = id.device ∧ e.2.1 = id.function).length := by
  induction b with
  | nil => rfl
  | ep d fn f rest ih =>
    simp only [takers, top, List.filter_cons, ih]
    by_cases h : d = id.device ∧ fn = id.function <;> simp [h]; omega
  | br d fn dsp f child rest _ ih =>
    simp only [takers, top, List.filter_cons, ih]
    by_cases h : d = id.device ∧ fn = id.function <;> simp [h]; omega

theorem clear_true (b : Phys σ) (id : PcieId)
    (hl : ((top b).filter fun e => e.1 = id.device ∧ e.2.1 = id.function).length ≤ 1) : b.clear true id = true := by
  induction b with
  | nil => rfl
  | ep d fn f rest ih =>
    simp only [top, List.filter_cons] at hl
    by_cases h : d = id.device ∧ fn = id.function
    · rw [if_pos (by simpa using h), List.length_cons] at hl
      have h0 : rest.takers true id = 0 := by rw [takers_true]; omega
      simp [clear, h, ih (by omega), h0]
    · rw [if_neg (by simpa using h)] at hl
      have : (decide (d = id.device) && decide (fn = id.function)) = false := by
        rw [← Bool.decide_and]; exact decide_eq_false h
      simp [clear, ih hl, this]
  | br d fn dsp f child rest _ ih =>
    simp only [top, List.filter_cons] at hl
    by_cases h : d = id.device ∧ fn = id.function
    · rw [if_pos (by simpa using h), List.length_cons] at hl
      have h0 : rest.takers true id = 0 := by rw [takers_true]; omega
      simp [clear, h, ih (by omega), h0]
    · rw [if_neg (by simpa using h)] at hl
      have : (decide (d = id.device) && decide (fn = id.function)) = false := by
        rw [← Bool.decide_and]; exact decide_eq_false h
      simp [clear, ih hl, this]

/-- Numbers of different functions are different: only one answers. -/
theorem filter_key {es : List (Nat × Nat × Fn σ)} (h : es.Pairwise Before) {d f : Nat} {x : Fn σ} (hx : (d, f, x) ∈ es) :
    (es.filter fun e => e.1 = d ∧ e.2.1 = f) = [(d, f, x)] := by
  induction es with
  | nil => simp at hx
  | cons e es ih =>
    obtain ⟨he, hes⟩ := List.pairwise_cons.1 h
    rcases List.mem_cons.1 hx with hx | hx
    · subst hx
      have : (es.filter fun e => e.1 = d ∧ e.2.1 = f) = [] := by
        rw [List.filter_eq_nil_iff]; intro y hy
        have := he y hy; simp [Before] at this ⊢; omega
      simp only [Bool.decide_and] at this
      simp [List.filter_cons, this]
    · have h1 := he _ hx
      have h2 : ¬ (e.1 = d ∧ e.2.1 = f) := by simp [Before] at h1; omega
      rw [List.filter_cons, if_neg (by simpa using h2)]
      exact ih hes hx

theorem filter_none {es : List (Nat × Nat × Fn σ)} {d f : Nat} (h : ∀ x, (d, f, x) ∉ es) :
    (es.filter fun e => e.1 = d ∧ e.2.1 = f) = [] := by
  rw [List.filter_eq_nil_iff]
  rintro ⟨d', f', x⟩ he h'
  simp at h'
  exact h x (by rw [← h'.1, ← h'.2]; exact he)

/-- What the host records for a function. -/
def foundOf (n : Nat) (e : Nat × Nat × Fn σ) : PDev :=
  ⟨⟨n, e.1, e.2.1⟩, match e.2.2 with | .br _ _ => true | .ep _ => false, match e.2.2 with | .br dsp _ => dsp | .ep _ => false⟩

/-- Every configuration access to bus `n` gets to the bus with the functions `es`. -/
def Reach (t : Phys σ) (n : Nat) (es : List (Nat × Nat × Fn σ)) : Prop :=
  ∀ d f, t.at_ (n = 0) ⟨n, d, f⟩ = (es.filter fun e => e.1 = d ∧ e.2.1 = f).map (·.2.2) ∧
    ((es.filter fun e => e.1 = d ∧ e.2.1 = f).length ≤ 1 → t.clear (n = 0) ⟨n, d, f⟩ = true)

theorem reach_read (ops : CapOps σ) {t : Phys σ} {n : Nat} {es} (hr : Reach t n es) (hs : es.Pairwise Before) {d f : Nat}
    {x : Fn σ} (hx : (d, f, x) ∈ es) (reg : Nat) (hv : x.read ops reg < 2 ^ 32) :
    cfgRead ops t ⟨n, d, f⟩ reg = .ok (x.read ops reg) := by
  obtain ⟨h, hc⟩ := hr d f
  rw [filter_key hs hx] at h hc
  simp only [cfgRead, h, hc (Nat.le_refl _), if_true, List.map_cons, List.map_nil, hv]

theorem reach_none (ops : CapOps σ) {t : Phys σ} {n : Nat} {es} (hr : Reach t n es) {d f : Nat}
    (hx : ∀ x, (d, f, x) ∉ es) (reg : Nat) : cfgRead ops t ⟨n, d, f⟩ reg = .ok 0xffffffff := by
  obtain ⟨h, hc⟩ := hr d f
  rw [filter_none hx] at h hc
  simp only [cfgRead, h, hc (Nat.zero_le _), if_true, List.map_nil]

theorem reach_dsp {t : Phys σ} {n : Nat} {es} (hr : Reach t n es) (hs : es.Pairwise Before) {d f : Nat}
    {x : Fn σ} (hx : (d, f, x) ∈ es) : cfgDsp t ⟨n, d, f⟩ = (foundOf n (d, f, x)).dsp := by
  have h := (hr d f).1
  rw [filter_key hs hx] at h
  simp only [cfgDsp, h, List.map_cons, List.map_nil, foundOf]
  cases x <;> rfl

theorem read_id (ops : CapOps σ) (x : Fn σ) : x.read ops 0 = idDword x := by
  cases x <;> simp [Fn.read, Ep.read, Br.read, Common.read, idDword]

theorem read_id_lt (ops : CapOps σ) (x : Fn σ) : x.read ops 0 < 2 ^ 32 := by
  have h : ∀ a b : Nat, (a &&& 0xffff ||| (b &&& 0xffff) <<< 16) < 2 ^ 32 := by
    intro a b
    apply Nat.or_lt_two_pow
    · exact Nat.lt_of_le_of_lt Nat.and_le_right (by decide)
    · rw [Nat.shiftLeft_eq]
      have : b &&& 0xffff ≤ 0xffff := Nat.and_le_right
      omega
  rw [read_id]
  cases x <;> exact h _ _

theorem read_hdr_lt (ops : CapOps σ) (x : Fn σ) : x.read ops 3 < 2 ^ 32 := by
  have key : ∀ c : Common σ, c.read ops 3 < 2 ^ 32 := by
    intro c
    simp only [Common.read, show ¬ ((3 : Nat) = 0) by decide, show ¬ ((3 : Nat) = 1) by decide,
      show ¬ ((3 : Nat) = 2) by decide, if_false, if_true]
    have sh : ∀ a m k : Nat, (m + 1) * 2 ^ k ≤ 2 ^ 32 → (a &&& m) <<< k < 2 ^ 32 := by
      intro a m k h
      rw [Nat.shiftLeft_eq]
      have h1 : a &&& m < m + 1 := Nat.lt_succ_of_le Nat.and_le_right
      exact Nat.lt_of_lt_of_le (Nat.mul_lt_mul_of_pos_right h1 (Nat.two_pow_pos k)) h
    have sb : ∀ (b : Bool) (k : Nat), k < 32 → b.toNat <<< k < 2 ^ 32 := by
      intro b k h
      rw [Nat.shiftLeft_eq]
      have h1 : b.toNat ≤ 1 := Bool.toNat_le b
      have h2 : (2 : Nat) ^ k < 2 ^ 32 := Nat.pow_lt_pow_right (by decide) h
      calc b.toNat * 2 ^ k ≤ 1 * 2 ^ k := Nat.mul_le_mul_right _ h1
        _ < 2 ^ 32 := by omega
    refine Nat.or_lt_two_pow (Nat.or_lt_two_pow (Nat.or_lt_two_pow (Nat.or_lt_two_pow (Nat.or_lt_two_pow (Nat.or_lt_two_pow ?_ ?_) ?_) ?_) ?_) ?_) ?_
    · exact Nat.lt_of_le_of_lt Nat.and_le_right (by decide)
    · exact sh _ _ _ (by decide)
    · exact sh _ _ _ (by decide)
    · exact sb _ _ (by decide)
    · exact sh _ _ _ (by decide)
    · exact sb _ _ (by decide)
    · exact sb _ _ (by decide)
  cases x with
  | ep f => have hr : (Fn.ep f).read ops 3 = f.toCommon.read ops 3 := by simp [Fn.read, Ep.read]
            rw [hr]; exact key _
  | br dsp f => have hr : (Fn.br dsp f).read ops 3 = f.toCommon.read ops 3 := by simp [Fn.read, Br.read]
                rw [hr]; exact key _

theorem read_buses_lt (ops : CapOps σ) (dsp : Bool) (f : Br σ) : (Fn.br dsp f).read ops 6 < 2 ^ 32 := by
  have sh : ∀ a k : Nat, 256 * 2 ^ k ≤ 2 ^ 32 → (a &&& 0xff) <<< k < 2 ^ 32 := by
    intro a k h
    rw [Nat.shiftLeft_eq]
    have h1 : a &&& 0xff < 256 := Nat.lt_succ_of_le Nat.and_le_right
    exact Nat.lt_of_lt_of_le (Nat.mul_lt_mul_of_pos_right h1 (Nat.two_pow_pos k)) h
  simp only [Fn.read, Br.read, show ¬ ((6 : Nat) = 4) by decide, show ¬ ((6 : Nat) = 5) by decide, if_false, if_true]
  refine Nat.or_lt_two_pow (Nat.or_lt_two_pow (Nat.or_lt_two_pow ?_ (sh _ _ (by decide))) (sh _ _ (by decide))) (sh _ _ (by decide))
  exact Nat.lt_of_le_of_lt Nat.and_le_right (by decide)

theorem reg3_hdr (c l h m b s k : Nat) (m' : Bool) (hc : c < 2 ^ 8) (hl : l < 2 ^ 8) (hh : h < 2 ^ 7) (hm : m = m'.toNat) :
    (c ||| l <<< 8 ||| h <<< 16 ||| m <<< 23 ||| b <<< 24 ||| s <<< 30 ||| k <<< 31) >>> 16 &&& 0xff = h ||| m <<< 7 := by
  subst hm
  apply Nat.eq_of_testBit_eq
  intro i
  have e : (0xff : Nat) = 2 ^ 8 - 1 := rfl
  rw [Nat.testBit_and, Nat.testBit_shiftRight, e, Nat.testBit_two_pow_sub_one]
  simp only [Nat.testBit_or, Nat.testBit_shiftLeft]
  have h1 : c.testBit (16 + i) = false := Nat.testBit_lt_two_pow (Nat.lt_of_lt_of_le hc (Nat.pow_le_pow_right (by omega) (by omega)))
  have h2 : l.testBit (16 + i - 8) = false := Nat.testBit_lt_two_pow (Nat.lt_of_lt_of_le hl (Nat.pow_le_pow_right (by omega) (by omega)))
  have h3 : 16 + i - 16 = i := by omega
  have h4 : 16 + i - 23 = i - 7 := by omega
  rw [h1, h2, h3, h4]
  by_cases hi : i < 8
  · simp [hi, show ¬ (24 ≤ 16 + i) by omega, show ¬ (30 ≤ 16 + i) by omega, show ¬ (31 ≤ 16 + i) by omega]
    cases hb : decide (23 ≤ 16 + i) <;> cases hb' : decide (7 ≤ i) <;> simp at hb hb' <;> first | omega | simp
  · have h5 : h.testBit i = false := Nat.testBit_lt_two_pow (Nat.lt_of_lt_of_le hh (Nat.pow_le_pow_right (by omega) (by omega)))
    have h6 : m'.toNat.testBit (i - 7) = false := by
      apply Nat.testBit_lt_two_pow
      exact Nat.lt_of_lt_of_le (Bool.toNat_lt m') (by
        have := Nat.pow_le_pow_right (n := 2) (by omega) (show 1 ≤ i - 7 by omega); omega)
    simp [hi, h5, h6]

theorem hdr_split (h : Nat) (m : Bool) (hh : h < 2 ^ 7) :
    (h ||| m.toNat <<< 7) &&& 0x7f = h ∧ ((h ||| m.toNat <<< 7) &&& 0x80 = 0 ↔ m = false) := by
  have : ∀ h : Fin (2 ^ 7), ∀ m : Bool, (h.val ||| m.toNat <<< 7) &&& 0x7f = h.val ∧
      ((h.val ||| m.toNat <<< 7) &&& 0x80 = 0 ↔ m = false) := by decide +kernel
  exact this ⟨h, hh⟩ m

theorem read_hdr (ops : CapOps σ) (x : Fn σ) (hx : HeaderOk x) :
    (decide ((x.read ops 3 >>> 16 &&& 0xff) &&& 0x7f = 1 ∨ (x.read ops 3 >>> 16 &&& 0xff) &&& 0x7f = 2) = (foundOf 0 (0, 0, x)).bridge) ∧
    ((x.read ops 3 >>> 16 &&& 0xff) &&& 0x80 = 0 ↔ multi x = false) := by
  have e7 : (0x7f : Nat) = 2 ^ 7 - 1 := rfl
  have key : ∀ c : Common σ, ((c.read ops 3 >>> 16 &&& 0xff) &&& 0x7f = c.headerLayout % 128) ∧
      ((c.read ops 3 >>> 16 &&& 0xff) &&& 0x80 = 0 ↔ c.multifunction = false) := by
    intro c
    have a1 : c.cacheLine &&& 0xff < 2 ^ 8 := Nat.lt_of_le_of_lt Nat.and_le_right (by decide)
    have a2 : c.latency &&& 0xff < 2 ^ 8 := Nat.lt_of_le_of_lt Nat.and_le_right (by decide)
    have a3 : c.headerLayout &&& 0x7f < 2 ^ 7 := Nat.lt_of_le_of_lt Nat.and_le_right (by decide)
    have a4 : c.headerLayout &&& 0x7f = c.headerLayout % 128 := by
      rw [e7, Nat.and_two_pow_sub_one_eq_mod]
    have := hdr_split _ c.multifunction a3
    simp only [Common.read, show ¬ ((3 : Nat) = 0) by decide, show ¬ ((3 : Nat) = 1) by decide,
      show ¬ ((3 : Nat) = 2) by decide, if_false, if_true]
    rw [reg3_hdr _ _ _ _ _ _ _ c.multifunction a1 a2 a3 rfl, ← a4]
    exact this
  cases x with
  | ep f =>
    have := key f.toCommon
    have hr : (Fn.ep f).read ops 3 = f.toCommon.read ops 3 := by simp [Fn.read, Ep.read]
    rw [hr, this.1]
    refine ⟨?_, this.2⟩
    simp only [HeaderOk] at hx
    simp [foundOf, hx]
  | br dsp f =>
    have := key f.toCommon
    have hr : (Fn.br dsp f).read ops 3 = f.toCommon.read ops 3 := by simp [Fn.read, Br.read]
    rw [hr, this.1]
    refine ⟨?_, this.2⟩
    simp only [HeaderOk] at hx
    simp [foundOf, hx]

/-- The loop over function numbers from `k` on finds the functions of the device whose numbers are not below `k`. -/
theorem probeFns_spec (ops : CapOps σ) {t : Phys σ} {n : Nat} {es} (hr : Reach t n es) (hs : es.Pairwise Before)
    (hh : ∀ e ∈ es, HeaderOk e.2.2) (hp : ∀ e ∈ es, idDword e.2.2 ≠ 0xffffffff) (d : Nat)
    (hm : ∀ a ∈ es, ∀ b ∈ es, a.1 = b.1 → a.2.1 < b.2.1 → multi a.2.2 = true) :
    ∀ (m k : Nat) (G : List (Nat × Nat × Fn σ)), G.Pairwise Before → (∀ e ∈ G, e ∈ es ∧ e.1 = d ∧ k ≤ e.2.1 ∧ e.2.1 < k + m) →
      (∀ e ∈ es, e.1 = d → k ≤ e.2.1 → e ∈ G) →
      probeFns ops t n d (List.range' k m) = .ok (G.map (foundOf n)) := by
  intro m
  induction m with
  | zero =>
    intro k G _ hG _
    cases G with
    | nil => rfl
    | cons e G => have := hG e (by simp); omega
  | succ m ih =>
    intro k G hGs hG hGc
    rw [List.range'_succ, probeFns]
    by_cases hx : ∃ x, (d, k, x) ∈ es
    · obtain ⟨x, hx⟩ := hx
      rw [reach_read ops hr hs hx 0 (read_id_lt ops x), ok_bind, read_id, if_neg (hp _ hx), reach_read ops hr hs hx 3 (read_hdr_lt ops x), ok_bind,
        reach_dsp hr hs hx]
      have h1 := read_hdr ops x (hh _ hx)
      have hxG := hGc _ hx rfl (Nat.le_refl _)
      -- the first entry of `G`
      cases G with
      | nil => simp at hxG
      | cons g G =>
        obtain ⟨hg, hGs'⟩ := List.pairwise_cons.1 hGs
        have hgx : g = (d, k, x) := by
          rcases List.mem_cons.1 hxG with h | h
          · exact h.symm
          · have h2 := hg _ h
            have h3 := hG g (by simp)
            simp [Before] at h2; omega
        have hdev : (PDev.mk ⟨n, d, k⟩
            (decide ((x.read ops 3 >>> 16 &&& 0xff) &&& 0x7f = 1 ∨ (x.read ops 3 >>> 16 &&& 0xff) &&& 0x7f = 2))
            (foundOf n (d, k, x)).dsp) = foundOf n g := by
          rw [h1.1, hgx]; rfl
        simp only [hdev]
        have hrest : ∀ e ∈ G, k + 1 ≤ e.2.1 := by
          intro e he
          have h2 := hg e he
          have h3 := hG e (by simp [he])
          rw [hgx] at h2; simp [Before] at h2; omega
        by_cases hmu : multi x = false
        · rw [if_pos (h1.2.2 hmu)]
          have : G = [] := by
            cases G with
            | nil => rfl
            | cons e G =>
              have h2 := hrest e (by simp)
              have h3 := hG e (by simp)
              have := hm _ hx e h3.1 h3.2.1.symm (by simp; omega)
              simp [hmu] at this
          rw [this]; rfl
        · rw [if_neg (fun h => hmu (h1.2.1 h)), ih (k + 1) G hGs' (fun e he => ?_) (fun e he hd hk => ?_)]
          · rfl
          · have h3 := hG e (by simp [he]); have := hrest e he
            exact ⟨h3.1, h3.2.1, this, by omega⟩
          · have := hGc e he hd (by omega)
            rcases List.mem_cons.1 this with h | h
            · rw [h, hgx] at hk; simp at hk
            · exact h
    · rw [reach_none ops hr (fun x h => hx ⟨x, h⟩), ok_bind, if_pos rfl]
      apply ih (k + 1) G hGs
      · intro e he
        have h3 := hG e he
        refine ⟨h3.1, h3.2.1, ?_, by omega⟩
        rcases Nat.lt_or_ge k e.2.1 with h | h
        · exact h
        · exact absurd ⟨e.2.2, by have : (d, k, e.2.2) = e := by rw [← h3.2.1, Nat.le_antisymm h3.2.2.1 h]
                                  rw [this]; exact h3.1⟩ hx
      · intro e he hd hk; exact hGc e he hd (by omega)

/-- The loop over device numbers from `k` on finds the functions of the devices whose numbers are not below `k`. -/
theorem probeDevs_spec (ops : CapOps σ) {t : Phys σ} {n : Nat} {es} {one : Bool} (hr : Reach t n es) (hn : n ≤ 255)
    (ho : BusOk (n = 0) one es) :
    ∀ (m k : Nat) (G : List (Nat × Nat × Fn σ)), G.Pairwise Before → (∀ e ∈ G, e ∈ es ∧ k ≤ e.1 ∧ e.1 < k + m) →
      (∀ e ∈ es, k ≤ e.1 → e ∈ G) →
      probeDevs ops t n one (List.range' k m) = .ok (G.map (foundOf n)) := by
  intro m
  induction m with
  | zero =>
    intro k G _ hG _
    cases G with
    | nil => rfl
    | cons e G => have := hG e (by simp); omega
  | succ m ih =>
    intro k G hGs hG hGc
    rw [List.range'_succ, probeDevs]
    -- no device with number `k`
    have skip : (∀ e ∈ es, e.1 ≠ k) → probeDevs ops t n one (List.range' (k + 1) m) = .ok (G.map (foundOf n)) := by
      intro h
      apply ih (k + 1) G hGs
      · intro e he
        have h3 := hG e he
        have := h e h3.1
        exact ⟨h3.1, by omega, by omega⟩
      · intro e he hk; exact hGc e he (by omega)
    by_cases h0 : n = 0 ∧ k = 0
    · rw [if_pos h0]
      exact skip (fun e he h => ho.host (by simp [h0.1]) e he (h.trans h0.2))
    · rw [if_neg h0, if_neg (by omega)]
      by_cases hx : ∃ x, (k, 0, x) ∈ es
      · obtain ⟨x, hx⟩ := hx
        have hv := ho.vendor _ hx rfl
        have hp := ho.present _ hx
        rw [reach_read ops hr ho.sorted hx 0 (read_id_lt ops x), ok_bind, read_id, if_neg (by simp only at hv hp; tauto), if_neg hv.2.2.2]
        have hfs : probeFns ops t n k (List.range 8) = .ok ((G.filter (fun e => e.1 = k)).map (foundOf n)) := by
          rw [List.range_eq_range']
          apply probeFns_spec ops hr ho.sorted ho.header ho.present k ho.multi
          · exact hGs.filter _
          · intro e he
            obtain ⟨h1, h2⟩ := List.mem_filter.1 he
            have h3 := hG e h1
            have h4 := ho.range e h3.1
            exact ⟨h3.1, by simpa using h2, by omega, by omega⟩
          · intro e he hd hk
            exact List.mem_filter.2 ⟨hGc e he (by omega), by simpa using hd⟩
        rw [hfs, ok_bind]
        -- the entries of device `k` come first
        have hsplit : ∀ H : List (Nat × Nat × Fn σ), H.Pairwise Before → (∀ e ∈ H, k ≤ e.1) →
            H.filter (fun e => e.1 = k) ++ H.filter (fun e => e.1 ≠ k) = H := by
          intro H
          induction H with
          | nil => intros; rfl
          | cons e H ihH =>
            intro hs' hk
            obtain ⟨he, hs''⟩ := List.pairwise_cons.1 hs'
            have ihH := ihH hs'' (fun e he => hk e (by simp [he]))
            by_cases hek : e.1 = k
            · simp only [List.filter_cons, hek, decide_true, if_true, ne_eq, not_true_eq_false, decide_false, List.cons_append]
              simpa using ihH
            · have hke := hk e (by simp)
              have h5 : H.filter (fun e => e.1 = k) = [] := by
                rw [List.filter_eq_nil_iff]; intro y hy
                have := he y hy; simp [Before] at this ⊢; omega
              rw [List.filter_cons, if_neg (by simpa using hek), h5, List.nil_append, List.filter_cons, if_pos (by simpa using hek)]
              rw [h5, List.nil_append] at ihH
              rw [ihH]
        have hsp := hsplit G hGs (fun e he => (hG e he).2.1)
        cases hone : one with
        | true =>
          simp only [if_true]
          have : G.filter (fun e => e.1 ≠ k) = [] := by
            rw [List.filter_eq_nil_iff]; intro y hy
            have := ho.single hone y (hG y hy).1 _ hx
            simpa using this
          rw [this, List.append_nil] at hsp
          rw [hsp]; rfl
        | false =>
          have := ih (k + 1) (G.filter (fun e => e.1 ≠ k)) (hGs.filter _) (fun e he => ?_) (fun e he hk => ?_)
          · rw [← hone, this, ok_bind, hone]
            simp only [Bool.false_eq_true, if_false]
            rw [← List.map_append, hsp]; rfl
          · obtain ⟨h1, h2⟩ := List.mem_filter.1 he
            have h3 := hG e h1
            simp at h2
            exact ⟨h3.1, by omega, by omega⟩
          · exact List.mem_filter.2 ⟨hGc e he (by omega), by simp; omega⟩
      · rw [reach_none ops hr (fun x h => hx ⟨x, h⟩), ok_bind, if_pos (by decide)]
        exact skip (fun e he h => by
          obtain ⟨f, hf⟩ := ho.zero e he
          exact hx ⟨f, by rw [← h]; exact hf⟩)

theorem probe_spec (ops : CapOps σ) {t : Phys σ} {n : Nat} {es} {one : Bool} (hr : Reach t n es) (hn : n ≤ 255)
    (ho : BusOk (n = 0) one es) : probeDevs ops t n one (List.range 32) = .ok (es.map (foundOf n)) := by
  rw [List.range_eq_range']
  exact probeDevs_spec ops hr hn ho 32 0 es ho.sorted (fun e he => ⟨he, by omega, by have := ho.range e he; omega⟩)
    (fun e he _ => he)

theorem reach_plug {C : List (Frame σ)} {n : Nat} (h : CtxOk C n) (b : Phys σ) (hn : n ≤ 255) : Reach (plug C b) n (top b) := by
  intro d f
  have h1 := plug_at h b ⟨n, d, f⟩ (Nat.le_refl _) hn
  have h2 := plug_clear h b ⟨n, d, f⟩ (Nat.le_refl _) hn
  simp only [decide_true] at h1 h2
  rw [h1, h2, at_true]
  exact ⟨rfl, fun hl => clear_true b ⟨n, d, f⟩ hl⟩

end Pcie
