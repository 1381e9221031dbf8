/-
Helper lemmas: assignment over the tree of buses, and the windows of its bridges.
-/
import Verif.Lemmas.EnumTree
namespace Pcie
open Spec

theorem le_io (l : Limits) (v : Nat) (h : l.io ≤ v) : l.Le { l with io := v } := ⟨h, Nat.le_refl _, Nat.le_refl _⟩
theorem le_mem (l : Limits) (v : Nat) (h : l.mem ≤ v) : l.Le { l with mem := v } := ⟨Nat.le_refl _, h, Nat.le_refl _⟩
theorem le_pref (l : Limits) (v : Nat) (h : l.pref ≤ v) : l.Le { l with pref := v } := ⟨Nat.le_refl _, Nat.le_refl _, h⟩

theorem assignRom_le {τ} {ops : CapOps τ} {rom s d l s' d' l'} (h : assignRom ops rom s d l = .ok (s', d', l')) : l.Le l' := by
  unfold assignRom at h
  cases hd : d.rom with
  | none =>
    rw [hd] at h
    simp only [Except.ok.injEq, Prod.mk.injEq] at h
    rw [h.2.2]; exact Limits.Le.refl _
  | some x =>
    obtain ⟨raw, size⟩ := x
    rw [hd] at h
    simp only at h
    split at h
    · simp only [Except.ok.injEq, Prod.mk.injEq] at h
      rw [h.2.2]; exact Limits.Le.refl _
    · split at h
      · cases h
      · simp only [Except.ok.injEq, Prod.mk.injEq] at h
        rw [← h.2.2]
        exact le_mem _ _ (Nat.le_trans (align_ge _ _) (Nat.le_add_right _ _))

theorem assignBarsFrom_le {τ} (ops : CapOps τ) (n : Nat) : ∀ bar s d l s' d' l',
    assignBarsFrom ops n bar s d l = .ok (s', d', l') → l.Le l' := by
  induction n using Nat.strongRecOn with
  | _ n ih =>
    intro bar s d l s' d' l' h
    rw [assignBarsFrom.eq_def] at h
    cases n with
    | zero =>
      simp only [Except.ok.injEq, Prod.mk.injEq] at h
      rw [h.2.2]; exact Limits.Le.refl _
    | succ n =>
      simp only at h
      cases hi : d.info bar with
      | none => rw [hi] at h; cases h
      | some x =>
        obtain ⟨raw, size⟩ := x
        rw [hi] at h
        simp only at h
        have hg := fun v => Nat.le_trans (align_ge v (size - 1)) (Nat.le_add_right _ size)
        split at h
        · exact ih n (by omega) _ _ _ _ _ _ _ h
        · split at h
          · split at h
            · cases h
            · exact (le_io _ _ (hg _)).trans (ih n (by omega) _ _ _ _ _ _ _ h)
          · split at h
            · cases n with
              | zero => cases h
              | succ n =>
                simp only at h
                refine Limits.Le.trans ?_ (ih n (by omega) _ _ _ _ _ _ _ h)
                split
                · exact le_pref _ _ (hg _)
                · exact le_mem _ _ (hg _)
            · split at h
              · cases h
              · exact (le_mem _ _ (hg _)).trans (ih n (by omega) _ _ _ _ _ _ _ h)

theorem assignBars_le {τ} {ops : CapOps τ} {cnt rom s d l s' d' l'} (h : assignBars ops cnt rom s d l = .ok (s', d', l')) :
    l.Le l' := by
  unfold assignBars at h
  cases hb : assignBarsFrom ops cnt 0 s d l with
  | error e => rw [hb] at h; cases h
  | ok x =>
    obtain ⟨s1, d1, l1⟩ := x
    rw [hb] at h
    exact (assignBarsFrom_le _ _ _ _ _ _ _ _ _ hb).trans (assignRom_le h)

theorem alignBridge_le (l : Limits) : l.Le l.alignBridge := ⟨align_ge _ _, align_ge _ _, align_ge _ _⟩

theorem assignBus_ep {σ} {ops : CapOps σ} {f d rest l b' l'} (h : assignBus ops (.ep f d rest) l = .ok (b', l')) :
    ∃ f1 d1 l1 rest1, assignBars (Ep.regs ops) 6 12 f d l = .ok (f1, d1, l1) ∧ assignBus ops rest l1 = .ok (rest1, l') ∧
      b' = .ep f1 d1 rest1 := by
  rw [assignBus.eq_def] at h
  simp only at h
  cases h1 : assignBars (Ep.regs ops) 6 12 f d l with
  | error e => rw [h1] at h; cases h
  | ok x =>
    obtain ⟨f1, d1, l1⟩ := x
    rw [h1] at h
    simp only [ok_bind] at h
    cases h2 : assignBus ops rest l1 with
    | error e => rw [h2] at h; cases h
    | ok y =>
      obtain ⟨rest1, l2⟩ := y
      rw [h2] at h
      simp only [ok_bind] at h
      have := Except.ok.inj h
      simp only [Prod.mk.injEq] at this
      exact ⟨f1, d1, l1, rest1, rfl, by rw [h2, this.2], this.1.symm⟩

theorem assignBus_br {σ} {ops : CapOps σ} {f d child rest l b' l'}
    (h : assignBus ops (.br f d child rest) l = .ok (b', l')) :
    ∃ f1 d1 l1 child1 lc f2 rest1, assignBars (Br.regs ops) 2 14 f d l = .ok (f1, d1, l1) ∧
      assignBus ops child l1 = .ok (child1, lc) ∧ setupBridge ops f1 l1 lc.alignBridge = .ok f2 ∧
      assignBus ops rest lc.alignBridge = .ok (rest1, l') ∧ b' = .br f2 d1 child1 rest1 := by
  rw [assignBus.eq_def] at h
  simp only at h
  cases h1 : assignBars (Br.regs ops) 2 14 f d l with
  | error e => rw [h1] at h; cases h
  | ok x =>
    obtain ⟨f1, d1, l1⟩ := x
    rw [h1] at h
    simp only [ok_bind] at h
    cases h2 : assignBus ops child l1 with
    | error e => rw [h2] at h; cases h
    | ok y =>
      obtain ⟨child1, lc⟩ := y
      rw [h2] at h
      simp only [ok_bind] at h
      cases h3 : setupBridge ops f1 l1 lc.alignBridge with
      | error e => rw [h3] at h; cases h
      | ok f2 =>
        rw [h3] at h
        simp only [ok_bind] at h
        cases h4 : assignBus ops rest lc.alignBridge with
        | error e => rw [h4] at h; cases h
        | ok z =>
          obtain ⟨rest1, l4⟩ := z
          rw [h4] at h
          simp only [ok_bind] at h
          have := Except.ok.inj h
          simp only [Prod.mk.injEq] at this
          exact ⟨f1, d1, l1, child1, lc, f2, rest1, rfl, h2, h3, by rw [h4, this.2], this.1.symm⟩

theorem assignBus_le {σ} (ops : CapOps σ) (b : Bus σ) : ∀ l b' l', assignBus ops b l = .ok (b', l') → l.Le l' := by
  induction b with
  | nil =>
    intro l b' l' h
    simp only [assignBus, Except.ok.injEq, Prod.mk.injEq] at h
    rw [h.2]; exact Limits.Le.refl _
  | ep f d rest ih =>
    intro l b' l' h
    obtain ⟨f1, d1, l1, rest1, h1, h2, _⟩ := assignBus_ep h
    exact (assignBars_le h1).trans (ih _ _ _ h2)
  | br f d child rest ihc ih =>
    intro l b' l' h
    obtain ⟨f1, d1, l1, child1, lc, f2, rest1, h1, h2, _, h4, _⟩ := assignBus_br h
    exact (assignBars_le h1).trans ((ihc _ _ _ h2).trans ((alignBridge_le _).trans (ih _ _ _ h4)))

theorem setupBridge_common {σ} (ops : CapOps σ) (f f' : Br σ) (b e : Limits) (h : setupBridge ops f b e = .ok f') :
    f'.toCommon = f.toCommon := by
  unfold setupBridge at h
  simp only [br_w7, br_w8, br_w9, br_w10, br_w11, br_w12] at h
  cases h1 : packHH (b.io >>> 16) (pred_shr e.io 16) with
  | error e => rw [h1] at h; cases h
  | ok v1 =>
    rw [h1] at h
    simp only [ok_bind] at h
    cases h2 : packL1 (some (b.pref >>> 32)) with
    | error e => rw [h2] at h; cases h
    | ok v2 =>
      rw [h2] at h
      simp only [ok_bind] at h
      cases h3 : packL1 (pred_shr e.pref 32) with
      | error e => rw [h3] at h; cases h
      | ok v3 =>
        rw [h3] at h
        simp only [ok_bind] at h
        rw [← Except.ok.inj h]

/-- The same functions, and the same bus numbers. -/
inductive Keeps {σ} : Bus σ → Bus σ → Prop
  | nil : Keeps .nil .nil
  | ep (f f' : Ep σ) (d d' : DevBars) (rest rest' : Bus σ) : Keeps rest rest' → Keeps (.ep f d rest) (.ep f' d' rest')
  | br (f f' : Br σ) (d d' : DevBars) (child child' rest rest' : Bus σ) : f'.secBus = f.secBus ∧ f'.subBus = f.subBus →
      Keeps child child' → Keeps rest rest' → Keeps (.br f d child rest) (.br f' d' child' rest')

theorem Keeps.trans {σ} {a b c : Bus σ} (h : Keeps a b) (g : Keeps b c) : Keeps a c := by
  induction h generalizing c with
  | nil => exact g
  | ep f f' d d' rest rest' h ih => cases g with | ep _ f'' _ d'' _ rest'' g => exact .ep _ _ _ _ _ _ (ih g)
  | br f f' d d' child child' rest rest' e h1 h2 ih1 ih2 =>
    cases g with
    | br _ f'' _ d'' _ child'' _ rest'' e' g1 g2 => exact .br _ _ _ _ _ _ _ _ ⟨e'.1.trans e.1, e'.2.trans e.2⟩ (ih1 g1) (ih2 g2)

theorem readBus_spec {σ} (ops : CapOps σ) (b : Bus σ) (rs : List Region) (h : Tree Any b rs) :
    ∃ b' rs', readBus ops b = .ok b' ∧ Tree Sized b' rs' ∧ shape rs' = shape rs ∧ (BrsClean b → BrsClean b') ∧
      (BridgesFirst b → BridgesFirst b') ∧ hasBridge b' = hasBridge b ∧ Keeps b b' := by
  induction h with
  | nil => exact ⟨.nil, [], rfl, .nil, rfl, id, id, rfl, .nil⟩
  | ep f d ws r rest rs hf _ ht ih =>
    obtain ⟨b1, rs1, e1, t1, s1, c1, f1, hb1, k1⟩ := ih
    obtain ⟨c', d', ws', e, hf', hk, hs, hn⟩ := readBars_fn (Ep.hdr ops) f d ws r hf
    refine ⟨.ep { f with toCommon := c' } d' b1, fnRegions c' ws' r ++ rs1, ?_, .ep _ _ _ _ _ _ hf' hk t1, ?_, c1, ?_, hb1,
      .ep _ _ _ _ _ _ k1⟩
    · rw [readBus.eq_def]; simp only; rw [e]; simp only [ok_bind]; rw [e1]; rfl
    · rw [shape_append, shape_append, hs, s1]
    · intro hb; exact ⟨fun hh => hn (hb.1 (by rw [← hb1]; exact hh)), f1 hb.2⟩
  | br f d ws r child rest cs rs hf _ hc ht ihc ih =>
    obtain ⟨b1, rs1, e1, t1, s1, c1, f1, hb1, k1⟩ := ih
    obtain ⟨b2, rs2, e2, t2, s2, c2, f2, hb2, k2⟩ := ihc
    obtain ⟨c', d', ws', e, hf', hk, hs, hn⟩ := readBars_fn (Br.hdr ops) f d ws r hf
    refine ⟨.br { f with toCommon := c' } d' b2 b1, fnRegions c' ws' r ++ (rs2 ++ rs1), ?_, .br _ _ _ _ _ _ _ _ hf' hk t2 t1, ?_,
      ?_, ?_, rfl, .br _ _ _ _ _ _ _ _ ⟨rfl, rfl⟩ k2 k1⟩
    · rw [readBus.eq_def]; simp only; rw [e]; simp only [ok_bind]; rw [e2]; simp only [ok_bind]; rw [e1]; rfl
    · rw [shape_append, shape_append, shape_append, shape_append, hs, s1, s2]
    · intro hb
      obtain ⟨x1, x2, x3⟩ := hb
      exact ⟨⟨x1.ioB, x1.ioL, x1.memB, x1.memL, x1.prefB, x1.prefL⟩, c2 x2, c1 x3⟩
    · intro hb; exact ⟨hn hb.1, f2 hb.2.1, f1 hb.2.2⟩

theorem assignBus_spec {σ} (ops : CapOps σ) (b : Bus σ) (rs : List Region) (h : Tree Sized b rs) : ∀ l b' l',
    assignBus ops b l = .ok (b', l') → l'.mem ≤ 2 ^ 64 ∧ l'.pref ≤ 2 ^ 64 →
    ∃ rs', Tree Recorded b' rs' ∧ Seq l rs' l' ∧ shape rs' = shape rs := by
  induction h with
  | nil =>
    intro l b' l' hrun _
    simp only [assignBus, Except.ok.injEq, Prod.mk.injEq] at hrun
    obtain ⟨rfl, rfl⟩ := hrun
    exact ⟨[], .nil, .done _ _ (Limits.Le.refl _), rfl⟩
  | ep f d ws r rest rs hf hk ht ih =>
    intro l b' l' hrun hlim
    obtain ⟨f1, d1, l1, rest1, h1, h2, rfl⟩ := assignBus_ep hrun
    have hle := assignBus_le ops _ _ _ _ h2
    obtain ⟨c', ws', r', e, hf', hrec, hseq, hs, -⟩ := assignBars_spec (Ep.hdr ops) f f1 d d1 l l1 ws r hf hk h1
      ⟨Nat.le_trans hle.2.1 hlim.1, Nat.le_trans hle.2.2 hlim.2⟩
    obtain ⟨rs1, t1, q1, s1⟩ := ih _ _ _ h2 hlim
    rw [e]
    refine ⟨fnRegions c' ws' r' ++ rs1, .ep _ _ _ _ _ _ hf' hrec t1, hseq.append q1, ?_⟩
    rw [shape_append, shape_append, hs, s1]
  | br f d ws r child rest cs rs hf hk hc ht ihc ih =>
    intro l b' l' hrun hlim
    obtain ⟨f1, d1, l1, child1, lc, f2, rest1, h1, h2, h3, h4, rfl⟩ := assignBus_br hrun
    have hle := assignBus_le ops _ _ _ _ h4
    have hle2 := (alignBridge_le lc).trans hle
    have hle3 := (assignBus_le ops _ _ _ _ h2).trans hle2
    obtain ⟨c', ws', r', e, hf', hrec, hseq, hs, -⟩ := assignBars_spec (Br.hdr ops) f f1 d d1 l l1 ws r hf hk h1
      ⟨Nat.le_trans hle3.2.1 hlim.1, Nat.le_trans hle3.2.2 hlim.2⟩
    obtain ⟨rs1, t1, q1, s1⟩ := ih _ _ _ h4 hlim
    obtain ⟨rs2, t2, q2, s2⟩ := ihc _ _ _ h2 ⟨Nat.le_trans hle2.2.1 hlim.1, Nat.le_trans hle2.2.2 hlim.2⟩
    have ec : f2.toCommon = c' := by rw [setupBridge_common ops f1 f2 l1 _ h3, e]
    have := Tree.br (P := Recorded) f2 d1 ws' r' child1 rest1 rs2 rs1 (by rw [ec]; exact hf') (by rw [ec]; exact hrec) t2 t1
    rw [ec] at this
    refine ⟨_, this, hseq.append ((q2.weaken_right _ (alignBridge_le lc)).append q1), ?_⟩
    rw [shape_append, shape_append, shape_append, shape_append, hs, s1, s2]

/-- The windows of the bridge, in terms of the allocation limits before and after what is behind it. -/
structure WinIs {σ} (g : Br σ) (b e : Limits) : Prop where
  ioB : g.ioBase = b.io / 2 ^ 12 * 2 ^ 12
  ioL : g.ioLimit = e.io - 1
  memB : g.memBase = b.mem / 2 ^ 20 * 2 ^ 20
  memL : g.memLimit = e.mem - 1
  prefB : g.prefBase = b.pref / 2 ^ 20 * 2 ^ 20
  prefL : g.prefLimit = e.pref - 1

/-- The bridge was given its windows between the limits `l` and `l'`. -/
def Between {σ} (l l' : Limits) (g : Br σ) : Prop :=
  ∃ b e, l.Le b ∧ b.Le e ∧ e.Le l' ∧ e.io % 2 ^ 12 = 0 ∧ e.mem % 2 ^ 20 = 0 ∧ e.pref % 2 ^ 20 = 0 ∧ WinIs g b e

theorem rdown_mono {a b : Nat} (k : Nat) (h : a ≤ b) : a / 2 ^ k * 2 ^ k ≤ b / 2 ^ k * 2 ^ k :=
  Nat.mul_le_mul_right _ (Nat.div_le_div_right h)
theorem rdown_le (a k : Nat) : a / 2 ^ k * 2 ^ k ≤ a := Nat.div_mul_le_self _ _
theorem rdown_ge {a b : Nat} (k : Nat) (h : a ≤ b) (ha : a % 2 ^ k = 0) : a ≤ b / 2 ^ k * 2 ^ k := by
  have := rdown_mono k h
  rwa [div_mul_of_align _ _ ha] at this

theorem forwards_iff {σ} {g : Br σ} {b e : Limits} (h : WinIs g b e) (h0 : 0 < e.io ∧ 0 < e.mem ∧ 0 < e.pref) (io : Bool) (a : Nat) :
    Forwards g io a ↔ (io = true ∧ b.io / 2 ^ 12 * 2 ^ 12 ≤ a ∧ a < e.io) ∨
      (io = false ∧ ((b.mem / 2 ^ 20 * 2 ^ 20 ≤ a ∧ a < e.mem) ∨ (b.pref / 2 ^ 20 * 2 ^ 20 ≤ a ∧ a < e.pref))) := by
  unfold Forwards
  rw [h.ioB, h.ioL, h.memB, h.memL, h.prefB, h.prefL]
  cases io
  · simp only [Bool.false_eq_true, if_false, false_and, false_or, true_and]; omega
  · simp only [if_true, true_and, Bool.true_eq_false, false_and, or_false]; omega

theorem assignBus_mapped {σ} (ops : CapOps σ) (sib : Prop) (b : Bus σ) (rs : List Region) (h : Tree Sized b rs) : ∀ l b' l',
    assignBus ops b l = .ok (b', l') → 0 < l.io ∧ 0 < l.mem ∧ 2 ^ 32 ≤ l.pref → l'.mem < 2 ^ 32 ∧ l'.pref ≤ 2 ^ 64 →
    BrsClean b → (sib → BridgesFirst b) →
    ∃ own brs all, Mapped sib b' own brs all ∧ Seq l all l' ∧ (∀ x ∈ own, x ∈ all) ∧ (∀ g ∈ brs, Between l l' g) ∧
      (hasBridge b = false → brs = []) ∧ shape all = shape rs ∧ Keeps b b' := by
  induction h with
  | nil =>
    intro l b' l' hrun _ _ _ _
    simp only [assignBus, Except.ok.injEq, Prod.mk.injEq] at hrun
    obtain ⟨rfl, rfl⟩ := hrun
    exact ⟨[], [], [], .nil, .done _ _ (Limits.Le.refl _), by simp, by simp, fun _ => rfl, rfl, .nil⟩
  | ep f d ws r rest rs hf hk ht ih =>
    intro l b' l' hrun h0 hlim hc hsib
    obtain ⟨f1, d1, l1, rest1, h1, h2, rfl⟩ := assignBus_ep hrun
    have hle := assignBus_le ops _ _ _ _ h2
    have hle0 := assignBars_le h1
    obtain ⟨c', ws', r', e, hf', hrec, hseq, hs, hn⟩ := assignBars_spec (Ep.hdr ops) f f1 d d1 l l1 ws r hf hk h1
      ⟨by have := hle.2.1; omega, Nat.le_trans hle.2.2 hlim.2⟩
    obtain ⟨own, brs, all, m, q, hown, hbt, hnb, hsh, hkp⟩ := ih l1 rest1 l' h2
      ⟨by have := hle0.1; omega, by have := hle0.2.1; omega, by have := hle0.2.2; omega⟩ hlim hc (fun h => (hsib h).2)
    rw [e]
    refine ⟨fnRegions c' ws' r' ++ own, brs, fnRegions c' ws' r' ++ all, .ep _ _ _ _ _ _ _ _ hf' m ?_, hseq.append q, ?_, ?_, hnb,
      by rw [shape_append, shape_append, hs, hsh], .ep _ _ _ _ _ _ hkp⟩
    · intro hs g hg x hx
      exfalso
      cases hb : hasBridge rest with
      | false => rw [hnb hb] at hg; simp at hg
      | true =>
        have := (hn ((hsib hs).1 hb)).2
        simp only at hx
        rw [this] at hx; simp at hx
    · intro x hx
      rcases List.mem_append.1 hx with hx | hx
      · exact List.mem_append_left _ hx
      · exact List.mem_append_right _ (hown x hx)
    · intro g hg
      obtain ⟨b0, e0, y1, y2, y3, y4, y5, y6, y7⟩ := hbt g hg
      exact ⟨b0, e0, hle0.trans y1, y2, y3, y4, y5, y6, y7⟩
  | br f d ws r child rest cs rs hf hk hc ht ihc ih =>
    intro l b' l' hrun h0 hlim hcl hsib
    obtain ⟨f1, d1, l1, child1, lc, f2, rest1, h1, h2, h3, h4, rfl⟩ := assignBus_br hrun
    have hle4 := assignBus_le ops _ _ _ _ h4
    have hle0 := assignBars_le h1
    have hle2 := assignBus_le ops _ _ _ _ h2
    have hle3 := alignBridge_le lc
    obtain ⟨c', ws', r', e, hf', hrec, hseq, hs, hn⟩ := assignBars_spec (Br.hdr ops) f f1 d d1 l l1 ws r hf hk h1
      ⟨by have := hle4.2.1; have := hle3.2.1; have := hle2.2.1; omega,
       by have := hle4.2.2; have := hle3.2.2; have := hle2.2.2; omega⟩
    have ha1 := align_dvd lc.io 12
    have ha2 := align_dvd lc.mem 20
    have ha3 := align_dvd lc.pref 20
    have hal : lc.alignBridge.io % 2 ^ 12 = 0 ∧ lc.alignBridge.mem % 2 ^ 20 = 0 ∧ lc.alignBridge.pref % 2 ^ 20 = 0 :=
      ⟨ha1.1, ha2.1, ha3.1⟩
    generalize lc.alignBridge = ee at *
    obtain ⟨z01, z02, z03⟩ := hle0
    obtain ⟨z21, z22, z23⟩ := hle2
    obtain ⟨z31, z32, z33⟩ := hle3
    obtain ⟨z41, z42, z43⟩ := hle4
    obtain ⟨own, brs, all, m, q, hown, hbt, hnb, hsh, hkp⟩ := ih ee rest1 l' h4 ⟨by omega, by omega, by omega⟩ hlim hcl.2.2
      (fun h => (hsib h).2.2)
    obtain ⟨cown, cbrs, call, mc, qc, hcown, hcbt, hcnb, hcsh, hckp⟩ := ihc l1 child1 lc h2 ⟨by omega, by omega, by omega⟩
      ⟨by omega, by omega⟩ hcl.2.1 (fun h => (hsib h).2.1)
    have hcl1 : BrClean f1 := by
      rw [e]
      obtain ⟨x1, -, -⟩ := hcl
      exact ⟨x1.ioB, x1.ioL, x1.memB, x1.memL, x1.prefB, x1.prefL⟩
    obtain ⟨-, -, -, -, e2⟩ := setupBridge_spec ops f1 f2 l1 ee hcl1 ⟨by omega, by omega, by omega⟩ hal h3
    have hw : WinIs f2 l1 ee := by
      rw [e2]
      exact ⟨rfl, rfl, by simp only; rw [Nat.mod_eq_of_lt (by omega : l1.mem < 2 ^ 32)], 
        by simp only; rw [Nat.mod_eq_of_lt (by omega : ee.mem - 1 < 2 ^ 32)], rfl, rfl⟩
    have ec : f2.toCommon = c' := by rw [setupBridge_common ops f1 f2 l1 _ h3, e]
    have hfw := forwards_iff hw ⟨by omega, by omega, by omega⟩
    have hr1 := rdown_le l1.io 12
    have hr2 := rdown_le l1.mem 20
    have hr3 := rdown_le l1.pref 20
    have hr4 : 2 ^ 32 ≤ l1.pref / 2 ^ 20 * 2 ^ 20 := rdown_ge 20 (by omega) (by decide)
    have hempty : sib → fnRegions c' ws' r' = [] := fun hs => (hn (hsib hs).1).2
    have key := Mapped.br (sib := sib) f2 d1 ws' r' child1 rest1 cown cbrs call own brs all (by rw [ec]; exact hf') mc m
      (by
        intro x hx io a hh
        obtain ⟨w1, w2⟩ := qc.within x hx
        obtain ⟨v1, v2, v3⟩ := hh
        rw [hfw]
        cases hp : x.pool with
        | io =>
          rw [hp] at w1 w2 v1; simp only [lim] at w1 w2
          exact Or.inl ⟨by simpa using v1, Nat.le_trans hr1 (Nat.le_trans w1 v2), by omega⟩
        | mem =>
          rw [hp] at w1 w2 v1; simp only [lim] at w1 w2
          exact Or.inr ⟨by simpa using v1, Or.inl ⟨Nat.le_trans hr2 (Nat.le_trans w1 v2), by omega⟩⟩
        | pref =>
          rw [hp] at w1 w2 v1; simp only [lim] at w1 w2
          exact Or.inr ⟨by simpa using v1, Or.inr ⟨Nat.le_trans hr3 (Nat.le_trans w1 v2), by omega⟩⟩)
      (by
        intro g hg io a hh
        obtain ⟨b0, e0, ⟨y11, y12, y13⟩, ⟨y21, y22, y23⟩, ⟨y31, y32, y33⟩, y4, y5, y6, y7⟩ := hcbt g hg
        rw [forwards_iff y7 ⟨by omega, by omega, by omega⟩] at hh
        rw [hfw]
        have m1 := rdown_mono 12 y11
        have m2 := rdown_mono 20 y12
        have m3 := rdown_mono 20 y13
        rcases hh with ⟨i1, i2, i3⟩ | ⟨i1, ⟨i2, i3⟩ | ⟨i2, i3⟩⟩
        · exact Or.inl ⟨i1, Nat.le_trans m1 i2, by omega⟩
        · exact Or.inr ⟨i1, Or.inl ⟨Nat.le_trans m2 i2, by omega⟩⟩
        · exact Or.inr ⟨i1, Or.inr ⟨Nat.le_trans m3 i2, by omega⟩⟩)
      (by
        intro g hg io a hh hh2
        obtain ⟨b0, e0, ⟨y11, y12, y13⟩, ⟨y21, y22, y23⟩, ⟨y31, y32, y33⟩, y4, y5, y6, y7⟩ := hbt g hg
        rw [forwards_iff y7 ⟨by omega, by omega, by omega⟩] at hh2
        rw [hfw] at hh
        have m1 := rdown_ge 12 y11 hal.1
        have m2 := rdown_ge 20 y12 hal.2.1
        have m3 := rdown_ge 20 y13 hal.2.2
        have b1 : io = true → io = false → False := by intro h1 h2; rw [h1] at h2; cases h2
        rcases hh with ⟨i1, i2, i3⟩ | ⟨i1, ⟨i2, i3⟩ | ⟨i2, i3⟩⟩ <;>
        rcases hh2 with ⟨j1, j2, j3⟩ | ⟨j1, ⟨j2, j3⟩ | ⟨j2, j3⟩⟩ <;>
        first | exact b1 i1 j1 | exact b1 j1 i1 | omega)
      (by
        intro hs g hg x hx
        rw [ec, hempty hs] at hx; simp at hx)
      (by
        intro hs x hx io a hh hx2
        obtain ⟨w1, w2⟩ := q.within x (hown x hx)
        obtain ⟨v1, v2, v3⟩ := hx2
        rw [hfw] at hh
        cases hp : x.pool with
        | io =>
          rw [hp] at w1 w2 v1; simp only [lim] at w1 w2
          have : io = true := by simpa using v1
          simp only [this, Bool.true_eq_false, false_and, or_false] at hh
          omega
        | mem =>
          rw [hp] at w1 w2 v1; simp only [lim] at w1 w2
          have : io = false := by simpa using v1
          simp only [this, Bool.false_eq_true, false_and, false_or] at hh
          omega
        | pref =>
          rw [hp] at w1 w2 v1; simp only [lim] at w1 w2
          have : io = false := by simpa using v1
          simp only [this, Bool.false_eq_true, false_and, false_or] at hh
          omega)
    rw [ec] at key
    refine ⟨_, _, _, key, hseq.append ((qc.weaken_right _ ⟨z31, z32, z33⟩).append q), ?_, ?_, by simp [hasBridge],
      by rw [shape_append, shape_append, shape_append, shape_append, hs, hsh, hcsh],
      .br _ _ _ _ _ _ _ _ ⟨by rw [e2, e], by rw [e2, e]⟩ hckp hkp⟩
    · intro x hx
      rcases List.mem_append.1 hx with hx | hx
      · exact List.mem_append_left _ hx
      · exact List.mem_append_right _ (List.mem_append_right _ (hown x hx))
    · intro g hg
      rcases List.mem_cons.1 hg with rfl | hg
      · exact ⟨l1, ee, ⟨z01, z02, z03⟩, ⟨by omega, by omega, by omega⟩, ⟨z41, z42, z43⟩, hal.1, hal.2.1, hal.2.2, hw⟩
      · obtain ⟨b0, e0, ⟨y11, y12, y13⟩, y2, y3, y4, y5, y6, y7⟩ := hbt g hg
        exact ⟨b0, e0, ⟨by omega, by omega, by omega⟩, y2, y3, y4, y5, y6, y7⟩

end Pcie
