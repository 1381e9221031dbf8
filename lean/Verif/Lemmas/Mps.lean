import Mathlib.Data.List.Forall2
import Verif.Spec.Mps
namespace Pcie
open Spec

theorem setMps_ok {f f' : MFn} {v : Nat} (h : f.setMps v = .ok f') : f' = { f with mps := v } ∧ v ≤ f.mpss ∧ v ≤ 5 := by
  simp only [MFn.setMps] at h
  split at h
  · cases h
  · cases h; exact ⟨rfl, by omega, by omega⟩

/-- One function on a bus behind bridge `b`. -/
theorem configureMps_below {host : Nat} {b : MFn} {f f' : MFn} {b' : Option MFn} (hb : b.pcie = true) (hf : NotRoot f)
    (hi : f.mps ≤ f.mpss) (h : configureMps host (some b) f = .ok (b', f')) :
    ∃ m, b' = some { b with mps := m } ∧ m ≤ b.mps ∧ { f' with mps := 0 } = { f with mps := 0 } ∧ f'.mps ≤ m ∧ f'.mps ≤ f.mpss ∧
      (b.ptype ≠ 4 → m = b.mps) ∧ (b.mps ≤ f.mpss → f'.mps = b.mps ∧ m = b.mps) := by
  obtain ⟨h1, h2, h3⟩ := hf
  simp only [configureMps, h1, hb, h2, h3, not_true_eq_false, if_false] at h
  by_cases he : f.mps = b.mps
  · rw [if_pos he] at h
    cases h
    exact ⟨b.mps, rfl, Nat.le_refl _, rfl, by omega, hi, fun _ => rfl, fun _ => ⟨he, rfl⟩⟩
  · rw [if_neg he] at h
    by_cases hc : f.mpss < b.mps ∧ b.ptype = 4
    · rw [if_pos hc] at h
      cases hs : b.setMps (min f.mpss b.mpss) with
      | error e => rw [hs] at h; cases h
      | ok b1 =>
        rw [hs] at h
        obtain ⟨rfl, k1, k2⟩ := setMps_ok hs
        simp only at h
        cases hs2 : f.setMps (min (min f.mpss b.mpss) f.mpss) with
        | error e => rw [hs2] at h; cases h
        | ok f1 =>
          rw [hs2] at h
          obtain ⟨rfl, k3, k4⟩ := setMps_ok hs2
          cases h
          exact ⟨min f.mpss b.mpss, rfl, by omega, rfl, by simp only; omega, by simp only; omega,
            fun h => absurd hc.2 h, fun h => by omega⟩
    · rw [if_neg hc] at h
      simp only at h
      cases hs2 : f.setMps (min b.mps f.mpss) with
      | error e => rw [hs2] at h; cases h
      | ok f1 =>
        rw [hs2] at h
        obtain ⟨rfl, k3, k4⟩ := setMps_ok hs2
        cases h
        exact ⟨b.mps, rfl, Nat.le_refl _, rfl, by simp only; omega, by simp only; omega, fun _ => rfl,
          fun h => ⟨by simp only; omega, rfl⟩⟩

/-- All functions on a bus behind bridge `b`. -/
theorem configBus_below {host : Nat} {fs : List MFn} : ∀ {b : MFn} {b' : Option MFn} {fs' : List MFn}, b.pcie = true →
    (∀ f ∈ fs, NotRoot f ∧ f.mps ≤ f.mpss) → configBus host (some b) fs = .ok (b', fs') →
    ∃ m, b' = some { b with mps := m } ∧ m ≤ b.mps ∧
      List.Forall₂ (fun f f' => { f' with mps := 0 } = ({ f with mps := 0 } : MFn) ∧ f'.mps ≤ b.mps ∧ f'.mps ≤ f.mpss) fs fs' ∧
      (b.ptype ≠ 4 → m = b.mps) ∧ ((∀ f ∈ fs, b.mps ≤ f.mpss) → m = b.mps ∧ ∀ f' ∈ fs', f'.mps = b.mps) ∧
      (fs.length ≤ 1 → ∀ f' ∈ fs', f'.mps ≤ m) := by
  induction fs with
  | nil =>
    intro b b' fs' _ _ h
    simp only [configBus] at h
    cases h
    exact ⟨b.mps, rfl, Nat.le_refl _, .nil, fun _ => rfl, fun _ => ⟨rfl, by simp⟩, by simp⟩
  | cons f fs ih =>
    intro b b' fs' hb hf h
    simp only [configBus] at h
    cases h1 : configureMps host (some b) f with
    | error e => rw [h1] at h; cases h
    | ok r =>
      obtain ⟨b1, f1⟩ := r
      rw [h1] at h
      simp only at h
      obtain ⟨m1, rfl, k1, k2, k3, k4, k5, k6⟩ := configureMps_below hb (hf f (by simp)).1 (hf f (by simp)).2 h1
      cases h2 : configBus host (some { b with mps := m1 }) fs with
      | error e => rw [h2] at h; cases h
      | ok r =>
        obtain ⟨b2, fs2⟩ := r
        rw [h2] at h
        cases h
        obtain ⟨m2, rfl, g1, g2, g3, g4, g5⟩ := ih (b := { b with mps := m1 }) hb (fun f hf' => hf f (by simp [hf'])) h2
        simp only at g1 g2 g3 g4
        refine ⟨m2, rfl, by omega, .cons ⟨k2, by omega, k4⟩ (g2.imp fun _ _ hx => ⟨hx.1, by omega, hx.2.2⟩), ?_, ?_, ?_⟩
        · intro hp; rw [g3 hp, k5 hp]
        · intro ha
          obtain ⟨j1, j2⟩ := k6 (ha f (by simp))
          subst j2
          obtain ⟨j3, j4⟩ := g4 (fun f hf' => ha f (by simp [hf']))
          exact ⟨j3, fun f' hf' => by
            rcases List.mem_cons.1 hf' with h | h
            · rw [h, j1]
            · exact j4 f' h⟩
        · intro hl f' hf'
          have : fs = [] := by cases fs with | nil => rfl | cons => simp at hl
          subst this
          cases g2
          simp only [configBus] at h2
          have e2 : some ({ b with mps := m1 } : MFn) = some { b with mps := m2 } := by injection h2 with h2; injection h2
          have e3 : m1 = m2 := by injection e2 with e2; injection e2
          simp at hf'
          rw [hf', ← e3]; exact k3

theorem allFns_mem {P : MFn → Prop} {t : MTree} (h : AllFns P t) : (∀ f ∈ t.fns, P f) ∧ ∀ p ∈ nodes t, P p.1 ∧ AllFns P p.2 := by
  induction t with
  | nil => simp [MTree.fns, nodes]
  | fn f c r _ ih =>
    obtain ⟨h1, h2, h3⟩ := h
    obtain ⟨g1, g2⟩ := ih h3
    constructor
    · intro g hg
      rcases List.mem_cons.1 hg with h | h
      · rw [h]; exact h1
      · exact g1 g h
    · intro p hp
      rcases List.mem_cons.1 hp with h | h
      · rw [h]; exact ⟨h1, h2⟩
      · exact g2 p h

theorem allFns_below {P : MFn → Prop} {t : MTree} (h : AllFns P t) : AllBelow P t := by
  induction t with
  | nil => trivial
  | fn f c r _ ih => exact ⟨h.2.1, ih h.2.2⟩

/-- One bridge with what is behind it: the step of `configBelow`. -/
theorem configBelow_cons {host : Nat} {f f0 : MFn} {fs : List MFn} {child rest t' : MTree}
    (h : configBelow host (f :: fs) (.fn f0 child rest) = .ok t') :
    ∃ b cs child' rest', configBus host (some f) child.fns = .ok (b, cs) ∧ configBelow host cs child = .ok child' ∧
      configBelow host fs rest = .ok rest' ∧ t' = .fn (b.getD f) child' rest' := by
  simp only [configBelow] at h
  cases h1 : configBus host (some f) child.fns with
  | error e => rw [h1] at h; cases h
  | ok r =>
    obtain ⟨b, cs⟩ := r
    rw [h1] at h; simp only at h
    cases h2 : configBelow host cs child with
    | error e => rw [h2] at h; cases h
    | ok child' =>
      rw [h2] at h; simp only at h
      cases h3 : configBelow host fs rest with
      | error e => rw [h3] at h; cases h
      | ok rest' =>
        rw [h3] at h; cases h
        exact ⟨b, cs, child', rest', rfl, h2, rfl, rfl⟩

/-- What holds for the functions `fs` of a bus, against the functions `t.fns` before. -/
def TopIs (Q : MFn → MFn → Prop) (fs : List MFn) (t : MTree) : Prop := List.Forall₂ Q t.fns fs

/-- Every function's size is bounded by everything on its path. `B` bounds the bus. -/
theorem configBelow_path {host : Nat} {t : MTree} : ∀ {fs : List MFn} {t' : MTree} {B : Nat},
    List.Forall₂ (fun f f' => { f' with mps := 0 } = ({ f with mps := 0 } : MFn) ∧ f'.mps ≤ B ∧ f'.mps ≤ f.mpss) t.fns fs →
    (∀ f ∈ t.fns, f.pcie = true) →
    AllBelow (fun f => NotRoot f ∧ f.mps ≤ f.mpss) t → configBelow host fs t = .ok t' →
    SameShape t t' ∧ ∀ p, Path t' p → ∀ l, p.getLast? = some l → l.mps ≤ B ∧ ∀ g ∈ p, l.mps ≤ g.mpss := by
  induction t with
  | nil =>
    intro fs t' B hfs _ _ h
    cases hfs
    simp only [configBelow] at h
    cases h
    refine ⟨trivial, ?_⟩
    intro p hp
    cases hp with
    | one h => simp [nodes] at h
    | step h => simp [nodes] at h
  | fn f child rest ihc ihr =>
    intro fs t' B hfs hp0 hb h
    cases hfs with
    | @cons _ f1 _ fs1 hf hfs =>
      obtain ⟨b, cs, child', rest', h1, h2, h3, rfl⟩ := configBelow_cons h
      obtain ⟨ha, hm, hmm⟩ := hf
      have hpc : f1.pcie = true := by
        have := hp0 f (by simp [MTree.fns])
        have e := congrArg MFn.pcie ha; simp only at e; rw [e]; exact this
      have hss : f1.mpss = f.mpss := by have e := congrArg MFn.mpss ha; simpa using e
      have hch := (allFns_mem hb.1).1
      obtain ⟨m, rfl, k1, k2, k3, k4, _⟩ := configBus_below hpc hch h1
      have i1 := ihc (B := f1.mps) k2 (fun g hg => (hch g hg).1.1) (allFns_below hb.1) h2
      have i2 := ihr (B := B) hfs (fun g hg => hp0 g (by simp [MTree.fns, hg])) hb.2 h3
      refine ⟨⟨?_, i1.1, i2.1⟩, ?_⟩
      · simp only [Option.getD_some]; exact ha.symm
      · intro p hp
        have cases_ : (∃ g c, (g, c) ∈ nodes rest' ∧ Path rest' p) ∨
            (p = [{ f1 with mps := m }] ∨ ∃ q, p = { f1 with mps := m } :: q ∧ Path child' q) := by
          cases hp with
          | @one _ g c hg =>
            simp only [nodes, Option.getD_some, List.mem_cons, Prod.mk.injEq] at hg
            rcases hg with ⟨rfl, rfl⟩ | hg
            · exact .inr (.inl rfl)
            · exact .inl ⟨g, c, hg, .one hg⟩
          | @step _ g c q hg hq =>
            simp only [nodes, Option.getD_some, List.mem_cons, Prod.mk.injEq] at hg
            rcases hg with ⟨rfl, rfl⟩ | hg
            · exact .inr (.inr ⟨q, rfl, hq⟩)
            · exact .inl ⟨g, c, hg, .step hg hq⟩
        rcases cases_ with ⟨_, _, _, hp⟩ | rfl | ⟨q, rfl, hq⟩
        · exact i2.2 p hp
        · intro l hl
          simp at hl
          subst hl
          exact ⟨by simp only; omega, by simp; omega⟩
        · intro l hl
          have hql : q.getLast? = some l := by
            cases q with
            | nil => cases hq
            | cons a q => rw [List.getLast?_cons_cons] at hl; exact hl
          obtain ⟨j1, j2⟩ := i1.2 q hq l hql
          refine ⟨by omega, ?_⟩
          intro g hg
          rcases List.mem_cons.1 hg with h | h
          · rw [h]; simp only; omega
          · exact j2 g h

/-- Upstream direction: no function may send more than the bridge above it may. -/
theorem configBelow_up {host : Nat} {t : MTree} : ∀ {fs : List MFn} {t' : MTree},
    List.Forall₂ (fun f f' => { f' with mps := 0 } = ({ f with mps := 0 } : MFn)) t.fns fs → (∀ f ∈ t.fns, f.pcie = true) →
    AllBelow (fun f => NotRoot f ∧ f.mps ≤ f.mpss) t → configBelow host fs t = .ok t' →
    ∀ f c, Link t' f c → (f.ptype ≠ 4 ∨ c.fns.length ≤ 1) → ∀ g ∈ c.fns, g.mps ≤ f.mps := by
  have fns_len : ∀ (t : MTree) (fs : List MFn) (t' : MTree), (t.fns.length = fs.length) → configBelow host fs t = .ok t' →
      t'.fns.length = fs.length := by
    intro t
    induction t with
    | nil => intro fs t' hl h; simp [MTree.fns] at hl; cases fs with | nil => simp only [configBelow] at h; cases h; rfl | cons => simp at hl
    | fn f c r _ ihr =>
      intro fs t' hl h
      cases fs with
      | nil => simp [MTree.fns] at hl
      | cons f1 fs =>
        obtain ⟨b, cs, child', rest', h1, h2, h3, rfl⟩ := configBelow_cons h
        simp [MTree.fns] at hl ⊢
        exact ihr fs rest' hl h3
  intro fs
  induction t generalizing fs with
  | nil =>
    intro t' hfs _ _ h
    cases hfs
    simp only [configBelow] at h
    cases h
    intro f c hl
    cases hl with
    | here h => simp [nodes] at h
    | deeper h => simp [nodes] at h
  | fn f child rest ihc ihr =>
    intro t' hfs hp0 hb h
    cases hfs with
    | @cons _ f1 _ fs1 hf hfs =>
      obtain ⟨b, cs, child', rest', h1, h2, h3, rfl⟩ := configBelow_cons h
      have hpc : f1.pcie = true := by
        have := hp0 f (by simp [MTree.fns])
        have e := congrArg MFn.pcie hf; simp only at e; rw [e]; exact this
      have hch := (allFns_mem hb.1).1
      obtain ⟨m, rfl, k1, k2, k3, k4, k5⟩ := configBus_below hpc hch h1
      have i1 := ihc (k2.imp fun _ _ hx => hx.1) (fun g hg => (hch g hg).1.1) (allFns_below hb.1) h2
      have i2 := ihr hfs (fun g hg => hp0 g (by simp [MTree.fns, hg])) hb.2 h3
      -- the functions of the child bus in the final tree: only lowered
      have low : ∀ (t : MTree) (fs : List MFn) (t' : MTree), (∀ f ∈ t.fns, f.pcie = true) →
          List.Forall₂ (fun f f' => { f' with mps := 0 } = ({ f with mps := 0 } : MFn)) t.fns fs →
          AllBelow (fun f => NotRoot f ∧ f.mps ≤ f.mpss) t → configBelow host fs t = .ok t' → ∀ B, (∀ f ∈ fs, f.mps ≤ B) →
          ∀ g ∈ t'.fns, g.mps ≤ B := by
        intro t
        induction t with
        | nil =>
          intro fs t' _ hfs _ h B _ g hg
          cases hfs
          simp only [configBelow] at h
          cases h; simp [MTree.fns] at hg
        | fn f0 c0 r0 _ ihr0 =>
          intro fs t' hp hfs hb h B hB g hg
          cases hfs with
          | @cons _ g1 _ gs hg1 hgs =>
            obtain ⟨b, cs, child', rest', h1, h2, h3, rfl⟩ := configBelow_cons h
            have hpc : g1.pcie = true := by
              have := hp f0 (by simp [MTree.fns])
              have e := congrArg MFn.pcie hg1; simp only at e; rw [e]; exact this
            obtain ⟨m, rfl, k1, _⟩ := configBus_below hpc (allFns_mem hb.1).1 h1
            rcases List.mem_cons.1 hg with h | h
            · rw [h]; have := hB g1 (by simp); simp only [Option.getD_some]; omega
            · exact ihr0 gs rest' (fun f hf => hp f (by simp [MTree.fns, hf])) hgs hb.2 h3 B (fun f hf => hB f (by simp [hf])) g h
      intro g c hl hcond x hx
      have hcases : (g = { f1 with mps := m } ∧ c = child') ∨ Link child' g c ∨ Link rest' g c := by
        cases hl with
        | here hg =>
          simp only [nodes, Option.getD_some, List.mem_cons, Prod.mk.injEq] at hg
          rcases hg with hg | hg
          · exact .inl hg
          · exact .inr (.inr (.here hg))
        | deeper hg hd =>
          simp only [nodes, Option.getD_some, List.mem_cons, Prod.mk.injEq] at hg
          rcases hg with ⟨_, rfl⟩ | hg
          · exact .inr (.inl hd)
          · exact .inr (.inr (.deeper hg hd))
      rcases hcases with ⟨rfl, rfl⟩ | hl | hl
      · refine low child cs _ (fun g hg => (hch g hg).1.1) (k2.imp fun _ _ hx => hx.1) (allFns_below hb.1) h2 m ?_ x hx
        rcases hcond with hc | hc
        · simp only at hc
          rw [k3 hc]
          intro y hy
          have : ∀ {l1 l2 : List MFn}, List.Forall₂ (fun f f' => { f' with mps := 0 } = ({ f with mps := 0 } : MFn) ∧
              f'.mps ≤ f1.mps ∧ f'.mps ≤ f.mpss) l1 l2 → ∀ y ∈ l2, y.mps ≤ f1.mps := by
            intro l1 l2 hl
            induction hl with
            | nil => simp
            | cons h _ ih =>
              intro y hy
              rcases List.mem_cons.1 hy with h' | h'
              · rw [h']; exact h.2.1
              · exact ih y h'
          exact this k2 y hy
        · have hlen : child.fns.length ≤ 1 := by
            rw [k2.length_eq, ← fns_len child cs _ k2.length_eq h2]; exact hc
          exact k5 hlen
      · exact i1 g c hl hcond x hx
      · exact i2 g c hl hcond x hx

/-- If everything supports the size of the host, everything gets it. -/
theorem configBelow_uniform {host : Nat} {t : MTree} : ∀ {fs : List MFn} {t' : MTree},
    List.Forall₂ (fun f f' => { f' with mps := 0 } = ({ f with mps := 0 } : MFn)) t.fns fs → (∀ f ∈ t.fns, f.pcie = true) →
    (∀ f ∈ fs, f.mps = host) → AllBelow (fun f => NotRoot f ∧ f.mps ≤ f.mpss ∧ host ≤ f.mpss) t → configBelow host fs t = .ok t' →
    AllFns (fun f => f.mps = host) t' := by
  have weak : ∀ t : MTree, AllFns (fun f => NotRoot f ∧ f.mps ≤ f.mpss ∧ host ≤ f.mpss) t →
      (∀ f ∈ t.fns, NotRoot f ∧ f.mps ≤ f.mpss ∧ host ≤ f.mpss) := fun t h => (allFns_mem h).1
  intro fs
  induction t generalizing fs with
  | nil =>
    intro t' hfs _ _ _ h
    cases hfs
    simp only [configBelow] at h
    cases h; trivial
  | fn f child rest ihc ihr =>
    intro t' hfs hp0 hm hb h
    cases hfs with
    | @cons _ f1 _ fs1 hf hfs =>
      obtain ⟨b, cs, child', rest', h1, h2, h3, rfl⟩ := configBelow_cons h
      have hpc : f1.pcie = true := by
        have := hp0 f (by simp [MTree.fns])
        have e := congrArg MFn.pcie hf; simp only at e; rw [e]; exact this
      have hch := weak child hb.1
      have hm1 := hm f1 (by simp)
      obtain ⟨m, rfl, k1, k2, k3, k4, k5⟩ := configBus_below hpc (fun g hg => ⟨(hch g hg).1, (hch g hg).2.1⟩) h1
      obtain ⟨k6, k7⟩ := k4 (fun g hg => by rw [hm1]; exact (hch g hg).2.2)
      refine ⟨by simp only [Option.getD_some]; omega, ?_, ?_⟩
      · exact ihc (k2.imp fun _ _ hx => hx.1) (fun g hg => (hch g hg).1.1) (fun g hg => by rw [k7 g hg, hm1]) (allFns_below hb.1) h2
      · exact ihr hfs (fun g hg => hp0 g (by simp [MTree.fns, hg])) (fun g hg => hm g (by simp [hg])) hb.2 h3

/-- The functions on the root bus. -/
theorem configBus_root {host : Nat} : ∀ {fs fs' : List MFn} {b : Option MFn}, (∀ f ∈ fs, f.mps ≤ f.mpss) →
    configBus host none fs = .ok (b, fs') →
    b = none ∧ List.Forall₂ (fun f f' => { f' with mps := 0 } = ({ f with mps := 0 } : MFn) ∧ f'.mps ≤ f.mpss ∧
      (f.pcie = true → f.ptype = 4 → f'.mps = host) ∧ (f.pcie = true → f.ptype = 9 → f'.mps = f.mpss)) fs fs' := by
  intro fs
  induction fs with
  | nil => intro fs' b _ h; simp only [configBus] at h; cases h; exact ⟨rfl, .nil⟩
  | cons f fs ih =>
    intro fs' b hi h
    simp only [configBus] at h
    cases h1 : configureMps host none f with
    | error e => rw [h1] at h; cases h
    | ok r =>
      obtain ⟨b1, f1⟩ := r
      rw [h1] at h; simp only at h
      have key : b1 = none ∧ ({ f1 with mps := 0 } = ({ f with mps := 0 } : MFn) ∧ f1.mps ≤ f.mpss ∧
          (f.pcie = true → f.ptype = 4 → f1.mps = host) ∧ (f.pcie = true → f.ptype = 9 → f1.mps = f.mpss)) := by
        have hi := hi f (by simp)
        simp only [configureMps] at h1
        by_cases hp : f.pcie = true
        · simp only [hp, not_true_eq_false, if_false] at h1
          by_cases h9 : f.ptype = 9
          · rw [if_pos h9] at h1
            cases hs : f.setMps f.mpss with
            | error e => rw [hs] at h1; cases h1
            | ok g =>
              rw [hs] at h1; cases h1
              obtain ⟨rfl, k1, k2⟩ := setMps_ok hs
              exact ⟨rfl, rfl, by simp, fun _ h4 => by omega, fun _ _ => rfl⟩
          · rw [if_neg h9] at h1
            by_cases h4 : f.ptype = 4
            · rw [if_pos h4] at h1
              cases hs : f.setMps host with
              | error e => rw [hs] at h1; cases h1
              | ok g =>
                rw [hs] at h1; cases h1
                obtain ⟨rfl, k1, k2⟩ := setMps_ok hs
                exact ⟨rfl, rfl, k1, fun _ _ => rfl, fun _ h => absurd h h9⟩
            · rw [if_neg h4] at h1
              cases h1
              exact ⟨rfl, rfl, hi, fun _ h => absurd h h4, fun _ h => absurd h h9⟩
        · rw [if_pos hp] at h1
          cases h1
          exact ⟨rfl, rfl, hi, fun h => absurd h hp, fun h => absurd h hp⟩
      obtain ⟨rfl, k⟩ := key
      cases h2 : configBus host none fs with
      | error e => rw [h2] at h; cases h
      | ok r =>
        obtain ⟨b2, fs2⟩ := r
        rw [h2] at h; cases h
        obtain ⟨k2, k3⟩ := ih (fun f hf => hi f (by simp [hf])) h2
        exact ⟨k2, .cons k k3⟩

theorem allBelow_imp {P Q : MFn → Prop} (hpq : ∀ f, P f → Q f) {t : MTree} : (AllFns P t → AllFns Q t) ∧ (AllBelow P t → AllBelow Q t) := by
  induction t with
  | nil => exact ⟨id, id⟩
  | fn f c r ihc ihr => exact ⟨fun h => ⟨hpq _ h.1, ihc.1 h.2.1, ihr.1 h.2.2⟩, fun h => ⟨ihc.1 h.1, ihr.2 h.2⟩⟩

end Pcie
