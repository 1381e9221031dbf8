/- Calls that change command registers, run on the hierarchy. -/
import Verif.Lemmas.HostEnum
import Verif.Lemmas.EnumHdr
import Verif.Spec.HostEnable
namespace Pcie
open Spec Phys
variable {σ : Type}

/-- The function after the change. -/
def Fn.ctl (c : Ctl) : Fn σ → Fn σ
  | .ep f => .ep { f with toCommon := c.regs f.toCommon }
  | .br dsp f => .br dsp { f with toCommon := c.regs f.toCommon }

/-- The bridge after the change. -/
def Br.ctl (c : Ctl) (f : Br σ) : Br σ := { f with toCommon := c.regs f.toCommon }

theorem withCtl_br (F : PcieId → Ctl) (m d fn : Nat) (dsp : Bool) (f : Br σ) (child rest : Phys σ) :
    withCtl F m (.br d fn dsp f child rest) = .br d fn dsp (f.ctl (F ⟨m, d, fn⟩)) (withCtl F f.secBus child) (withCtl F m rest) := rfl

/-- One change is replaced. -/
def setCtl (F : PcieId → Ctl) (id : PcieId) (c : Ctl) : PcieId → Ctl := fun x => if x = id then c else F x

theorem brAt_iff {b : Phys σ} {f : Br σ} {c : Phys σ} : (f, c) ∈ brsOf b ↔ ∃ d fn, (d, fn, f, c) ∈ brAt b := by
  induction b with
  | nil => simp [brsOf, brAt]
  | ep d fn g rest ih => exact ih
  | br d fn dsp g child rest _ ih =>
    simp only [brsOf, brAt, List.mem_cons, Prod.mk.injEq, ih]
    constructor
    · rintro (⟨rfl, rfl⟩ | ⟨d', fn', h⟩)
      · exact ⟨d, fn, .inl ⟨rfl, rfl, rfl, rfl⟩⟩
      · exact ⟨d', fn', .inr h⟩
    · rintro ⟨d', fn', ⟨-, -, rfl, rfl⟩ | h⟩
      · exact .inl ⟨rfl, rfl⟩
      · exact .inr ⟨d', fn', h⟩

theorem brAt_top {b : Phys σ} {d fn : Nat} {f : Br σ} {c : Phys σ} (h : (d, fn, f, c) ∈ brAt b) : ∃ dsp, (d, fn, .br dsp f) ∈ top b := by
  induction b with
  | nil => exact nomatch h
  | ep d fn g rest ih => obtain ⟨dsp, h⟩ := ih h; exact ⟨dsp, List.mem_cons_of_mem _ h⟩
  | br d' fn' dsp g child rest _ ih =>
    rcases List.mem_cons.1 h with h | h
    · cases h; exact ⟨dsp, List.mem_cons_self⟩
    · obtain ⟨dsp, h⟩ := ih h; exact ⟨dsp, List.mem_cons_of_mem _ h⟩

theorem chain_on {m : Nat} {b : Phys σ} {id : PcieId} {as : List PcieId} (h : Chain m b id as) :
    (∃ x, On m b id.bus (id.device, id.function, x)) ∧ ∀ a ∈ as, ∃ dsp f, On m b a.bus (a.device, a.function, .br dsp f) := by
  induction h with
  | here h => exact ⟨⟨_, .here h⟩, fun a ha => nomatch ha⟩
  | deeper h _ ih =>
    obtain ⟨⟨x, h1⟩, h2⟩ := ih
    refine ⟨⟨x, .deeper (brAt_iff.2 ⟨_, _, h⟩) h1⟩, fun a ha => ?_⟩
    rcases List.mem_append.1 ha with ha | ha
    · obtain ⟨dsp, g, h3⟩ := h2 a ha
      exact ⟨dsp, g, .deeper (brAt_iff.2 ⟨_, _, h⟩) h3⟩
    · rw [List.mem_singleton.1 ha]
      obtain ⟨dsp, h3⟩ := brAt_top h
      exact ⟨dsp, _, .here h3⟩

theorem on_chain {m k : Nat} {b : Phys σ} {e : Nat × Nat × Fn σ} (h : On m b k e) : ∃ as, Chain m b ⟨k, e.1, e.2.1⟩ as := by
  induction h with
  | here h => exact ⟨[], .here h⟩
  | deeper h _ ih =>
    obtain ⟨as, ih⟩ := ih
    obtain ⟨d, fn, h⟩ := brAt_iff.1 h
    exact ⟨_, .deeper h ih⟩

/-! ### The bridges above a device -/

theorem above_none {m : Nat} {b : Phys σ} {t : Host.Tree} (h : Knows m b t) {id : PcieId} : (∀ x, ¬ On m b id.bus (id.device, id.function, x)) → t.above id = none := by
  induction h with
  | nil => intro _; rfl
  | fn h1 _ _ _ ih =>
    intro hn
    rw [Host.Tree.above, if_neg, ih fun x hx => hn x (on_ep.2 (.inr hx))]
    intro he
    rw [h1.id] at he
    subst he
    exact hn _ (on_ep.2 (.inl ⟨rfl, rfl⟩))
  | bridge h1 _ _ _ _ ihc ih =>
    intro hn
    rw [Host.Tree.above, if_neg, ihc fun x hx => hn x (on_br.2 (.inr (.inl hx)))]
    · exact ih fun x hx => hn x (on_br.2 (.inr (.inr hx)))
    intro he
    rw [h1.id] at he
    subst he
    exact hn _ (on_br.2 (.inl ⟨rfl, rfl⟩))

theorem above_chain {m : Nat} {b : Phys σ} {t : Host.Tree} (h : Knows m b t) : ∀ {last : Nat} {id : PcieId} {as : List PcieId}, m ≤ last → numbered m last b = b →
    (top b).Pairwise Before → SortedBelow b → Chain m b id as → t.above id = some as := by
  induction h with
  | nil =>
    intro last id as _ _ _ _ hc
    cases hc with
    | here h => exact nomatch h
    | deeper h _ => exact nomatch h
  | @fn m d fn f rest p t ws r h1 _ _ _ ih =>
    intro last id as hm hn hs hb hc
    have hn' := hn
    simp only [numbered, Phys.ep.injEq, true_and] at hn
    obtain ⟨hs1, hs2⟩ := List.pairwise_cons.1 hs
    have hrest : Chain m rest id as → (Host.Tree.fn p t).above id = some as := fun hr => by
      rw [Host.Tree.above, if_neg, ih hm hn hs2 hb hr]
      intro he
      rw [h1.id] at he
      subst he
      obtain ⟨⟨x, hx⟩, -⟩ := chain_on hr
      rcases on_bus hn hx with ⟨-, q⟩ | q
      · have := hs1 _ q
        simp only [Before] at this
        omega
      · simp only at q; omega
    cases hc with
    | here he =>
      rcases List.mem_cons.1 he with rfl | he
      · rw [Host.Tree.above, if_pos h1.id]
      · exact hrest (.here he)
    | deeper he hd => exact hrest (.deeper he hd)
  | @bridge m d fn dsp f child rest p tc t ws r h1 _ _ hkc _ ihc ih =>
    intro last id as hm hn hs hb hc
    simp only [numbered, Phys.br.injEq, true_and] at hn
    obtain ⟨n1, n2, n3⟩ := hn
    have hsec : f.secBus = last + 1 := congrArg Br.secBus n1.symm
    obtain ⟨hs1, hs2⟩ := List.pairwise_cons.1 hs
    have hch : ∀ {x}, On f.secBus child id.bus (id.device, id.function, x) → last < id.bus ∧ id.bus ≤ last + 1 + bridges child := fun {x} hx => by
      rw [hsec] at hx
      rcases on_bus n2 hx with q | q <;> omega
    have hrest : Chain m rest id as → (Host.Tree.bridge p tc t).above id = some as := fun hr => by
      obtain ⟨⟨x, hx⟩, -⟩ := chain_on hr
      rw [Host.Tree.above, if_neg, above_none hkc]
      · exact ih (by omega) n3 hs2 hb.2.2 hr
      · intro y hy
        have := hch hy
        rcases on_bus n3 hx with q | q <;> omega
      · intro he
        rw [h1.id] at he
        subst he
        rcases on_bus n3 hx with ⟨-, q⟩ | q
        · have := hs1 _ q
          simp only [Before] at this
          omega
        · simp only at q; omega
    cases hc with
    | here he =>
      rcases List.mem_cons.1 he with rfl | he
      · rw [Host.Tree.above, if_pos h1.id]
      · exact hrest (.here he)
    | deeper he hd =>
      rcases List.mem_cons.1 he with he | he
      · cases he
        obtain ⟨⟨x, hx⟩, -⟩ := chain_on hd
        have := hch hx
        rw [Host.Tree.above, if_neg, ihc (last := last + 1) (by omega) (by rw [hsec]; exact n2) hb.1 hb.2.1 hd, h1.id]
        intro he
        rw [h1.id] at he
        subst he
        simp only at this
        omega
      · exact hrest (.deeper he hd)

/-! ### The hierarchy with changed command registers -/

theorem withCtl_off {F : PcieId → Ctl} {id : PcieId} {c : Ctl} (b : Phys σ) : ∀ m, (∀ x, ¬ On m b id.bus (id.device, id.function, x)) →
    withCtl (setCtl F id c) m b = withCtl F m b := by
  induction b with
  | nil => intro m _; rfl
  | ep d fn f rest ih =>
    intro m hn
    have he : (⟨m, d, fn⟩ : PcieId) ≠ id := fun he => by subst he; exact hn _ (on_ep.2 (.inl ⟨rfl, rfl⟩))
    rw [withCtl, withCtl, ih m fun x hx => hn x (on_ep.2 (.inr hx)), setCtl, if_neg he]
  | br d fn dsp f child rest ihc ih =>
    intro m hn
    have he : (⟨m, d, fn⟩ : PcieId) ≠ id := fun he => by subst he; exact hn _ (on_br.2 (.inl ⟨rfl, rfl⟩))
    rw [withCtl, withCtl, ih m fun x hx => hn x (on_br.2 (.inr (.inr hx))), ihc f.secBus fun x hx => hn x (on_br.2 (.inr (.inl hx))), setCtl, if_neg he]

theorem withCtl_at {F : PcieId → Ctl} {id : PcieId} {x : Fn σ} (b : Phys σ) : ∀ {m last : Nat}, m ≤ last → numbered m last b = b →
    (top b).Pairwise Before → SortedBelow b → On m b id.bus (id.device, id.function, x) →
    (withCtl F m b).first (id.bus = m) id = some (x.ctl (F id)) ∧
    ∀ c, replaceAt (x.ctl c) (withCtl F m b) (id.bus = m) id = withCtl (setCtl F id c) m b := by
  induction b with
  | nil => intro m last _ _ _ _ h; exact (on_nil h).elim
  | ep d fn f rest ih =>
    intro m last hm hn hs hb h
    simp only [numbered, Phys.ep.injEq, true_and] at hn
    obtain ⟨hs1, hs2⟩ := List.pairwise_cons.1 hs
    by_cases he : (⟨m, d, fn⟩ : PcieId) = id
    · subst he
      have hoff : ∀ y, ¬ On m rest m (d, fn, y) := fun y hy => by
        rcases on_bus hn hy with ⟨-, q⟩ | q
        · have := hs1 _ q
          simp only [Before] at this
          omega
        · omega
      rcases on_ep.1 h with ⟨-, h⟩ | h
      · cases h
        simp only [withCtl, decide_true, first, replaceAt, and_self, if_true, Fn.ctl, true_and]
        intro c
        rw [withCtl_off rest m hoff, setCtl, if_pos rfl, Ep.replacedBy]
      · exact (hoff x h).elim
    · rcases on_ep.1 h with ⟨h1, h2⟩ | h
      · simp only [Prod.mk.injEq] at h2
        exact (he (by rw [← h1, ← h2.1, ← h2.2.1])).elim
      · obtain ⟨i1, i2⟩ := ih hm hn hs2 hb h
        have hne : ¬ (decide (id.bus = m) = true ∧ d = id.device ∧ fn = id.function) := by
          rintro ⟨q1, rfl, rfl⟩
          exact he (by rw [← of_decide_eq_true q1])
        refine ⟨by rw [withCtl, first, if_neg hne, i1], fun c => ?_⟩
        rw [withCtl, replaceAt, if_neg hne, i2, withCtl, setCtl, if_neg he]
  | br d fn dsp f child rest ihc ih =>
    intro m last hm hn hs hb h
    simp only [numbered, Phys.br.injEq, true_and] at hn
    obtain ⟨n1, n2, n3⟩ := hn
    have hsec : f.secBus = last + 1 := congrArg Br.secBus n1.symm
    have hsub : f.subBus = last + 1 + bridges child := congrArg Br.subBus n1.symm
    obtain ⟨hs1, hs2⟩ := List.pairwise_cons.1 hs
    have hch : ∀ {x}, On f.secBus child id.bus (id.device, id.function, x) → last < id.bus ∧ id.bus ≤ last + 1 + bridges child := fun {x} hx => by
      rw [hsec] at hx
      rcases on_bus n2 hx with q | q <;> omega
    have hrs : ∀ {x}, On m rest id.bus (id.device, id.function, x) → id.bus = m ∧ (id.device, id.function, x) ∈ top rest ∨ last + 1 + bridges child < id.bus :=
      fun {x} hx => by
        rcases on_bus n3 hx with q | q
        · exact .inl q
        · exact .inr q.1
    by_cases he : (⟨m, d, fn⟩ : PcieId) = id
    · subst he
      have hoff : ∀ y, ¬ On m rest m (d, fn, y) := fun y hy => by
        rcases hrs hy with ⟨-, q⟩ | q
        · have := hs1 _ q
          simp only [Before] at this
          omega
        · simp only at q; omega
      have hoffc : ∀ y, ¬ On f.secBus child m (d, fn, y) := fun y hy => by have := hch hy; simp only at this; omega
      rcases on_br.1 h with ⟨-, h⟩ | h | h
      · cases h
        simp only [withCtl, decide_true, first, replaceAt, and_self, if_true, Fn.ctl, true_and]
        intro c
        rw [withCtl_off rest m hoff, withCtl_off child _ hoffc, setCtl, if_pos rfl, Br.replacedBy]
      · exact (hoffc x h).elim
      · exact (hoff x h).elim
    · have hne : ¬ (decide (id.bus = m) = true ∧ d = id.device ∧ fn = id.function) := by
        rintro ⟨q1, rfl, rfl⟩
        exact he (by rw [← of_decide_eq_true q1])
      rcases on_br.1 h with ⟨h1, h2⟩ | h | h
      · simp only [Prod.mk.injEq] at h2
        exact (he (by rw [← h1, ← h2.1, ← h2.2.1])).elim
      · obtain ⟨r1, r2⟩ := hch h
        rw [hsec] at h
        obtain ⟨i1, i2⟩ := ihc (Nat.le_refl _) n2 hb.1 hb.2.1 h
        have hbh : ∀ g : Br σ, g.secBus = f.secBus → g.subBus = f.subBus → decide (id.bus = m) = false ∧ behind g id = true := fun g g1 g2 => by
          refine ⟨decide_eq_false (by omega), ?_⟩
          unfold behind
          rw [decide_eq_true_eq, g1, g2, hsec, hsub]
          refine ⟨by omega, r2, fun h0 => ?_⟩
          rw [h0] at r1
          exact absurd r1 (by simp)
        have hoff : ∀ y, ¬ On m rest id.bus (id.device, id.function, y) := fun y hy => by
          rcases hrs hy with q | q <;> omega
        refine ⟨?_, fun c => ?_⟩
        · rw [withCtl_br, first, if_neg hne, if_pos (hbh (f.ctl (F ⟨m, d, fn⟩)) rfl rfl), show (f.ctl (F ⟨m, d, fn⟩)).secBus = f.secBus from rfl, hsec]
          exact i1
        · rw [withCtl_br, replaceAt, if_neg hne, if_pos (hbh (f.ctl (F ⟨m, d, fn⟩)) rfl rfl), withCtl_br, withCtl_off rest m hoff, setCtl, if_neg he,
            show (f.ctl (F ⟨m, d, fn⟩)).secBus = f.secBus from rfl, hsec, i2]
      · have hnc : ∀ y, ¬ On f.secBus child id.bus (id.device, id.function, y) := fun y hy => by
          have := hch hy
          rcases hrs h with q | q <;> omega
        obtain ⟨i1, i2⟩ := ih (by omega) n3 hs2 hb.2.2 h
        have hbh : ∀ g : Br σ, g.secBus = f.secBus → g.subBus = f.subBus → ¬ (decide (id.bus = m) = false ∧ behind g id = true) := fun g g1 g2 => by
          rintro ⟨q1, q2⟩
          unfold behind at q2
          rw [decide_eq_true_eq, g1, g2, hsec, hsub] at q2
          rcases hrs h with q | q
          · exact absurd q.1 (of_decide_eq_false q1)
          · omega
        refine ⟨?_, fun c => ?_⟩
        · rw [withCtl_br, first, if_neg hne, if_neg (hbh (f.ctl (F ⟨m, d, fn⟩)) rfl rfl)]
          exact i1
        · rw [withCtl_br, replaceAt, if_neg hne, if_neg (hbh (f.ctl (F ⟨m, d, fn⟩)) rfl rfl), withCtl_br, withCtl_off child _ hnc, setCtl, if_neg he, i2]

/-! ### One function -/

section
variable {ops : CapOps σ} {tag : Tlp → Nat}

/-- The common registers change. -/
def Fn.mapCommon (g : Common σ → Common σ) : Fn σ → Fn σ
  | .ep f => .ep { f with toCommon := g f.toCommon }
  | .br dsp f => .br dsp { f with toCommon := g f.toCommon }

theorem fnWrite_cmd (x : Fn σ) (v m : Nat) : fnWrite ops x 1 v m = x.mapCommon fun f => f.writeCmd v m := by
  cases x <;> rfl

theorem fnRead_cmd (x : Fn σ) : x.read ops 1 = (common x).read ops 1 := by
  cases x <;> rfl

private theorem writeCmd3 (f : Common σ) (v : Nat) : f.writeCmd v 3 =
    { f with ioEnable := v.testBit 0, memEnable := v.testBit 1, busMaster := v.testBit 2, parityResp := v.testBit 6,
             serr := v.testBit 8, intDisable := v.testBit 10 } := by
  unfold Common.writeCmd
  have m1 : (3 : Nat) &&& 1 ≠ 0 := by decide
  have m2 : (3 : Nat) &&& 2 ≠ 0 := by decide
  have m8 : ¬ (3 : Nat) &&& 8 ≠ 0 := by decide
  simp only [if_pos m1, if_pos m2, m8, false_and, if_false, bitSet_eq]

/-- The three enable bits of the command register change. -/
def bits3 (q : Nat → Bool → Bool) (f : Common σ) : Common σ :=
  { f with ioEnable := q 0 f.ioEnable, memEnable := q 1 f.memEnable, busMaster := q 2 f.busMaster }

/-- A change of the command register by reading and writing it. -/
theorem cmd_on (id : PcieId) (g : Nat → Nat) (q : Nat → Bool → Bool) (hlt : ∀ v, v < 2 ^ 16 → g v < 2 ^ 16)
    (hg : ∀ v k, (g v).testBit k = q k (v.testBit k)) (hq : ∀ k, 3 ≤ k → ∀ b, q k b = b) (x : Fn σ) :
    ((do
      let old ← Host.readWord id (4 * 1)
      let cmd := g old
      if cmd ≠ old then Host.writeWord id (4 * 1) cmd else pure ()) : CfgProg Unit).onFn ops tag id x =
      .ok (x.mapCommon (bits3 q), ()) := by
  have hr : x.read ops 1 < 2 ^ 32 := by rw [fnRead_cmd]; exact cmd_lt ops _
  rw [CfgProg.onFn_bind, readWord_on id x hr]
  simp only
  have hv : x.read ops 1 &&& 0xffff < 2 ^ 16 := Nat.lt_of_le_of_lt Nat.and_le_right (by decide)
  rw [fnRead_cmd] at hv
  rw [fnRead_cmd]
  have hb : ∀ k < 16, ((common x).read ops 1 &&& 0xffff).testBit k = (((common x).ioEnable && decide (k = 0)) ||
      ((common x).memEnable && decide (k = 1)) ||
      ((common x).busMaster && decide (k = 2)) || ((common x).parityResp && decide (k = 6)) ||
      ((common x).serr && decide (k = 8)) || ((common x).intDisable && decide (k = 10))) := fun k hk => by
    rw [tb_ffff0, cmd_bits _ _ _ hk]; simp [hk]
  have key : bits3 q (common x) = (common x).writeCmd (g ((common x).read ops 1 &&& 0xffff)) 3 := by
    rw [writeCmd3, hg, hg, hg, hg, hg, hg, hq 6 (by omega), hq 8 (by omega), hq 10 (by omega), hb 0 (by omega), hb 1 (by omega),
      hb 2 (by omega), hb 6 (by omega), hb 8 (by omega), hb 10 (by omega)]
    simp [bits3]
  have same : x.mapCommon (bits3 q) = x.mapCommon fun f => f.writeCmd (g ((common x).read ops 1 &&& 0xffff)) 3 := by
    cases x with
    | ep f => exact congrArg (fun c => Fn.ep { f with toCommon := c }) key
    | br dsp f => exact congrArg (fun c => Fn.br dsp { f with toCommon := c }) key
  by_cases hc : g ((common x).read ops 1 &&& 0xffff) = (common x).read ops 1 &&& 0xffff
  · rw [if_neg (by simpa using hc), pure_on, same, hc]
    have : (common x).writeCmd ((common x).read ops 1 &&& 0xffff) 3 = common x := by
      rw [writeCmd3, hb 0 (by omega), hb 1 (by omega), hb 2 (by omega), hb 6 (by omega), hb 8 (by omega), hb 10 (by omega)]
      simp
    cases x with
    | ep f => exact congrArg (fun c => Except.ok (Fn.ep { f with toCommon := c }, ())) this.symm
    | br dsp f => exact congrArg (fun c => Except.ok (Fn.br dsp { f with toCommon := c }, ())) this.symm
  · rw [if_pos hc, writeWord_on id x (hlt _ hv) (by cases x <;> rfl), fnWrite_cmd, same]

theorem enableResources_on (id : PcieId) (x : Fn σ) (c : Spec.Ctl) : (Host.enableResources id).onFn ops tag id (x.ctl c) =
    .ok (x.ctl { c with decode := true }, ()) := by
  refine (cmd_on id (fun old => old ||| 1 <<< 0 ||| 1 <<< 1) (fun k b => b || decide (k < 2)) (fun v hv => ?_) (fun v k => ?_)
    (fun k hk b => ?_) _).trans ?_
  · exact Nat.or_lt_two_pow (Nat.or_lt_two_pow hv (by decide)) (by decide)
  · rw [Nat.or_assoc, Nat.testBit_or, show (1 <<< 0 ||| 1 <<< 1 : Nat) = 2 ^ 2 - 1 by decide, Nat.testBit_two_pow_sub_one]
  · simp; omega
  · cases x <;> simp [Fn.mapCommon, Fn.ctl, Br.ctl, Spec.Ctl.regs, bits3]

theorem setMaster_on (id : PcieId) (en : Bool) (s : Host.EnSt) (x : Fn σ) (c : Spec.Ctl) :
    (Host.setMaster id en s).onFn ops tag id (x.ctl c) = .ok (x.ctl { c with master := some en }, s.setMaster id en) := by
  have h := cmd_on (ops := ops) (tag := tag) id (fun old => if en then old ||| 1 <<< 2 else andNot old (1 <<< 2))
    (fun k b => if k = 2 then en else b) (fun v hv => ?_) (fun v k => ?_) (fun k hk b => ?_) (x.ctl c)
  · have fin : (x.ctl c).mapCommon (bits3 fun k b => if k = 2 then en else b) = x.ctl { c with master := some en } := by
      cases x <;> simp [Fn.mapCommon, Fn.ctl, Br.ctl, Spec.Ctl.regs, bits3]
    have hr : (x.ctl c).read ops 1 < 2 ^ 32 := by rw [fnRead_cmd]; exact cmd_lt ops _
    rw [fin] at h
    rw [CfgProg.onFn_bind, readWord_on id _ hr] at h
    rw [Host.setMaster, CfgProg.onFn_bind, readWord_on id _ hr]
    simp only at h ⊢
    generalize (if en then ((x.ctl c).read ops 1 &&& 0xffff) ||| 1 <<< 2 else andNot ((x.ctl c).read ops 1 &&& 0xffff) (1 <<< 2)) = cmd at h ⊢
    by_cases hc : cmd ≠ (x.ctl c).read ops 1 &&& 0xffff
    · rw [if_pos hc] at h ⊢
      rw [CfgProg.onFn_bind, h]
      rfl
    · rw [if_neg hc, pure_on] at h
      rw [if_neg hc, pure_on, (Prod.mk.inj (Except.ok.inj h)).1]
  · cases en with
    | true => exact Nat.or_lt_two_pow hv (by decide)
    | false => exact Nat.xor_lt_two_pow hv (Nat.lt_of_le_of_lt Nat.and_le_left hv)
  · have e4 : (1 <<< 2 : Nat) = 2 ^ 2 := by decide
    cases en with
    | true =>
      simp only [if_true, e4, Nat.testBit_or, Nat.testBit_two_pow]
      by_cases hk : k = 2 <;> simp [hk]
      omega
    | false =>
      have e : (if false = true then v ||| 1 <<< 2 else andNot v (1 <<< 2)) = andNot v (2 ^ 2) := rfl
      rw [e, andNot_testBit, Nat.testBit_two_pow]
      by_cases hk : k = 2
      · simp [hk]
      · have : ¬ 2 = k := by omega
        simp [hk, this]
  · rw [if_neg (by omega)]

end

/-! ### The calls, on the command registers -/

/-- The function with this number is there. -/
def There (b : Phys σ) (id : PcieId) : Prop := ∃ x, On 0 b id.bus (id.device, id.function, x)

/-- What the host knows, and the changes of the command registers. -/
abbrev EnW := Host.EnSt × (PcieId → Ctl)

def EnW.dec (w : EnW) (id : PcieId) : EnW := (w.1, setCtl w.2 id { w.2 id with decode := true })
def EnW.mst (w : EnW) (id : PcieId) (en : Bool) : EnW := (w.1.setMaster id en, setCtl w.2 id { w.2 id with master := some en })
def EnW.cnt (w : EnW) (id : PcieId) (v : Int) : EnW := (w.1.setCnt id v, w.2)

def enBr : List PcieId → EnW → EnW
  | [], w => w
  | b :: as, w =>
    let w := enBr as w
    if 0 < w.1.cnt b then w
    else
      let w := w.cnt b (w.1.cnt b + 1)
      let w := if 1 < w.1.cnt b then w else (enBr as w).dec b
      w.mst b true

def enDev (id : PcieId) (as : List PcieId) (w : EnW) : EnW :=
  let w := w.cnt id (w.1.cnt id + 1)
  if 1 < w.1.cnt id then w else (enBr as w).dec id

def disDev (id : PcieId) (w : EnW) : EnW :=
  let w := w.cnt id (w.1.cnt id - 1)
  if 0 < w.1.cnt id then w else w.mst id false

def enCall (A : PcieId → List PcieId) (w : EnW) : Host.Call → EnW
  | .enable id => enDev id (A id) w
  | .disable id => disDev id w
  | .setMaster id => w.mst id true
  | .clearMaster id => w.mst id false

section
variable {ops : CapOps σ} {tag : Tlp → Nat} {host : BrFn σ} {b0 : Phys σ} {S : PcieId → Prop}

/-- The hierarchy has its numbers, and the host can access all functions. -/
structure Usable (host : BrFn σ) (b : Phys σ) : Prop where
  host : CfgHost host
  numbers : numbered 0 0 b = b
  sorted : (top b).Pairwise Before
  below : SortedBelow b
  ids : ∀ id, There b id → CfgId id

theorem tr_dec (u : Usable host b0) {id : PcieId} (h : There b0 id) (w : EnW) :
    Tr ops tag host (Host.enableResources id) (withCtl w.2 0 b0) S () (withCtl (w.dec id).2 0 b0) S := by
  obtain ⟨x, hx⟩ := h
  obtain ⟨a, r⟩ := withCtl_at (F := w.2) b0 (Nat.le_refl 0) u.numbers u.sorted u.below hx
  have := (Tr.onFn (ops := ops) (tag := tag) u.host (u.ids id ⟨x, hx⟩) a (enableResources_on id x _) (S := S)).1
  rw [r] at this
  exact this

theorem tr_mst (u : Usable host b0) {id : PcieId} (h : There b0 id) (en : Bool) (w : EnW) :
    Tr ops tag host (Host.setMaster id en w.1) (withCtl w.2 0 b0) S (w.mst id en).1 (withCtl (w.mst id en).2 0 b0) S := by
  obtain ⟨x, hx⟩ := h
  obtain ⟨a, r⟩ := withCtl_at (F := w.2) b0 (Nat.le_refl 0) u.numbers u.sorted u.below hx
  have := (Tr.onFn (ops := ops) (tag := tag) u.host (u.ids id ⟨x, hx⟩) a (setMaster_on id en w.1 x _) (S := S)).1
  rw [r] at this
  exact this

theorem tr_enBr (u : Usable host b0) : ∀ (as : List PcieId) (w : EnW), (∀ a ∈ as, There b0 a) →
    Tr ops tag host (Host.enableBridge as w.1) (withCtl w.2 0 b0) S (enBr as w).1 (withCtl (enBr as w).2 0 b0) S
  | [], w, _ => Tr.pure
  | b :: as, w, h => by
    have ih := tr_enBr u as
    rw [Host.enableBridge, enBr]
    refine Tr.bind (ih w fun a ha => h a (List.mem_cons_of_mem _ ha)) ?_
    generalize enBr as w = w1
    by_cases h1 : 0 < w1.1.cnt b
    · simp only [if_pos h1]; exact Tr.pure
    · rw [if_neg h1, if_neg h1]
      by_cases h2 : 1 < (w1.1.setCnt b (w1.1.cnt b + 1)).cnt b
      · have e : (if 1 < (w1.cnt b (w1.1.cnt b + 1)).1.cnt b then w1.cnt b (w1.1.cnt b + 1) else (enBr as (w1.cnt b (w1.1.cnt b + 1))).dec b) =
          w1.cnt b (w1.1.cnt b + 1) := if_pos h2
        simp only [e, if_pos h2]
        exact tr_mst u (h b List.mem_cons_self) true (w1.cnt b (w1.1.cnt b + 1))
      · have e : (if 1 < (w1.cnt b (w1.1.cnt b + 1)).1.cnt b then w1.cnt b (w1.1.cnt b + 1) else (enBr as (w1.cnt b (w1.1.cnt b + 1))).dec b) =
          (enBr as (w1.cnt b (w1.1.cnt b + 1))).dec b := if_neg h2
        simp only [e, if_neg h2]
        exact Tr.bind (ih (w1.cnt b (w1.1.cnt b + 1)) fun a ha => h a (List.mem_cons_of_mem _ ha))
          (Tr.bind (tr_dec u (h b List.mem_cons_self) _) (tr_mst u (h b List.mem_cons_self) true ((enBr as (w1.cnt b (w1.1.cnt b + 1))).dec b)))

theorem tr_enDev (u : Usable host b0) {id : PcieId} {as : List PcieId} (w : EnW) (hi : There b0 id) (h : ∀ a ∈ as, There b0 a) :
    Tr ops tag host (Host.enableDevice id as w.1) (withCtl w.2 0 b0) S (enDev id as w).1 (withCtl (enDev id as w).2 0 b0) S := by
  unfold Host.enableDevice
  by_cases h2 : 1 < (w.1.setCnt id (w.1.cnt id + 1)).cnt id
  · have e : enDev id as w = w.cnt id (w.1.cnt id + 1) := if_pos h2
    simp only [e, if_pos h2]; exact Tr.pure
  · have e : enDev id as w = (enBr as (w.cnt id (w.1.cnt id + 1))).dec id := if_neg h2
    simp only [e, if_neg h2]
    exact Tr.bind (tr_enBr u as (w.cnt id (w.1.cnt id + 1)) h) (Tr.bind (tr_dec u hi _) Tr.pure)

theorem tr_disDev (u : Usable host b0) {id : PcieId} (w : EnW) (hi : There b0 id) :
    Tr ops tag host (Host.disableDevice id w.1) (withCtl w.2 0 b0) S (disDev id w).1 (withCtl (disDev id w).2 0 b0) S := by
  unfold Host.disableDevice
  by_cases h2 : 0 < (w.1.setCnt id (w.1.cnt id - 1)).cnt id
  · have e : disDev id w = w.cnt id (w.1.cnt id - 1) := if_pos h2
    simp only [e, if_pos h2]; exact Tr.pure
  · have e : disDev id w = (w.cnt id (w.1.cnt id - 1)).mst id false := if_neg h2
    simp only [e, if_neg h2]
    exact tr_mst u hi false (w.cnt id (w.1.cnt id - 1))

theorem tr_calls (u : Usable host b0) {t : Host.Tree} {A : PcieId → List PcieId} (hA : ∀ id, There b0 id → t.above id = some (A id) ∧ ∀ a ∈ A id, There b0 a) :
    ∀ (cs : List Host.Call) (w : EnW), (∀ c ∈ cs, There b0 (device c)) →
    Tr ops tag host (Host.calls t cs w.1) (withCtl w.2 0 b0) S (cs.foldl (enCall A) w).1 (withCtl (cs.foldl (enCall A) w).2 0 b0) S
  | [], w, _ => Tr.pure
  | c :: cs, w, h => by
    rw [Host.calls]
    refine Tr.bind (a := (enCall A w c).1) (b1 := withCtl (enCall A w c).2 0 b0) (S1 := S) ?_ (tr_calls u hA cs (enCall A w c) fun c' hc' => h c' (List.mem_cons_of_mem _ hc'))
    have hc := h c List.mem_cons_self
    cases c with
    | enable id =>
      obtain ⟨h1, h2⟩ := hA id hc
      rw [Host.call, h1]
      exact tr_enDev u w hc h2
    | disable id => exact tr_disDev u w hc
    | setMaster id => exact tr_mst u hc true w
    | clearMaster id => exact tr_mst u hc false w

end

/-! ### Invariants -/

theorem enBr_cons (b : PcieId) (as : List PcieId) (w : EnW) : enBr (b :: as) w =
    if 0 < (enBr as w).1.cnt b then enBr as w
    else (if 1 < (enBr as w).1.cnt b + 1 then (enBr as w).cnt b ((enBr as w).1.cnt b + 1)
      else (enBr as ((enBr as w).cnt b ((enBr as w).1.cnt b + 1))).dec b).mst b true := by
  rw [enBr]
  simp [EnW.cnt, Host.EnSt.setCnt]

theorem enBr_cons' (b : PcieId) (as : List PcieId) (w : EnW) : enBr (b :: as) w =
    if 0 < (enBr as w).1.cnt b then enBr as w
    else ((enBr as ((enBr as w).cnt b ((enBr as w).1.cnt b + 1))).dec b).mst b true := by
  rw [enBr_cons]
  by_cases h : 0 < (enBr as w).1.cnt b
  · rw [if_pos h, if_pos h]
  · rw [if_neg h, if_neg h, if_neg (by omega)]

theorem enDev_eq (id : PcieId) (as : List PcieId) (w : EnW) : enDev id as w =
    if 0 < w.1.cnt id then w.cnt id (w.1.cnt id + 1) else (enBr as (w.cnt id (w.1.cnt id + 1))).dec id := by
  have e : (w.cnt id (w.1.cnt id + 1)).1.cnt id = w.1.cnt id + 1 := by simp [EnW.cnt, Host.EnSt.setCnt]
  rw [enDev]
  simp only [e]
  by_cases h : 0 < w.1.cnt id
  · rw [if_pos h, if_pos (by omega)]
  · rw [if_neg h, if_neg (by omega)]

theorem disDev_eq (id : PcieId) (w : EnW) : disDev id w =
    if 0 < w.1.cnt id - 1 then w.cnt id (w.1.cnt id - 1) else (w.cnt id (w.1.cnt id - 1)).mst id false := by
  have e : (w.cnt id (w.1.cnt id - 1)).1.cnt id = w.1.cnt id - 1 := by simp [EnW.cnt, Host.EnSt.setCnt]
  rw [disDev]
  simp only [e]

section
variable (w : EnW) (id j : PcieId) (en : Bool) (v : Int)
theorem dec_cnt : (w.dec id).1.cnt j = w.1.cnt j := rfl
theorem mst_cnt : (w.mst id en).1.cnt j = w.1.cnt j := rfl
theorem cnt_cnt : (w.cnt id v).1.cnt j = if j = id then v else w.1.cnt j := rfl
theorem dec_decode : ((w.dec id).2 j).decode = true ↔ (w.2 j).decode = true ∨ j = id := by
  simp only [EnW.dec, setCtl]
  by_cases h : j = id
  · simp [h]
  · simp [h]
theorem mst_decode : ((w.mst id en).2 j).decode = (w.2 j).decode := by
  simp only [EnW.mst, setCtl]
  by_cases h : j = id
  · simp [h]
  · simp [h]
theorem dec_master : ((w.dec id).2 j).master = (w.2 j).master := by
  simp only [EnW.dec, setCtl]
  by_cases h : j = id
  · simp [h]
  · simp [h]
theorem mst_master : ((w.mst id en).2 j).master = if j = id then some en else (w.2 j).master := by
  simp only [EnW.mst, setCtl]
  by_cases h : j = id
  · simp [h]
  · simp [h]
end

/-- Other devices are not affected. -/
theorem enBr_off {j : PcieId} : ∀ (as : List PcieId) (w : EnW), j ∉ as →
    (enBr as w).1.cnt j = w.1.cnt j ∧ ((enBr as w).2 j).master = (w.2 j).master
  | [], w, _ => ⟨rfl, rfl⟩
  | b :: as, w, h => by
    have hb : j ≠ b := fun e => h (e ▸ List.mem_cons_self)
    have ih := fun w => enBr_off (j := j) as w (fun e => h (List.mem_cons_of_mem _ e))
    rw [enBr_cons']
    by_cases h1 : 0 < (enBr as w).1.cnt b
    · rw [if_pos h1]; exact ih w
    · rw [if_neg h1, mst_cnt, dec_cnt, mst_master, if_neg hb, dec_master, (ih _).1, (ih _).2, cnt_cnt, if_neg hb]
      exact ih w

theorem enBr_decode : ∀ (as : List PcieId) (w : EnW), as.Nodup → (∀ a ∈ as, 0 < w.1.cnt a → (w.2 a).decode = true) → ∀ j,
    ((enBr as w).2 j).decode = true ↔ (w.2 j).decode = true ∨ j ∈ as
  | [], w, _, _, j => by simp [enBr]
  | b :: as, w, hd, hi, j => by
    obtain ⟨hb, hd⟩ := List.nodup_cons.1 hd
    have ih := enBr_decode as w hd (fun a ha => hi a (List.mem_cons_of_mem _ ha))
    have ho := (enBr_off (j := b) as w hb).1
    rw [enBr_cons']
    by_cases h1 : 0 < (enBr as w).1.cnt b
    · rw [if_pos h1, ih, List.mem_cons]
      have := hi b List.mem_cons_self (by rwa [ho] at h1)
      constructor
      · rintro (h | h)
        · exact .inl h
        · exact .inr (.inr h)
      · rintro (h | rfl | h)
        · exact .inl h
        · exact .inl this
        · exact .inr h
    · rw [if_neg h1, mst_decode, dec_decode, enBr_decode as _ hd ?_ j]
      · show (((enBr as w).2 j).decode = true ∨ _) ∨ _ ↔ _
        rw [ih, List.mem_cons]
        constructor
        · rintro (((h | h) | h) | h)
          · exact .inl h
          · exact .inr (.inr h)
          · exact .inr (.inr h)
          · exact .inr (.inl h)
        · rintro (h | h | h)
          · exact .inl (.inl (.inl h))
          · exact .inr h
          · exact .inl (.inr h)
      · intro a ha _
        exact (ih a).2 (.inr ha)

theorem enBr_master {b : PcieId} : ∀ (as : List PcieId) (w : EnW), as.Nodup → (0 < w.1.cnt b → (w.2 b).master = some true) → b ∈ as →
    ((enBr as w).2 b).master = some true
  | a :: as, w, hd, hi, hb => by
    obtain ⟨ha, hd⟩ := List.nodup_cons.1 hd
    rw [enBr_cons']
    by_cases he : b = a
    · subst he
      have ho := enBr_off (j := b) as w ha
      by_cases h1 : 0 < (enBr as w).1.cnt b
      · rw [if_pos h1, ho.2]; exact hi (by rwa [ho.1] at h1)
      · rw [if_neg h1, mst_master, if_pos rfl]
    · have hb' : b ∈ as := (List.mem_cons.1 hb).resolve_left he
      have ih := enBr_master as w hd hi hb'
      by_cases h1 : 0 < (enBr as w).1.cnt a
      · rw [if_pos h1]; exact ih
      · rw [if_neg h1, mst_master, if_neg he, dec_master]
        exact enBr_master as _ hd (fun _ => ih) hb'

/-- `A` gives the bridges above each device. -/
structure Above (T : PcieId → Prop) (A : PcieId → List PcieId) : Prop where
  suffix : ∀ id, T id → ∀ pre b post, A id = pre ++ b :: post → A b = post
  there : ∀ id, T id → ∀ b ∈ A id, T b

namespace Above
variable {T : PcieId → Prop} {A : PcieId → List PcieId}

theorem self (h : Above T A) {id : PcieId} (hi : T id) : id ∉ A id := by
  intro hm
  obtain ⟨pre, post, e⟩ := List.append_of_mem hm
  have := congrArg List.length (h.suffix id hi pre id post e)
  rw [e] at this
  simp at this
  omega

theorem sub (h : Above T A) {id b : PcieId} (hi : T id) (hb : b ∈ A id) : ∀ j ∈ A b, j ∈ A id := by
  obtain ⟨pre, post, e⟩ := List.append_of_mem hb
  rw [h.suffix id hi pre b post e]
  intro j hj
  rw [e]
  simp [hj]

theorem nodup (h : Above T A) {id : PcieId} (hi : T id) : (A id).Nodup := by
  have key : ∀ l pre, A id = pre ++ l → l.Nodup := by
    intro l
    induction l with
    | nil => intro _ _; exact List.nodup_nil
    | cons b l ih =>
      intro pre e
      refine List.nodup_cons.2 ⟨fun hm => ?_, ih (pre ++ [b]) (by rw [e]; simp)⟩
      have h1 := h.suffix id hi pre b l e
      have h2 := h.self (h.there id hi b (by rw [e]; simp))
      rw [h1] at h2
      exact h2 hm
  exact key _ [] rfl

/-- Devices that are enabled, and the bridges above them, decode addresses. -/
def Dec (T : PcieId → Prop) (A : PcieId → List PcieId) (w : EnW) : Prop :=
  ∀ id, T id → 0 < w.1.cnt id → ∀ j, j = id ∨ j ∈ A id → (w.2 j).decode = true

theorem enDev_decode (h : Above T A) {w : EnW} (hw : Dec T A w) {id : PcieId} (hi : T id) :
    (∀ j, ((enDev id (A id) w).2 j).decode = true ↔ (w.2 j).decode = true ∨ j = id ∨ j ∈ A id) ∧ Dec T A (enDev id (A id) w) := by
  rw [enDev_eq]
  by_cases h1 : 0 < w.1.cnt id
  · rw [if_pos h1]
    have hd := hw id hi h1
    refine ⟨fun j => ⟨.inl, fun hj => hj.elim (fun h => h) (hd j)⟩, fun k hk hc j hj => ?_⟩
    rw [cnt_cnt] at hc
    by_cases he : k = id
    · subst he; exact hd j hj
    · rw [if_neg he] at hc; exact hw k hk hc j hj
  · rw [if_neg h1]
    have h2 : ∀ j, (((enBr (A id) (w.cnt id (w.1.cnt id + 1))).dec id).2 j).decode = true ↔ (w.2 j).decode = true ∨ j = id ∨ j ∈ A id := by
      intro j
      rw [dec_decode, enBr_decode _ _ (h.nodup hi)]
      · constructor
        · rintro ((h | h) | h)
          · exact .inl h
          · exact .inr (.inr h)
          · exact .inr (.inl h)
        · rintro (h | h | h)
          · exact .inl (.inl h)
          · exact .inr h
          · exact .inl (.inr h)
      · intro a ha hc
        rw [cnt_cnt, if_neg (fun e : a = id => h.self hi (e ▸ ha))] at hc
        exact hw a (h.there id hi a ha) hc a (.inl rfl)
    refine ⟨h2, fun k hk hc j hj => (h2 j).2 ?_⟩
    by_cases he : k = id
    · subst he; exact .inr hj
    by_cases hm : k ∈ A id
    · rcases hj with rfl | hj
      · exact .inr (.inr hm)
      · exact .inr (.inr (h.sub hi hm j hj))
    · rw [dec_cnt, (enBr_off _ _ hm).1, cnt_cnt, if_neg he] at hc
      exact .inl (hw k hk hc j hj)

theorem calls_decode (h : Above T A) : ∀ (cs : List Host.Call) (w : EnW), Dec T A w → (∀ c ∈ cs, T (device c)) → ∀ j,
    ((cs.foldl (enCall A) w).2 j).decode = true ↔ (w.2 j).decode = true ∨ ∃ id, Host.Call.enable id ∈ cs ∧ (j = id ∨ j ∈ A id)
  | [], w, _, _, j => by simp
  | c :: cs, w, hw, hT, j => by
    have hc := hT c List.mem_cons_self
    have key : Dec T A (enCall A w c) ∧ (((enCall A w c).2 j).decode = true ↔ (w.2 j).decode = true ∨ ∃ id, c = .enable id ∧ (j = id ∨ j ∈ A id)) := by
      have hm : ∀ id en, Dec T A (w.mst id en) := fun id en k hk h1 i h2 => by
        rw [mst_decode]; exact hw k hk h1 i h2
      cases c with
      | enable id =>
        obtain ⟨h1, h2⟩ := h.enDev_decode hw hc
        refine ⟨h2, (h1 j).trans ?_⟩
        simp [device]
      | disable id =>
        have hk : Dec T A (w.cnt id (w.1.cnt id - 1)) := fun k hk h1 i h2 => by
          refine hw k hk ?_ i h2
          rw [cnt_cnt] at h1
          by_cases he : k = id
          · rw [if_pos he] at h1; subst he; omega
          · rwa [if_neg he] at h1
        show Dec T A (disDev id w) ∧ (((disDev id w).2 j).decode = true ↔ _)
        rw [disDev_eq]
        by_cases h1 : 0 < w.1.cnt id - 1
        · rw [if_pos h1]; exact ⟨hk, by simp [EnW.cnt]⟩
        · rw [if_neg h1, mst_decode]
          exact ⟨fun k hk' h1 i h2 => by rw [mst_decode]; exact hk k hk' h1 i h2, by simp [EnW.cnt]⟩
      | setMaster id => exact ⟨hm id true, by simp [enCall, mst_decode]⟩
      | clearMaster id => exact ⟨hm id false, by simp [enCall, mst_decode]⟩
    rw [List.foldl_cons, calls_decode h cs _ key.1 (fun c' hc' => hT c' (List.mem_cons_of_mem _ hc')) j, key.2]
    constructor
    · rintro ((h | ⟨id, rfl, h⟩) | ⟨id, h1, h2⟩)
      · exact .inl h
      · exact .inr ⟨id, List.mem_cons_self, h⟩
      · exact .inr ⟨id, List.mem_cons_of_mem _ h1, h2⟩
    · rintro (h | ⟨id, h1, h2⟩)
      · exact .inl (.inl h)
      · rcases List.mem_cons.1 h1 with h1 | h1
        · exact .inl (.inr ⟨id, h1.symm, h2⟩)
        · exact .inr ⟨id, h1, h2⟩

/-- A device that is not above any other is a bus master if the calls for this device make it one. -/
theorem calls_master {e : PcieId} (he : ∀ id, T id → e ∉ A id) : ∀ (cs : List Host.Call) (w : EnW), (∀ c ∈ cs, T (device c)) →
    ((cs.foldl (enCall A) w).1.cnt e, ((cs.foldl (enCall A) w).2 e).master) = cs.foldl (masterOf e) (w.1.cnt e, (w.2 e).master)
  | [], w, _ => rfl
  | c :: cs, w, hT => by
    have hc := hT c List.mem_cons_self
    rw [List.foldl_cons, List.foldl_cons, calls_master he cs _ (fun c' hc' => hT c' (List.mem_cons_of_mem _ hc'))]
    congr 1
    cases c with
    | enable id =>
      have ho := enBr_off (A id) (w.cnt id (w.1.cnt id + 1)) (he id hc)
      show ((enDev id (A id) w).1.cnt e, ((enDev id (A id) w).2 e).master) = _
      rw [enDev_eq, masterOf, device]
      by_cases h2 : id = e
      · subst h2
        by_cases h1 : 0 < w.1.cnt id
        · rw [if_pos h1, cnt_cnt, if_pos rfl, if_neg (fun h => h rfl)]; rfl
        · rw [if_neg h1, dec_cnt, dec_master, ho.1, ho.2, cnt_cnt, if_pos rfl, if_neg (fun h => h rfl)]; rfl
      · have h2' : ¬ e = id := fun h => h2 h.symm
        rw [if_pos h2]
        by_cases h1 : 0 < w.1.cnt id
        · rw [if_pos h1, cnt_cnt, if_neg h2']; rfl
        · rw [if_neg h1, dec_cnt, dec_master, ho.1, ho.2, cnt_cnt, if_neg h2']; rfl
    | disable id =>
      show ((disDev id w).1.cnt e, ((disDev id w).2 e).master) = _
      rw [disDev_eq, masterOf, device]
      by_cases h2 : id = e
      · subst h2
        by_cases h1 : 0 < w.1.cnt id - 1
        · rw [if_pos h1, cnt_cnt, if_pos rfl, if_neg (fun h => h rfl)]
          simp only [if_pos h1]; rfl
        · rw [if_neg h1, mst_cnt, mst_master, cnt_cnt, if_pos rfl, if_pos rfl, if_neg (fun h => h rfl)]
          simp only [if_neg h1]
      · have h2' : ¬ e = id := fun h => h2 h.symm
        rw [if_pos h2]
        by_cases h1 : 0 < w.1.cnt id - 1
        · rw [if_pos h1, cnt_cnt, if_neg h2']; rfl
        · rw [if_neg h1, mst_cnt, mst_master, cnt_cnt, if_neg h2', if_neg h2']; rfl
    | setMaster id =>
      show ((w.mst id true).1.cnt e, ((w.mst id true).2 e).master) = _
      rw [mst_cnt, mst_master, masterOf, device]
      by_cases h2 : id = e
      · simp [h2]
      · have h2' : ¬ e = id := fun h => h2 h.symm
        simp [h2, h2']
    | clearMaster id =>
      show ((w.mst id false).1.cnt e, ((w.mst id false).2 e).master) = _
      rw [mst_cnt, mst_master, masterOf, device]
      by_cases h2 : id = e
      · simp [h2]
      · have h2' : ¬ e = id := fun h => h2 h.symm
        simp [h2, h2']

/-- If a device is enabled, this bridge above it is a bus master. -/
def Mst (T : PcieId → Prop) (A : PcieId → List PcieId) (b : PcieId) (w : EnW) : Prop :=
  ∀ id, T id → 0 < w.1.cnt id → b = id ∨ b ∈ A id → (w.2 b).master = some true

theorem enDev_master (h : Above T A) {b : PcieId} {w : EnW} (hT : T b) (hw : Mst T A b w) {id : PcieId} (hi : T id) (hb : b ≠ id) :
    Mst T A b (enDev id (A id) w) ∧ (b ∈ A id → ((enDev id (A id) w).2 b).master = some true) ∧
      (b ∉ A id → ((enDev id (A id) w).2 b).master = (w.2 b).master) := by
  rw [enDev_eq]
  by_cases h1 : 0 < w.1.cnt id
  · rw [if_pos h1]
    refine ⟨fun k hk hc hj => ?_, fun hm => hw id hi h1 (.inr hm), fun _ => rfl⟩
    rw [cnt_cnt] at hc
    by_cases he : k = id
    · subst he; exact hw k hi h1 hj
    · rw [if_neg he] at hc; exact hw k hk hc hj
  · rw [if_neg h1]
    have h2 : b ∈ A id → (((enBr (A id) (w.cnt id (w.1.cnt id + 1))).dec id).2 b).master = some true := fun hm => by
      rw [dec_master]
      refine enBr_master _ _ (h.nodup hi) (fun hc => ?_) hm
      rw [cnt_cnt, if_neg hb] at hc
      exact hw b hT hc (.inl rfl)
    have h3 : b ∉ A id → (((enBr (A id) (w.cnt id (w.1.cnt id + 1))).dec id).2 b).master = (w.2 b).master := fun hm => by
      rw [dec_master, (enBr_off _ _ hm).2]; rfl
    refine ⟨fun k hk hc hj => ?_, h2, h3⟩
    by_cases hm : b ∈ A id
    · exact h2 hm
    rw [h3 hm]
    by_cases he : k = id
    · subst he; exact (hj.elim hb hm).elim
    by_cases hk' : k ∈ A id
    · rcases hj with rfl | hj
      · exact (hm hk').elim
      · exact (hm (h.sub hi hk' b hj)).elim
    · rw [dec_cnt, (enBr_off _ _ hk').1, cnt_cnt, if_neg he] at hc
      exact hw k hk hc hj

theorem calls_bridge (h : Above T A) {b : PcieId} (hT : T b) : ∀ (cs : List Host.Call) (w : EnW), Mst T A b w → (∀ c ∈ cs, T (device c) ∧ device c ≠ b) →
    ((∃ id, Host.Call.enable id ∈ cs ∧ b ∈ A id) → ((cs.foldl (enCall A) w).2 b).master = some true) ∧
    ((∀ id, Host.Call.enable id ∈ cs → b ∉ A id) → ((cs.foldl (enCall A) w).2 b).master = (w.2 b).master) ∧
    ((w.2 b).master = some true → ((cs.foldl (enCall A) w).2 b).master = some true)
  | [], w, _, _ => ⟨fun ⟨_, h, _⟩ => (List.not_mem_nil h).elim, fun _ => rfl, fun h => h⟩
  | c :: cs, w, hw, hc => by
    obtain ⟨c1, c2⟩ := hc c List.mem_cons_self
    have c2' : b ≠ device c := fun e => c2 e.symm
    have key : Mst T A b (enCall A w c) ∧ ((∃ id, c = .enable id ∧ b ∈ A id) → ((enCall A w c).2 b).master = some true) ∧
        ((∀ id, c = .enable id → b ∉ A id) → ((enCall A w c).2 b).master = (w.2 b).master) := by
      have hm : ∀ (w : EnW) id en, Mst T A b w → b ≠ id → Mst T A b (w.mst id en) := fun w id en hw hn k hk h1 h2 => by
        rw [mst_master, if_neg hn]; exact hw k hk h1 h2
      cases c with
      | enable id =>
        obtain ⟨h1, h2, h3⟩ := h.enDev_master hT hw c1 c2'
        refine ⟨h1, ?_, fun hn => h3 (hn id rfl)⟩
        rintro ⟨i, hi, hb⟩
        cases hi
        exact h2 hb
      | disable id =>
        have hk : Mst T A b (w.cnt id (w.1.cnt id - 1)) := fun k hk h1 h2 => by
          refine hw k hk ?_ h2
          rw [cnt_cnt] at h1
          by_cases he : k = id
          · rw [if_pos he] at h1; subst he; omega
          · rwa [if_neg he] at h1
        show Mst T A b (disDev id w) ∧ _ ∧ (_ → ((disDev id w).2 b).master = _)
        rw [disDev_eq]
        by_cases h1 : 0 < w.1.cnt id - 1
        · rw [if_pos h1]; exact ⟨hk, (fun ⟨_, h, _⟩ => by cases h), fun _ => rfl⟩
        · rw [if_neg h1, mst_master, if_neg (show b ≠ id from c2')]
          exact ⟨hm _ _ _ hk c2', (fun ⟨_, h, _⟩ => by cases h), fun _ => rfl⟩
      | setMaster id =>
        refine ⟨hm w id true hw c2', (fun ⟨_, h, _⟩ => by cases h), fun _ => ?_⟩
        show ((w.mst id true).2 b).master = _
        rw [mst_master, if_neg (show b ≠ id from c2')]
      | clearMaster id =>
        refine ⟨hm w id false hw c2', (fun ⟨_, h, _⟩ => by cases h), fun _ => ?_⟩
        show ((w.mst id false).2 b).master = _
        rw [mst_master, if_neg (show b ≠ id from c2')]
    obtain ⟨k1, k2, k3⟩ := key
    obtain ⟨i1, i2, i3⟩ := calls_bridge h hT cs (enCall A w c) k1 (fun c' hc' => hc c' (List.mem_cons_of_mem _ hc'))
    have k4 : (w.2 b).master = some true → ((enCall A w c).2 b).master = some true := fun hb => by
      by_cases hex : ∃ id, c = .enable id ∧ b ∈ A id
      · exact k2 hex
      · rw [k3 fun id hid hm => hex ⟨id, hid, hm⟩]; exact hb
    rw [List.foldl_cons]
    refine ⟨?_, fun hn => ?_, fun hb => i3 (k4 hb)⟩
    · rintro ⟨id, hid, hb⟩
      rcases List.mem_cons.1 hid with hid | hid
      · exact i3 (k2 ⟨id, hid.symm, hb⟩)
      · exact i1 ⟨id, hid, hb⟩
    · rw [i2 fun id hid => hn id (List.mem_cons_of_mem _ hid), k3 fun id hid => hn id (hid ▸ List.mem_cons_self)]

end Above

/-- `is_busmaster` is true for the devices that the host made bus masters. -/
def Flag (w : EnW) : Prop := ∀ id, w.1.master id = decide ((w.2 id).master = some true)

theorem flag_dec {w : EnW} (h : Flag w) (id : PcieId) : Flag (w.dec id) := fun j => by
  rw [dec_master]; exact h j

theorem flag_mst {w : EnW} (h : Flag w) (id : PcieId) (en : Bool) : Flag (w.mst id en) := fun j => by
  rw [mst_master]
  show (if j = id then en else w.1.master j) = _
  by_cases he : j = id
  · rw [if_pos he, if_pos he]; cases en <;> rfl
  · rw [if_neg he, if_neg he]; exact h j

theorem flag_enBr : ∀ (as : List PcieId) {w : EnW}, Flag w → Flag (enBr as w)
  | [], _, h => h
  | b :: as, w, h => by
    rw [enBr_cons']
    have h1 := flag_enBr as h
    by_cases hc : 0 < (enBr as w).1.cnt b
    · rw [if_pos hc]; exact h1
    · rw [if_neg hc]
      exact flag_mst (flag_dec (flag_enBr as (w := (enBr as w).cnt b ((enBr as w).1.cnt b + 1)) h1) b) b true

theorem flag_calls {A : PcieId → List PcieId} : ∀ (cs : List Host.Call) {w : EnW}, Flag w → Flag (cs.foldl (enCall A) w)
  | [], _, h => h
  | c :: cs, w, h => by
    rw [List.foldl_cons]
    refine flag_calls cs ?_
    cases c with
    | enable id =>
      show Flag (enDev id (A id) w)
      rw [enDev_eq]
      by_cases hc : 0 < w.1.cnt id
      · rw [if_pos hc]; exact h
      · rw [if_neg hc]; exact flag_dec (flag_enBr (A id) (w := w.cnt id (w.1.cnt id + 1)) h) id
    | disable id =>
      show Flag (disDev id w)
      rw [disDev_eq]
      by_cases hc : 0 < w.1.cnt id - 1
      · rw [if_pos hc]; exact h
      · rw [if_neg hc]; exact flag_mst (w := w.cnt id (w.1.cnt id - 1)) h id false
    | setMaster id => exact flag_mst h id true
    | clearMaster id => exact flag_mst h id false

/-! ### After enumeration -/

theorem chain_suffix {m : Nat} {b : Phys σ} {id : PcieId} {as : List PcieId} (h : Chain m b id as) :
    ∀ pre a post, as = pre ++ a :: post → Chain m b a post := by
  induction h with
  | here h => intro pre a post e; simp at e
  | @deeper m b d fn f c id as h h' ih =>
    intro pre a post e
    rcases List.eq_nil_or_concat post with rfl | ⟨post', z, rfl⟩
    · obtain ⟨rfl, e2⟩ := List.append_inj_right' (s₁ := as) (s₂ := pre) (t₁ := [⟨m, d, fn⟩]) (t₂ := [a]) e rfl |> fun h => And.intro (List.cons.inj h).1 trivial
      obtain ⟨dsp, h3⟩ := brAt_top h
      exact .here h3
    · have e' : as ++ [⟨m, d, fn⟩] = (pre ++ a :: post') ++ [z] := by rw [e]; simp
      obtain ⟨e1, e2⟩ := List.append_inj' e' rfl
      rw [List.concat_eq_append, ← (List.cons.inj e2).1]
      exact .deeper h (ih pre a post' e1)

theorem withCtl_none (b : Phys σ) : ∀ m, withCtl (fun _ => ({} : Ctl)) m b = b := by
  have e : ∀ f : Common σ, ({} : Ctl).regs f = f := fun f => by simp [Ctl.regs]
  induction b with
  | nil => intro m; rfl
  | ep d fn f rest ih => intro m; rw [withCtl, ih, e]
  | br d fn dsp f child rest ihc ih => intro m; rw [withCtl, ih, ihc, e]

/-- The calls after enumeration, run on the hierarchy. -/
theorem calls_host (ops : CapOps σ) (tag : Tlp → Nat) {host : BrFn σ} {ports : Ports σ} {rs : List Region} (hr : AfterReset host ports rs)
    (hh : CfgHost host) (hp : CfgPorts ports) (hfill : ports.Filled) (ht : Typed ports.bus) {fuel : Nat} (hd : depth ports.bus < fuel)
    {n : Node σ} {l : Limits} (h : enumerateAll ops fuel host ports = .ok (n, l)) (hl : Fits l) :
    ∃ tree up ports' A, Node.enumerate ops tag fuel host ports = .ok (.sw up ports', tree, l) ∧ Above (There ports'.bus) A ∧
      (∀ id, There ports'.bus id → ∀ as, Chain 0 ports'.bus id as ↔ as = A id) ∧
      (∀ id f, On 0 ports'.bus id.bus (id.device, id.function, .ep f) → ∀ i, There ports'.bus i → id ∉ A i) ∧
      ∀ cs : List Host.Call, (∀ c ∈ cs, There ports'.bus (device c)) →
        ∃ ports'', (Host.calls tree cs {}).run ops tag (.sw up ports') = .ok (.sw up ports'', (cs.foldl (enCall A) ({}, fun _ => {})).1) ∧
          CfgPorts ports'' ∧ ports''.bus = withCtl (cs.foldl (enCall A) ({}, fun _ => {})).2 0 ports'.bus := by
  obtain ⟨tree, ports', b2, h1, h2, h3, h4, hn, hsk, hb, h5⟩ := enumerate_host ops tag hr hh hp hfill ht hd h
  obtain ⟨rs', h6⟩ := h5 ⟨by have := hl.2.1; omega, by have := hl.2.2; omega⟩
  have hs : (top ports'.bus).Pairwise Before := pairwise_map (skel_top hsk).symm hr.bus0.sorted
  have hsb : SortedBelow ports'.bus := skel_sorted hsk (sortedBelow_of hr.buses)
  have hkn := knows_of h4 h6
  have hch : ∀ {id as}, Chain 0 ports'.bus id as → tree.above id = some as := fun hc => above_chain hkn (Nat.le_refl 0) hn hs hsb hc
  have hA : ∀ id, There ports'.bus id → Chain 0 ports'.bus id ((tree.above id).getD []) := fun id ⟨x, hx⟩ => by
    obtain ⟨as, hc⟩ := on_chain hx
    rw [hch hc]
    exact hc
  have hthere : ∀ id, There ports'.bus id → ∀ a ∈ (tree.above id).getD [], There ports'.bus a := fun id hi a ha => by
    obtain ⟨dsp, f, h⟩ := (chain_on (hA id hi)).2 a ha
    exact ⟨_, h⟩
  have u : Usable (host.setHost l) ports'.bus := by
    refine ⟨⟨hh.root, hh.buses⟩, hn, hs, hsb, fun id ⟨x, hx⟩ => ?_⟩
    rcases on_bus hn hx with ⟨k1, k2⟩ | ⟨k1, k2⟩
    · refine ⟨by omega, fun e => ?_⟩
      have h1 : (id.device, id.function) ∈ (top ports.bus).map (fun e => (e.1, e.2.1)) := by
        rw [← skel_top hsk]; exact List.mem_map_of_mem (f := fun e : Nat × Nat × Fn σ => (e.1, e.2.1)) k2
      obtain ⟨e', he', h2⟩ := List.mem_map.1 h1
      simp only [Prod.mk.injEq] at h2
      exact hr.bus0.host rfl e' he' (by rw [h2.1, e])
    · refine ⟨by omega, fun e => ?_⟩
      rw [e] at k1
      exact absurd k1 (by decide)
  refine ⟨tree, host.setHost l, ports', fun id => (tree.above id).getD [], by rw [h1, h2], ⟨fun id hi pre a post e => ?_, hthere⟩, fun id hi as => ⟨fun hc => ?_, fun e => ?_⟩,
    fun id f hx i hi hm => ?_, fun cs hcs => ?_⟩
  · have := hch (chain_suffix (hA id hi) pre a post e)
    show (tree.above a).getD [] = post
    rw [this]; rfl
  · show as = (tree.above id).getD []
    rw [hch hc]; rfl
  · rw [e]; exact hA id hi
  · obtain ⟨dsp, g, h⟩ := (chain_on (hA i hi)).2 id hm
    have := on_unique (Nat.le_refl 0) hn hs hsb hx h rfl rfl
    cases this
  · have h0 : withCtl (fun _ => ({} : Ctl)) 0 ports'.bus = ports'.bus := withCtl_none _ _
    have := tr_calls (ops := ops) (tag := tag) (S := fun _ => False) u (t := tree) (A := fun id => (tree.above id).getD []) (fun id hi => ⟨hch (hA id hi), hthere id hi⟩) cs ({}, fun _ => {}) hcs
    obtain ⟨ports'', r1, r2, r3, r4, -⟩ := this ports' h3 h0.symm (fun _ h => h.elim)
    exact ⟨ports'', r1, r2, r4⟩

end Pcie
