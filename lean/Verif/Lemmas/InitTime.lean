import Verif.Lemmas.FcTimeRun
import Verif.Spec.InitTime
/-
Flow-control initialisation in bounded time: the argument, on the part of the state that matters.
-/
namespace Pcie
open Spec
namespace InitTime
open FcTime (wl)

/-- The part of the state that matters for the initialisation of `a` by the DLLPs from `b`. -/
structure IObs where
  now : Nat
  sent : List (Pkt × Nat)
  gotn : Nat
  wl : List (Pkt × Nat)
  ser : Option (Pkt × Nat)
  ty : FcType
  bf1 : Bool
  bf2 : Bool
  af : FcType → Bool
  af1 : Bool
  af2 : Bool

def iobs (cfg : ClockCfg) (c : ClockLink) : IObs :=
  { now := c.l.now, sent := c.l.ba.sent, gotn := c.l.ba.got.length, wl := wl cfg.delay c.l.ba, ser := c.l.ba.ser,
    ty := c.l.b.fcInitType, bf1 := c.l.b.fc.fi1, bf2 := c.l.b.fc.fi2, af := c.l.a.fc.cap, af1 := c.l.a.fc.fi1, af2 := c.l.a.fc.fi2 }

/-- An InitFC DLLP of credit type `ty`. -/
def IsInit (ty : FcType) (x : Dllp) : Prop := x.type = init1Type ty ∨ x.type = init2Type ty

def IObs.push (cfg : ClockCfg) (o : IObs) (p : Pkt) : IObs :=
  { o with sent := o.sent ++ [(p, o.now)], wl := o.wl ++ [(p, o.now + cfg.dur p + cfg.delay)], ser := some (p, o.now + cfg.dur p) }

/-- What one event changes. -/
inductive ITr (cfg : ClockCfg) (o o' : IObs) : Prop
  | quiet (h : o' = o)
  | bf (b1 b2 : Bool) (hb : o.bf1 = true → b1 = true) (h : o' = { o with bf1 := b1, bf2 := b2 })
  | pass (p : Pkt) (hs : o.ser = some (p, o.now)) (h : o' = { o with ser := none })
  | init (e : Dllp) (he : IsInit o.ty e) (h2 : isFi2 e ↔ o.bf1 = true) (h0 : o.ser = none) (h : o' = { o.push cfg (.dllp e) with ty := Port.nextType o.ty })
  | other (p : Pkt) (h1 : o.af1 = true) (h2 : o.af2 = true ∨ o.bf2 = true) (h0 : o.ser = none) (h : o' = o.push cfg p)
  | recv (p : Pkt) (s : Nat) (wl' : List (Pkt × Nat)) (af : FcType → Bool) (af1 af2 : Bool) (hw : o.wl = (p, o.now) :: wl') (hp : o.sent[o.gotn]? = some (p, s))
      (hs : s + cfg.dur p + cfg.delay = o.now)
      (hm : (∀ y, o.af y = true → af y = true) ∧ (o.af1 = true → af1 = true) ∧ (o.af2 = true → af2 = true))
      (hi : ∀ x ty, p = .dllp x → IsInit ty x → o.af1 = false → (∀ y, af y = (decide (y = ty) || o.af y)) ∧ af1 = (af .P && af .NP && af .CPL))
      (h2 : ∀ x, p = .dllp x → isFi2 x → o.af1 = true → af2 = true) (h3 : af2 = true → o.af2 = true ∨ ∃ x, p = .dllp x ∧ isFi2 x)
      (h : o' = { o with wl := wl', gotn := o.gotn + 1, af := af, af1 := af1, af2 := af2 })
  | adv (t : Nat) (ht : o.now ≤ t) (hr : o.now < t → o.ser = .none → o.af1 = true ∧ o.bf2 = true) (hser : ∀ p s, o.ser = some (p, s) → t ≤ s)
      (h : o' = { o with now := t })

/-- The time at which the wire is free. -/
def free (o : IObs) : Nat := (o.ser.map (·.2)).getD o.now

/-- The order in which the credit types are sent. -/
def tyOf : Nat → FcType
  | 0 => .P
  | 1 => .NP
  | _ => .CPL

structure IInv (cfg : ClockCfg) (t0 d : Nat) (o : IObs) : Prop where
  s1 : ∀ k e, k < 3 → o.sent[k]? = some e → (∃ x, e.1 = .dllp x ∧ IsInit (tyOf k) x) ∧ e.2 = t0 + k * d
  s2 : o.sent.length < 3 → o.ty = tyOf o.sent.length
  s3 : o.sent.length < 3 → free o = t0 + o.sent.length * d
  s4 : ∀ k, k < 3 → o.af (tyOf k) = decide (k < o.gotn)
  s5 : o.af1 = (o.af .P && o.af .NP && o.af .CPL)
  s6 : o.gotn ≤ o.sent.length
  s7 : ∀ p s, o.ser = some (p, s) → o.now ≤ s ∧ s ≤ o.now + cfg.dur p
  s8 : ∀ e s, (Pkt.dllp e, s) ∈ o.wl → isFi2 e → t0 + initEarliest cfg d ≤ s
  s9 : o.af2 = true → t0 + initEarliest cfg d ≤ o.now
  s10 : o.af1 = true → t0 + exchangeTime cfg d ≤ o.now
  s11 : ∀ t s, o.ser = some (.tlp t, s) → t0 + initEarliest cfg d ≤ o.now

theorem IInv.af1 {cfg : ClockCfg} {t0 d : Nat} {o : IObs} (h : IInv cfg t0 d o) : o.af1 = decide (3 ≤ o.gotn) := by
  have k0 : o.af .P = decide (0 < o.gotn) := h.s4 0 (by decide)
  have k1 : o.af .NP = decide (1 < o.gotn) := h.s4 1 (by decide)
  have k2 : o.af .CPL = decide (2 < o.gotn) := h.s4 2 (by decide)
  rw [h.s5, k0, k1, k2, Bool.eq_iff_iff]
  simp only [Bool.and_eq_true, decide_eq_true_eq]
  omega

theorem IInv.early {cfg : ClockCfg} {t0 d : Nat} {o : IObs} (h : IInv cfg t0 d o) (hn : o.sent.length < 3) : o.af1 = false := by
  have := h.s6
  rw [h.af1]; exact decide_eq_false (by omega)

theorem IInv.now_free {cfg : ClockCfg} {t0 d : Nat} {o : IObs} (h : IInv cfg t0 d o) : o.now ≤ free o := by
  unfold free
  cases hs : o.ser with
  | none => exact Nat.le_refl _
  | some e => exact (h.s7 e.1 e.2 hs).1

theorem mem_push {cfg : ClockCfg} {o : IObs} {p q : Pkt} {s : Nat} (h : (q, s) ∈ o.wl ++ [(p, o.now + cfg.dur p + cfg.delay)]) :
    (q, s) ∈ o.wl ∨ (q = p ∧ s = o.now + cfg.dur p + cfg.delay) := by
  rcases List.mem_append.mp h with h | h
  · exact .inl h
  · rw [List.mem_singleton] at h
    cases h; exact .inr ⟨rfl, rfl⟩

theorem IInv.step {cfg : ClockCfg} {t0 d : Nat} {o o' : IObs} (h : IInv cfg t0 d o) (ht : ITr cfg o o') (hd : ∀ e, cfg.dur (.dllp e) = d)
    (h6 : o.af2 = true → o.af1 = true) (hb1 : o.bf1 = true → t0 + exchangeTime cfg d ≤ o.now) (hb2 : o.bf2 = true → t0 + initEarliest cfg d ≤ o.now) : IInv cfg t0 d o' := by
  cases ht with
  | quiet h' => subst h'; exact h
  | bf b1 b2 hb h' => subst h'; exact ⟨h.s1, h.s2, h.s3, h.s4, h.s5, h.s6, h.s7, h.s8, h.s9, h.s10, h.s11⟩
  | pass p hs h' =>
    subst h'
    refine ⟨h.s1, h.s2, fun hx => ?_, h.s4, h.s5, h.s6, nofun, h.s8, h.s9, h.s10, nofun⟩
    have := h.s3 hx
    unfold free at this ⊢
    rw [hs] at this
    exact this
  | init e he h2 h0 h' =>
    subst h'
    have hl : (o.sent ++ [(Pkt.dllp e, o.now)]).length = o.sent.length + 1 := by simp
    have hf : free o = o.now := by unfold free; rw [h0]; rfl
    refine ⟨fun k x hk hx => ?_, fun hx => ?_, fun hx => ?_, h.s4, h.s5, ?_, fun q s hs => ?_, fun q s hq hi => ?_, h.s9, h.s10, nofun⟩
    · have hx : (o.sent ++ [(Pkt.dllp e, o.now)])[k]? = some x := hx
      rcases Nat.lt_or_ge k o.sent.length with hlt | hge
      · rw [List.getElem?_append_left hlt] at hx
        exact h.s1 k x hk hx
      · rw [List.getElem?_append_right hge] at hx
        have hk0 : k = o.sent.length := by
          have := (List.getElem?_eq_some_iff.mp hx).1
          simp only [List.length_singleton] at this
          omega
        subst hk0
        simp only [Nat.sub_self, List.getElem?_cons_zero, Option.some.injEq] at hx
        subst hx
        have h3 := h.s3 hk
        rw [hf] at h3
        rw [h.s2 hk] at he
        exact ⟨⟨e, rfl, he⟩, h3⟩
    · have hx : (o.sent ++ [(Pkt.dllp e, o.now)]).length < 3 := hx
      have e2 := h.s2 (by omega)
      show Port.nextType o.ty = tyOf (o.sent ++ [(Pkt.dllp e, o.now)]).length
      rw [hl, e2]
      rw [hl] at hx
      match o.sent.length, hx with
      | 0, _ => rfl
      | 1, _ => rfl
      | n + 2, hx => omega
    · have hx : (o.sent ++ [(Pkt.dllp e, o.now)]).length < 3 := hx
      have h3 := h.s3 (by omega)
      show o.now + cfg.dur (.dllp e) = t0 + (o.sent ++ [(Pkt.dllp e, o.now)]).length * d
      rw [hl, Nat.succ_mul, hd]
      omega
    · have := h.s6
      show o.gotn ≤ (o.sent ++ [(Pkt.dllp e, o.now)]).length
      omega
    · have hs : some (Pkt.dllp e, o.now + cfg.dur (.dllp e)) = some (q, s) := hs
      cases hs
      exact ⟨Nat.le_add_right _ _, Nat.le_refl _⟩
    · rcases mem_push hq with hq | ⟨hq1, hq2⟩
      · exact h.s8 q s hq hi
      · cases hq1
        have := hb1 (h2.mp hi)
        rw [hd] at hq2
        unfold initEarliest
        unfold exchangeTime at this
        omega
  | other p h1 h2 h0 h' =>
    subst h'
    have hn : 3 ≤ o.sent.length := Nat.le_of_not_lt fun hn => by rw [h.early hn] at h1; cases h1
    have hl : (o.sent ++ [(p, o.now)]).length = o.sent.length + 1 := by simp
    have hlate : t0 + initEarliest cfg d ≤ o.now := h2.elim h.s9 hb2
    refine ⟨fun k e hk he => ?_, fun hx => ?_, fun hx => ?_, h.s4, h.s5, ?_, fun q s hs => ?_, fun q s hq hi => ?_, h.s9, h.s10, fun _ _ _ => hlate⟩
    · have he : (o.sent ++ [(p, o.now)])[k]? = some e := he
      rw [List.getElem?_append_left (by omega)] at he
      exact h.s1 k e hk he
    · have hx : (o.sent ++ [(p, o.now)]).length < 3 := hx
      omega
    · have hx : (o.sent ++ [(p, o.now)]).length < 3 := hx
      omega
    · have := h.s6
      show o.gotn ≤ (o.sent ++ [(p, o.now)]).length
      omega
    · have hs : some (p, o.now + cfg.dur p) = some (q, s) := hs
      cases hs
      exact ⟨Nat.le_add_right _ _, Nat.le_refl _⟩
    · rcases mem_push hq with hq | ⟨hq1, hq2⟩
      · exact h.s8 q s hq hi
      · omega
  | recv p s wl' af af1 af2 hw hp hs hm hi h2 h3 h' =>
    subst h'
    have hgl : o.gotn < o.sent.length := (List.getElem?_eq_some_iff.mp hp).1
    have key : (∀ k, k < 3 → af (tyOf k) = decide (k < o.gotn + 1)) ∧ af1 = (af .P && af .NP && af .CPL) ∧ (af1 = true → t0 + exchangeTime cfg d ≤ o.now) := by
      rcases Nat.lt_or_ge o.gotn 3 with hlt | hge
      · obtain ⟨⟨y, hy1, hy2⟩, hy3⟩ := h.s1 _ _ hlt hp
        have hy1 : p = .dllp y := hy1
        have hy3 : s = t0 + o.gotn * d := hy3
        have ha1 : o.af1 = false := by rw [h.af1]; exact decide_eq_false (by omega)
        obtain ⟨g1, g2⟩ := hi y _ hy1 hy2 ha1
        have g3 : ∀ k, k < 3 → af (tyOf k) = decide (k < o.gotn + 1) := by
          intro k hk
          rw [g1, h.s4 k hk, Bool.eq_iff_iff]
          simp only [Bool.or_eq_true, decide_eq_true_eq]
          have inj : ∀ a, a < 3 → ∀ b, b < 3 → (tyOf a = tyOf b ↔ a = b) := by decide
          rw [inj k hk o.gotn hlt]
          omega
        refine ⟨g3, g2, fun hf => ?_⟩
        rw [hf] at g2
        have hc : af (tyOf 2) = true := (Bool.and_eq_true _ _ ▸ g2.symm).2
        rw [g3 2 (by decide), decide_eq_true_eq] at hc
        have : o.gotn = 2 := by omega
        rw [this] at hy3
        rw [hy1, hd] at hs
        unfold exchangeTime
        omega
      · have ha1 : o.af1 = true := by rw [h.af1]; exact decide_eq_true hge
        have hall : ∀ k, k < 3 → af (tyOf k) = true := fun k hk => hm.1 _ (by rw [h.s4 k hk]; exact decide_eq_true (by omega))
        refine ⟨fun k hk => by rw [hall k hk]; exact (decide_eq_true (by omega)).symm, ?_, fun _ => h.s10 ha1⟩
        rw [hm.2.1 ha1, show af .P = true from hall 0 (by decide), show af .NP = true from hall 1 (by decide), show af .CPL = true from hall 2 (by decide)]
        rfl
    refine ⟨h.s1, h.s2, h.s3, key.1, key.2.1, hgl, h.s7, fun q s' hq hi => h.s8 q s' (by rw [hw]; exact List.mem_cons_of_mem _ hq) hi, fun hf => ?_, key.2.2, h.s11⟩
    rcases h3 hf with hf | ⟨x, hx1, hx2⟩
    · exact h.s9 hf
    · exact h.s8 x o.now (by rw [hw, hx1]; exact List.mem_cons_self) hx2
  | adv t ht hr hser h' =>
    subst h'
    have h7 : ∀ p s, o.ser = some (p, s) → t ≤ s ∧ s ≤ t + cfg.dur p := fun p s hs => ⟨hser p s hs, by have := (h.s7 p s hs).2; omega⟩
    refine ⟨h.s1, h.s2, fun hx => ?_, h.s4, h.s5, h.s6, h7, h.s8, fun hf => Nat.le_trans (h.s9 hf) ht, fun hf => Nat.le_trans (h.s10 hf) ht,
      fun x s hs => Nat.le_trans (h.s11 x s hs) ht⟩
    have h3 := h.s3 hx
    unfold free at h3 ⊢
    cases hs : o.ser with
    | some e => rw [hs] at h3; exact h3
    | none =>
      rw [hs] at h3
      have h3 : o.now = t0 + o.sent.length * d := h3
      show t = t0 + o.sent.length * d
      rcases Nat.lt_or_ge o.now t with hlt | hge
      · have := (hr hlt hs).1
        rw [h.early hx] at this; cases this
      · omega

/-- The first exchange is over in time. `hw`: what has not arrived is on the wire. -/
theorem IInv.late {cfg : ClockCfg} {t0 d : Nat} {o : IObs} (h : IInv cfg t0 d o) (hd : ∀ e, cfg.dur (.dllp e) = d)
    (hw : ∀ k e, o.sent[k]? = some e → o.gotn ≤ k → (e.1, e.2 + cfg.dur e.1 + cfg.delay) ∈ o.wl) (hn : ∀ e ∈ o.wl, o.now ≤ e.2) (ha : o.af1 = false) :
    o.now ≤ t0 + exchangeTime cfg d := by
  unfold exchangeTime
  rw [h.af1, decide_eq_false_iff_not] at ha
  rcases Nat.lt_or_ge o.sent.length 3 with hlt | hge
  · have h3 := h.s3 hlt
    have hm : o.sent.length * d ≤ 3 * d := Nat.mul_le_mul_right _ (by omega)
    have := h.now_free
    omega
  · have hlt : o.gotn < o.sent.length := by omega
    have hx := List.getElem?_eq_getElem hlt
    obtain ⟨⟨x, hx1, -⟩, hx2⟩ := h.s1 _ _ (by omega) hx
    have := hn _ (hw _ _ hx (Nat.le_refl _))
    have hdx := hd x
    rw [hx1] at this
    simp only at this
    have hm : o.gotn * d + d ≤ 3 * d := by rw [← Nat.succ_mul]; exact Nat.mul_le_mul_right _ (by omega)
    omega

/-- The way of the DLLP that completes the initialisation of `a`. -/
inductive Way (cfg : ClockCfg) (t0 d : Nat) (o : IObs) : Prop
  | zero (h : (o.af1 && o.bf1) = false)
  | done (h : o.af2 = true)
  | wire (e : Dllp) (s : Nat) (h1 : (.dllp e, s) ∈ o.wl) (h2 : isFi2 e) (h3 : o.af1 = true) (h4 : s ≤ t0 + initLatest cfg d)
  | due (h1 : o.af1 = true) (h2 : o.bf1 = true) (h4 : free o ≤ t0 + exchangeTime cfg d + d)

theorem Way.step {cfg : ClockCfg} {t0 d : Nat} {o o' : IObs} (h : IInv cfg t0 d o) (hy : Way cfg t0 d o) (ht : ITr cfg o o') (hdel : 0 < cfg.delay)
    (hz : (o.af1 && o.bf1) = false → o.now ≤ t0 + exchangeTime cfg d) (hd : ∀ e, cfg.dur (.dllp e) = d) (hb2 : o.bf2 = true → t0 + initEarliest cfg d ≤ o.now) :
    Way cfg t0 d o' := by
  -- both ports have just finished the first exchange
  have enter : ∀ o'' : IObs, o''.now = o.now → o''.ser = o.ser → (o.af1 && o.bf1) = false → Way cfg t0 d o'' := by
    intro o'' e1 e2 hzero
    cases hb : (o''.af1 && o''.bf1) with
    | false => exact .zero hb
    | true =>
      simp only [Bool.and_eq_true] at hb
      have hn := hz hzero
      refine .due hb.1 hb.2 ?_
      unfold free
      rw [e1, e2]
      cases hs : o.ser with
      | none => exact Nat.le_trans hn (Nat.le_add_right _ _)
      | some e =>
        obtain ⟨p, s⟩ := e
        have h7 := (h.s7 p s hs).2
        cases p with
        | tlp t =>
          have := h.s11 t s hs
          unfold initEarliest at this
          unfold exchangeTime at hn
          omega
        | dllp x =>
          rw [hd] at h7
          show s ≤ _
          omega
  cases hy with
  | zero hy =>
    cases ht with
    | quiet h' => subst h'; exact .zero hy
    | bf b1 b2 hb h' => subst h'; exact enter _ rfl rfl hy
    | pass p hs h' => subst h'; exact .zero hy
    | init e he h2 h0 h' => subst h'; exact .zero hy
    | other p h1 h2 h0 h' => subst h'; exact .zero hy
    | recv p s wl' af af1 af2 hw hp hs hm hi h2 h3 h' => subst h'; exact enter _ rfl rfl hy
    | adv t ht hr hser h' => subst h'; exact .zero hy
  | done hy =>
    cases ht with
    | quiet h' => subst h'; exact .done hy
    | bf b1 b2 hb h' => subst h'; exact .done hy
    | pass p hs h' => subst h'; exact .done hy
    | init e he h2 h0 h' => subst h'; exact .done hy
    | other p h1 h2 h0 h' => subst h'; exact .done hy
    | recv p s wl' af af1 af2 hw hp hs hm hi h2 h3 h' => subst h'; exact .done (hm.2.2 hy)
    | adv t ht hr hser h' => subst h'; exact .done hy
  | wire e s q1 q2 q3 q4 =>
    cases ht with
    | quiet h' => subst h'; exact .wire e s q1 q2 q3 q4
    | bf b1 b2 hb h' => subst h'; exact .wire e s q1 q2 q3 q4
    | pass p hs h' => subst h'; exact .wire e s q1 q2 q3 q4
    | init e' he h2 h0 h' => subst h'; exact .wire e s (List.mem_append_left _ q1) q2 q3 q4
    | other p h1 h2 h0 h' => subst h'; exact .wire e s (List.mem_append_left _ q1) q2 q3 q4
    | recv p s' wl' af af1 af2 hw hp hs hm hi h2 h3 h' =>
      subst h'
      rw [hw] at q1
      rcases List.mem_cons.mp q1 with q1 | q1
      · obtain ⟨q5, -⟩ := Prod.mk.inj q1
        exact .done (h2 e q5.symm q2 q3)
      · exact .wire e s q1 q2 (hm.2.1 q3) q4
    | adv t ht hr hser h' => subst h'; exact .wire e s q1 q2 q3 q4
  | due q1 q2 q4 =>
    have hn : o.now ≤ t0 + exchangeTime cfg d + d := Nat.le_trans h.now_free q4
    have early : ¬ (t0 + initEarliest cfg d ≤ o.now) := by
      unfold initEarliest
      unfold exchangeTime at hn
      omega
    cases ht with
    | quiet h' => subst h'; exact .due q1 q2 q4
    | bf b1 b2 hb h' => subst h'; exact .due q1 (hb q2) q4
    | pass p hs h' => subst h'; exact .due q1 q2 hn
    | init e he h2 h0 h' =>
      subst h'
      refine .wire e _ (List.mem_append_right _ List.mem_cons_self) (h2.mpr q2) q1 ?_
      rw [hd]
      unfold initLatest
      unfold exchangeTime at hn
      omega
    | other p h1 h2 h0 h' => exact (early (h2.elim h.s9 hb2)).elim
    | recv p s wl' af af1 af2 hw hp hs hm hi h2 h3 h' => subst h'; exact .due (hm.2.1 q1) q2 q4
    | adv t ht hr hser h' =>
      subst h'
      rcases Nat.lt_or_ge o.now t with hlt | hge
      · cases hs : o.ser with
        | none => exact (early (hb2 (hr hlt hs).2)).elim
        | some e =>
          refine .due q1 q2 ?_
          unfold free at q4 ⊢
          rw [hs] at q4
          exact q4
      · have : t = o.now := by omega
        subst this
        exact .due q1 q2 q4

/-- In the end `a` is initialised. -/
theorem Way.over {cfg : ClockCfg} {t0 d : Nat} {o : IObs} (h : IInv cfg t0 d o) (hy : Way cfg t0 d o) (hn : ∀ e ∈ o.wl, o.now ≤ e.2)
    (hz : (o.af1 && o.bf1) = false → o.now ≤ t0 + exchangeTime cfg d) (ht : t0 + initLatest cfg d < o.now) : o.af2 = true := by
  unfold initLatest at ht
  unfold exchangeTime at hz
  cases hy with
  | zero hy => have := hz hy; omega
  | done hy => exact hy
  | wire e s q1 q2 q3 q4 =>
    have := hn _ q1
    unfold initLatest at q4
    simp only at this; omega
  | due q1 q2 q4 =>
    have := h.now_free
    unfold exchangeTime at q4
    omega

end InitTime
end Pcie
