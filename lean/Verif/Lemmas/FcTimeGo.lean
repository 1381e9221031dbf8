import Verif.Lemmas.FcTimeRun
/-
Simulated time passes: at each time only finitely many things have to happen.
-/
namespace Pcie
open Spec
namespace FcTime

/-- Packets on a wire whose timers expire now. -/
def dueW (now : Nat) (w : Wire Pkt) : Nat := (if w.ser.map (·.2) = some now then 1 else 0) + (if w.fly.head?.map (·.2) = some now then 1 else 0)
/-- Timers of a port that expire now. -/
def dueT (now : Nat) (t : Timers) : Nat := (if t.ackAt = some now then 1 else 0) + (if t.fcAt = some now then 1 else 0) + (if t.idleAt = now then 1 else 0)
/-- A transmitter with work to do. -/
def rdy (p : Port) (w : Wire Pkt) : Nat := if ready p w = true then 1 else 0
/-- A bound for what has to happen now. -/
def todo (c : ClockLink) : Nat :=
  2 * (dueW c.l.now c.l.ab + dueW c.l.now c.l.ba + dueT c.l.now c.ta + dueT c.l.now c.tb) + rdy c.l.a c.l.ab + rdy c.l.b c.l.ba

theorem todo_swap (c : ClockLink) : todo c.swap = todo c := by
  simp only [todo, ClockLink.swap, TimedLink.swap]; omega

theorem rdy_le (p : Port) (w : Wire Pkt) : rdy p w ≤ 1 := by unfold rdy; split <;> omega

theorem todo_le (c : ClockLink) : todo c ≤ 22 := by
  have h1 := rdy_le c.l.a c.l.ab
  have h2 := rdy_le c.l.b c.l.ba
  have h3 : ∀ n w, dueW n w ≤ 2 := by intro n w; unfold dueW; split <;> split <;> omega
  have h4 : ∀ n w, dueT n w ≤ 3 := by intro n w; unfold dueT; split <;> split <;> split <;> omega
  have := h3 c.l.now c.l.ab
  have := h3 c.l.now c.l.ba
  have := h4 c.l.now c.ta
  have := h4 c.l.now c.tb
  unfold todo; omega

structure Go (cfg : ClockCfg) (c : ClockLink) : Prop where
  ok : Ok cfg c
  wa : c.ta.waits c.l.now = true
  wb : c.tb.waits c.l.now = true

theorem Go.swap {cfg : ClockCfg} {c : ClockLink} (h : Go cfg c) : Go cfg c.swap :=
  ⟨⟨h.ok.t.swap, h.ok.l.swap⟩, h.wb, h.wa⟩

theorem waits_iff {t : Nat} {x : Timers} : x.waits t = true ↔ (∀ s, x.ackAt = some s → t ≤ s) ∧ (∀ s, x.fcAt = some s → t ≤ s) ∧ t ≤ x.idleAt := by
  obtain ⟨a, f, i⟩ := x
  cases a <;> cases f <;> simp [Timers.waits, and_assoc]

/-- No event raises an exception. -/
theorem Ok.stepA {cfg : ClockCfg} {c : ClockLink} {e : ClockAct} {r : Py ClockLink} (hdur : ∀ p, 0 < cfg.dur p) (hdel : 0 < cfg.delay) (h : Ok cfg c)
    (hs : c.stepA cfg e = some r) : ∃ c', r = .ok c' ∧ Ok cfg c' := by
  obtain ⟨e', he⟩ := stepA_timed hs
  obtain ⟨⟨es, h1, -⟩, h2⟩ := TimedLink.stepA_ok hdur hdel h.t he
  obtain ⟨l', g1, g2⟩ := h.l.run cfg.steps es
  cases r with
  | error x => rw [g1] at h1; cases h1
  | ok c' =>
    rw [g1] at h1
    have h1 : Except.ok l' = Except.ok (untimed c'.l) := h1
    injection h1 with h1
    subst h1
    exact ⟨c', rfl, h2 _ rfl, g2⟩

/-- Transmitting nothing means that there was nothing to do any more. -/
theorem transmit_none {p q : Port} {now steps : Nat} (h : p.transmit now steps = (q, none)) (w : Wire Pkt) : ready q w = false := by
  have ht : ∀ x : Port, x.fcInitialized = true → x.sendAck = false → x.sendFc = false → x.transmitTlp = (q, none) → ready q w = false := by
    intro x h1 h2 h3 hx
    unfold Port.transmitTlp at hx
    split at hx
    · next hq =>
      cases hx
      simp [ready, h1, h2, h3, hq]
    · cases hx
  unfold Port.transmit at h
  split at h
  · cases h
  · next ha =>
    simp only [Bool.not_eq_true] at ha
    split at h
    · split at h
      · cases h
      · split at h
        · cases h
        · next hi =>
          simp only [Bool.not_eq_true, Bool.not_eq_false] at hi
          exact ht { p with sendFc := false } hi ha rfl h
    · next hs =>
      simp only [not_or, not_and, Bool.not_eq_true] at hs
      unfold Port.transmitTlp at h
      split at h
      · next hq =>
        cases h
        have : p.fcInitialized = true := by
          cases hi : p.fcInitialized with
          | true => rfl
          | false => exact absurd hq (hs.2 (by simp [hi]))
        simp [ready, this, ha, hs.1, hq]
      · cases h

/-- Something that has to happen at `a` happens. -/
theorem goA {cfg : ClockCfg} {c : ClockLink} (hdur : ∀ p, 0 < cfg.dur p) (hdel : 0 < cfg.delay) (h : Go cfg c)
    (hd : 0 < 2 * (dueW c.l.now c.l.ab + dueT c.l.now c.ta) + rdy c.l.a c.l.ab) :
    ∃ e c', isUser e = false ∧ c.stepA cfg e = some (.ok c') ∧ Go cfg c' ∧ c'.l.now = c.l.now ∧ todo c' < todo c := by
  obtain ⟨wa1, wa2, wa3⟩ := waits_iff.mp h.wa
  obtain ⟨wb1, wb2, wb3⟩ := waits_iff.mp h.wb
  -- it is enough to give the event
  have fin : ∀ e c', isUser e = false → c.stepA cfg e = some (.ok c') → c'.l.now = c.l.now → c'.ta.waits c'.l.now = true → c'.tb.waits c'.l.now = true →
      todo c' < todo c → ∃ e c', isUser e = false ∧ c.stepA cfg e = some (.ok c') ∧ Go cfg c' ∧ c'.l.now = c.l.now ∧ todo c' < todo c := by
    intro e c' h1 h2 h3 h4 h5 h6
    obtain ⟨c2, g1, g2⟩ := h.ok.stepA hdur hdel h2
    cases g1
    exact ⟨e, c', h1, h2, ⟨g2, h4, h5⟩, h3, h6⟩
  have r1 := rdy_le c.l.a c.l.ab
  have r2 := rdy_le c.l.b c.l.ba
  by_cases h1 : c.l.ab.ser.map (·.2) = some c.l.now
  · -- the packet has left the port
    obtain ⟨⟨p, t⟩, hp, ht⟩ := Option.map_eq_some_iff.mp h1
    have ht : t = c.l.now := ht
    have hw : c.l.ab.pass cfg.delay c.l.now = some { c.l.ab with ser := none, fly := c.l.ab.fly ++ [(p, c.l.now + cfg.delay)] } := by
      unfold Wire.pass; rw [hp]; simp only; rw [if_pos ht]
    refine fin (.timed .pass) { c with l := { c.l with ab := { c.l.ab with ser := none, fly := c.l.ab.fly ++ [(p, c.l.now + cfg.delay)] } } } rfl
      (by simp only [ClockLink.stepA, TimedLink.stepA, hw]; rfl) rfl h.wa h.wb ?_
    have r3 := rdy_le c.l.a { c.l.ab with ser := none, fly := c.l.ab.fly ++ [(p, c.l.now + cfg.delay)] }
    have e1 : dueW c.l.now { c.l.ab with ser := none, fly := c.l.ab.fly ++ [(p, c.l.now + cfg.delay)] } + 1 ≤ dueW c.l.now c.l.ab := by
      unfold dueW
      rw [if_pos h1]
      simp only [Option.map_none, reduceCtorEq, if_false]
      cases hf : c.l.ab.fly with
      | nil => simp; omega
      | cons x l => simp; omega
    simp only [todo] at r3 e1 ⊢
    omega
  by_cases h2 : c.l.ab.fly.head?.map (·.2) = some c.l.now
  · -- a packet arrives
    obtain ⟨⟨p, t⟩, hp, ht⟩ := Option.map_eq_some_iff.mp h2
    have ht : t = c.l.now := ht
    subst ht
    cases hf : c.l.ab.fly with
    | nil => rw [hf] at hp; cases hp
    | cons x l =>
      rw [hf] at hp
      simp only [List.head?_cons, Option.some.injEq] at hp
      subst hp
      have hw : c.l.ab.arrive c.l.now 0 = some (p, { c.l.ab with fly := l, got := c.l.ab.got ++ [(p, c.l.now)] }) := by
        unfold Wire.arrive; rw [hf]; simp
      have hs : c.stepA cfg (.timed (.arrive 0)) = some (match c.l.b.recv p with
          | .ok q => .ok { c with l := { c.l with b := q, ab := { c.l.ab with fly := l, got := c.l.ab.got ++ [(p, c.l.now)] } }, tb := c.tb.ack cfg c.l.now c.l.b q }
          | .error x => .error x) := by
        simp only [ClockLink.stepA, TimedLink.stepA, hw, Option.map_some]
        cases c.l.b.recv p <;> rfl
      cases hq : c.l.b.recv p with
      | error x =>
        rw [hq] at hs
        obtain ⟨c', g, _⟩ := h.ok.stepA hdur hdel hs
        cases g
      | ok q =>
        rw [hq] at hs
        refine fin _ _ rfl hs rfl h.wa (waits_iff.mpr ⟨?_, wb2, wb3⟩) ?_
        · intro s hs'
          simp only [Timers.ack] at hs'
          split at hs'
          · split at hs'
            · exact wb1 s hs'
            · injection hs' with hs'; simp only; omega
          · cases hs'
        · have r3 := rdy_le q c.l.ba
          have r4 : rdy c.l.a { c.l.ab with fly := l, got := c.l.ab.got ++ [(p, c.l.now)] } = rdy c.l.a c.l.ab := rfl
          have e1 : dueW c.l.now { c.l.ab with fly := l, got := c.l.ab.got ++ [(p, c.l.now)] } + 1 ≤ dueW c.l.now c.l.ab := by
            unfold dueW
            rw [if_neg h1, if_pos h2]
            simp only
            have hn : ¬ l.head?.map (·.2) = some c.l.now := by
              intro hh
              obtain ⟨y, hy, hy2⟩ := Option.map_eq_some_iff.mp hh
              have hs := h.ok.t.1.sorted
              rw [hf, List.pairwise_cons] at hs
              have := hs.1 y (List.mem_of_mem_head? hy)
              simp only at this
              omega
            rw [if_neg hn]
          have e2 : dueT c.l.now (c.tb.ack cfg c.l.now c.l.b q) ≤ dueT c.l.now c.tb := by
            have : (c.tb.ack cfg c.l.now c.l.b q).ackAt = some c.l.now → c.tb.ackAt = some c.l.now := by
              intro hs'
              simp only [Timers.ack] at hs'
              split at hs'
              · split at hs'
                · exact hs'
                · injection hs' with hs'; omega
              · cases hs'
            unfold dueT
            simp only [show (c.tb.ack cfg c.l.now c.l.b q).fcAt = c.tb.fcAt from rfl, show (c.tb.ack cfg c.l.now c.l.b q).idleAt = c.tb.idleAt from rfl]
            by_cases hz : (c.tb.ack cfg c.l.now c.l.b q).ackAt = some c.l.now
            · rw [if_pos hz, if_pos (this hz)]
            · rw [if_neg hz]; omega
          simp only [todo] at r3 r4 e1 e2 ⊢
          omega
  by_cases h3 : c.ta.ackAt = some c.l.now
  · refine fin (.timed (.act .ackTimeout)) { c with l := { c.l with a := c.l.a.ackTimeout }, ta := { c.ta with ackAt := none } } rfl (by simp only [ClockLink.stepA]; rw [if_pos h3]) rfl (waits_iff.mpr ⟨fun _ hs => by (cases hs), wa2, wa3⟩) h.wb ?_
    have r3 := rdy_le c.l.a.ackTimeout c.l.ab
    have e1 : dueT c.l.now { c.ta with ackAt := none } + 1 ≤ dueT c.l.now c.ta := by
      unfold dueT; rw [if_pos h3]; simp; omega
    simp only [todo] at r3 e1 ⊢
    omega
  by_cases h4 : c.ta.fcAt = some c.l.now
  · refine fin (.timed (.act .fcTimeout)) { c with l := { c.l with a := c.l.a.fcTimeout }, ta := { c.ta with fcAt := none } } rfl (by simp only [ClockLink.stepA]; rw [if_pos h4]) rfl (waits_iff.mpr ⟨wa1, fun _ hs => by (cases hs), wa3⟩) h.wb ?_
    have r3 := rdy_le c.l.a.fcTimeout c.l.ab
    have e1 : dueT c.l.now { c.ta with fcAt := none } + 1 ≤ dueT c.l.now c.ta := by
      unfold dueT; rw [if_pos h4]; simp; omega
    simp only [todo] at r3 e1 ⊢
    omega
  by_cases h5 : c.ta.idleAt = c.l.now
  · refine fin .idle { c with l := { c.l with a := c.l.a.fcTimeout }, ta := { c.ta with idleAt := c.l.now + max cfg.idle 1 } } rfl (by simp only [ClockLink.stepA]; rw [if_pos h5]) rfl (waits_iff.mpr ⟨wa1, wa2, by simp only; omega⟩) h.wb ?_
    have r3 := rdy_le c.l.a.fcTimeout c.l.ab
    have e1 : dueT c.l.now { c.ta with idleAt := c.l.now + max cfg.idle 1 } + 1 ≤ dueT c.l.now c.ta := by
      unfold dueT; rw [if_pos h5]; simp only; rw [if_neg (by omega : ¬ c.l.now + max cfg.idle 1 = c.l.now)]
    simp only [todo] at r3 e1 ⊢
    omega
  · -- only the transmitter has work to do
    have hz : dueW c.l.now c.l.ab = 0 ∧ dueT c.l.now c.ta = 0 := by
      unfold dueW dueT; rw [if_neg h1, if_neg h2, if_neg h3, if_neg h4, if_neg h5]; exact ⟨rfl, rfl⟩
    have hr : ready c.l.a c.l.ab = true := by
      cases hr : ready c.l.a c.l.ab with
      | true => rfl
      | false => unfold rdy at hd; rw [hr] at hd; simp [hz.1, hz.2] at hd
    have hser : c.l.ab.ser = none := by
      unfold ready at hr
      simp only [Bool.and_eq_true, Option.isNone_iff_eq_none] at hr
      exact hr.1
    have hrd : rdy c.l.a c.l.ab = 1 := by unfold rdy; rw [if_pos hr]
    cases ht : c.l.a.transmit c.l.now cfg.steps with
    | mk q pkt =>
      cases pkt with
      | none =>
        refine fin (.timed .transmit) { c with l := { c.l with a := q } } rfl (by simp only [ClockLink.stepA, TimedLink.stepA, hser, ht, Option.map_some]) rfl h.wa h.wb ?_
        have : rdy q c.l.ab = 0 := by unfold rdy; rw [transmit_none ht]; rfl
        simp only [todo] at this ⊢
        omega
      | some pkt =>
        have hw : c.l.ab.start cfg.dur c.l.now pkt = some { c.l.ab with ser := some (pkt, c.l.now + cfg.dur pkt), sent := c.l.ab.sent ++ [(pkt, c.l.now)] } := by
          unfold Wire.start; rw [hser]
        refine fin (.timed .transmit) { c with l := { c.l with a := q, ab := { c.l.ab with ser := some (pkt, c.l.now + cfg.dur pkt), sent := c.l.ab.sent ++ [(pkt, c.l.now)] } } } rfl
          (by simp only [ClockLink.stepA, TimedLink.stepA, hser, ht, hw]; rfl) rfl h.wa h.wb ?_
        have e1 : rdy q { c.l.ab with ser := some (pkt, c.l.now + cfg.dur pkt), sent := c.l.ab.sent ++ [(pkt, c.l.now)] } = 0 := by unfold rdy ready; simp
        have e2 : dueW c.l.now { c.l.ab with ser := some (pkt, c.l.now + cfg.dur pkt), sent := c.l.ab.sent ++ [(pkt, c.l.now)] } = 0 := by
          have := hdur pkt
          unfold dueW
          simp only [Option.map_some, Option.some.injEq]
          rw [if_neg (by omega), if_neg h2]
        simp only [todo] at e1 e2 ⊢
        omega

/-- When nothing has to happen now, time passes until something has to, or until `t`. -/
theorem go_adv {cfg : ClockCfg} {c : ClockLink} (h : Go cfg c) (hz : todo c = 0) {t : Nat} (ht : c.l.now < t) :
    ∃ t', c.l.now < t' ∧ t' ≤ t ∧ c.step cfg (.advance t') = some (.ok { c with l := { c.l with now := t' } }) ∧ Go cfg { c with l := { c.l with now := t' } } := by
  obtain ⟨wa1, wa2, wa3⟩ := waits_iff.mp h.wa
  obtain ⟨wb1, wb2, wb3⟩ := waits_iff.mp h.wb
  have hW : ∀ {w : Wire Pkt}, Wire.Inv cfg.dur cfg.delay c.l.now w → dueW c.l.now w = 0 → w.waits (c.l.now + 1) = true := by
    intro w hw h0
    unfold dueW at h0
    have a1 : ¬ w.ser.map (·.2) = some c.l.now := fun hh => by rw [if_pos hh] at h0; omega
    have a2 : ¬ w.fly.head?.map (·.2) = some c.l.now := fun hh => by rw [if_pos hh] at h0; omega
    unfold Wire.waits
    rw [Bool.and_eq_true]
    constructor
    · cases hs : w.ser with
      | none => rfl
      | some e =>
        have b1 := (hw.ser e.1 e.2 hs).1
        have b2 : e.2 ≠ c.l.now := fun hh => a1 (by rw [hs, ← hh]; rfl)
        simp only [Option.all_some, decide_eq_true_eq]
        omega
    · rw [List.all_eq_true]
      intro e he
      cases hf : w.fly with
      | nil => rw [hf] at he; cases he
      | cons x l =>
        have b2 : x.2 ≠ c.l.now := fun hh => a2 (by rw [hf, ← hh]; rfl)
        have b1 := (hw.later x (by rw [hf]; exact List.mem_cons_self ..)).1
        have hs := hw.sorted
        rw [hf, List.pairwise_cons] at hs
        rw [hf] at he
        simp only [decide_eq_true_eq]
        rcases List.mem_cons.mp he with rfl | he
        · omega
        · have := hs.1 e he; omega
  have hT : ∀ {x : Timers}, x.waits c.l.now = true → dueT c.l.now x = 0 → x.waits (c.l.now + 1) = true := by
    intro x hx h0
    obtain ⟨x1, x2, x3⟩ := waits_iff.mp hx
    unfold dueT at h0
    have a1 : ¬ x.ackAt = some c.l.now := fun hh => by rw [if_pos hh] at h0; omega
    have a2 : ¬ x.fcAt = some c.l.now := fun hh => by rw [if_pos hh] at h0; omega
    have a3 : ¬ x.idleAt = c.l.now := fun hh => by rw [if_pos hh] at h0; omega
    refine waits_iff.mpr ⟨fun s hs => ?_, fun s hs => ?_, by omega⟩
    · have := x1 s hs
      have : s ≠ c.l.now := fun hh => a1 (by rw [hs, hh])
      omega
    · have := x2 s hs
      have : s ≠ c.l.now := fun hh => a2 (by rw [hs, hh])
      omega
  unfold todo at hz
  have w1 := hW h.ok.t.1 (by omega)
  have w2 := hW h.ok.t.2 (by omega)
  have t1 := hT h.wa (by omega)
  have t2 := hT h.wb (by omega)
  have r1 : ready c.l.a c.l.ab = false := by
    cases hr : ready c.l.a c.l.ab with
    | false => rfl
    | true => unfold rdy at hz; rw [hr] at hz; simp at hz
  have r2 : ready c.l.b c.l.ba = false := by
    cases hr : ready c.l.b c.l.ba with
    | false => rfl
    | true => unfold rdy at hz; rw [hr] at hz; simp at hz
  refine ⟨c.l.now + 1, by omega, by omega, ?_, ⟨⟨?_, h.ok.l⟩, t1, t2⟩⟩
  · simp only [ClockLink.step]
    rw [if_pos ⟨by omega, w1, w2, t1, t2, fun _ => ⟨r1, r2⟩⟩]
  · exact ⟨Wire.advance_ok h.ok.t.1 (Nat.le_succ _) w1, Wire.advance_ok h.ok.t.2 (Nat.le_succ _) w2⟩

theorem go {cfg : ClockCfg} (hdur : ∀ p, 0 < cfg.dur p) (hdel : 0 < cfg.delay) (t : Nat) : ∀ (n : Nat) (c : ClockLink), Go cfg c → c.l.now ≤ t → (t - c.l.now) * 23 + todo c ≤ n →
    ∃ es c', (∀ e ∈ es, evUser e = false) ∧ c.run cfg es = some (.ok c') ∧ c'.l.now = t ∧ todo c' = 0
  | 0, c, h, ht, hn => ⟨[], c, nofun, rfl, by omega, by omega⟩
  | n + 1, c, h, ht, hn => by
    have cons : ∀ {e c1}, evUser e = false → c.step cfg e = some (.ok c1) →
        (∃ es c', (∀ e ∈ es, evUser e = false) ∧ c1.run cfg es = some (.ok c') ∧ c'.l.now = t ∧ todo c' = 0) →
        ∃ es c', (∀ e ∈ es, evUser e = false) ∧ c.run cfg es = some (.ok c') ∧ c'.l.now = t ∧ todo c' = 0 := by
      rintro e c1 he hs ⟨es, c', g1, g2, g3⟩
      refine ⟨e :: es, c', ?_, ?_, g3⟩
      · intro x hx
        rcases List.mem_cons.mp hx with rfl | hx
        · exact he
        · exact g1 x hx
      · unfold ClockLink.run; rw [hs]; exact g2
    by_cases hA : 0 < 2 * (dueW c.l.now c.l.ab + dueT c.l.now c.ta) + rdy c.l.a c.l.ab
    · obtain ⟨e, c1, h1, h2, h3, h4, h5⟩ := goA hdur hdel h hA
      exact cons (e := .port true e) h1 h2 (go hdur hdel t n c1 h3 (by omega) (by rw [h4]; omega))
    by_cases hB : 0 < 2 * (dueW c.l.now c.l.ba + dueT c.l.now c.tb) + rdy c.l.b c.l.ba
    · obtain ⟨e, c1, h1, h2, h3, h4, h5⟩ := goA hdur hdel h.swap hB
      have h4 : c1.l.now = c.l.now := h4
      rw [todo_swap] at h5
      refine cons (e := .port false e) (c1 := c1.swap) h1 ?_ (go hdur hdel t n c1.swap h3.swap (by show c1.l.now ≤ t; omega) ?_)
      · simp only [ClockLink.step]; rw [h2]; rfl
      · rw [todo_swap, show c1.swap.l.now = c1.l.now from rfl, h4]; omega
    have hz : todo c = 0 := by unfold todo; omega
    by_cases hlt : c.l.now < t
    · obtain ⟨t', g1, g2, g3, g4⟩ := go_adv h hz hlt
      refine cons (e := .advance t') rfl g3 (go hdur hdel t n _ g4 g2 ?_)
      have := todo_le { c with l := { c.l with now := t' } }
      have e1 : (t - t') * 23 + 23 ≤ (t - c.l.now) * 23 := by
        rw [← Nat.succ_mul]; exact Nat.mul_le_mul_right _ (by omega)
      show (t - t') * 23 + _ ≤ n
      omega
    · exact ⟨[], c, nofun, rfl, by omega, hz⟩

/-- Timers do not expire in the past. -/
theorem Go.fresh {cfg : ClockCfg} {c : ClockLink} (h : FreshClock c) : Go cfg c := by
  obtain ⟨h0, h4, h5, h6, h7, h8, h9⟩ := h
  refine ⟨(All.fresh ⟨h0, h4, h5, h6, h7, h8, h9⟩).ok, waits_iff.mpr ⟨?_, ?_, h8⟩, waits_iff.mpr ⟨?_, ?_, h9⟩⟩
  · rw [h4]; nofun
  · rw [h5]; nofun
  · rw [h6]; nofun
  · rw [h7]; nofun

theorem stepA_waits {cfg : ClockCfg} {c c' : ClockLink} {e : ClockAct} (ha : c.ta.waits c.l.now = true) (hb : c.tb.waits c.l.now = true) (hs : c.stepA cfg e = some (.ok c')) :
    c'.ta.waits c'.l.now = true ∧ c'.tb.waits c'.l.now = true := by
  obtain ⟨wa1, wa2, wa3⟩ := waits_iff.mp ha
  obtain ⟨wb1, wb2, wb3⟩ := waits_iff.mp hb
  have same : ∀ {l : TimedLink}, l.now = c.l.now → c' = { c with l := l } → c'.ta.waits c'.l.now = true ∧ c'.tb.waits c'.l.now = true := by
    intro l h1 h2; subst h2; simp only; rw [h1]; exact ⟨ha, hb⟩
  cases e with
  | idle =>
    simp only [ClockLink.stepA] at hs
    split at hs
    · cases hs; exact ⟨waits_iff.mpr ⟨wa1, wa2, by simp only; omega⟩, hb⟩
    · cases hs
  | timed e =>
    cases e with
    | act e =>
      cases e with
      | send t =>
        simp only [ClockLink.stepA, TimedLink.stepA] at hs
        cases ht : c.l.a.send t with
        | none => rw [ht] at hs; cases hs; exact same (l := c.l) rfl rfl
        | some p => rw [ht] at hs; cases hs; exact same (l := { c.l with a := p }) rfl rfl
      | release token =>
        cases hs
        refine ⟨?_, hb⟩
        simp only
        split
        · refine waits_iff.mpr ⟨wa1, fun s hs => ?_, wa3⟩
          simp only [Timers.startFc, Option.some.injEq] at hs
          cases hf : c.ta.fcAt with
          | none => rw [hf] at hs; simp at hs; omega
          | some s' => rw [hf] at hs; simp at hs; have := wa2 s' hf; omega
        · exact ha
      | ackTimeout =>
        simp only [ClockLink.stepA] at hs
        split at hs
        · cases hs; exact ⟨waits_iff.mpr ⟨fun _ hs => by (cases hs), wa2, wa3⟩, hb⟩
        · cases hs
      | fcTimeout =>
        simp only [ClockLink.stepA] at hs
        split at hs
        · cases hs; exact ⟨waits_iff.mpr ⟨wa1, fun _ hs => by (cases hs), wa3⟩, hb⟩
        · cases hs
      | take => cases hs; exact same (l := { c.l with a := c.l.a.take }) rfl rfl
      | transmit n => cases hs
      | recv => cases hs
    | transmit =>
      simp only [ClockLink.stepA, TimedLink.stepA] at hs
      cases hser : c.l.ab.ser with
      | some _ => rw [hser] at hs; cases hs
      | none =>
        rw [hser] at hs
        cases ht : c.l.a.transmit c.l.now cfg.steps with
        | mk p pkt =>
          rw [ht] at hs
          cases pkt with
          | none => cases hs; exact ⟨ha, hb⟩
          | some pkt =>
            simp only [Option.map_map, Option.map_eq_some_iff, Function.comp] at hs
            obtain ⟨w, hw, hs⟩ := hs
            cases hs; exact ⟨ha, hb⟩
    | pass =>
      simp only [ClockLink.stepA, TimedLink.stepA, Option.map_map, Option.map_eq_some_iff, Function.comp] at hs
      obtain ⟨w, hw, hs⟩ := hs
      cases hs; exact ⟨ha, hb⟩
    | arrive i =>
      simp only [ClockLink.stepA, TimedLink.stepA, Option.map_map, Option.map_eq_some_iff, Function.comp] at hs
      obtain ⟨⟨p, w⟩, hw, hs⟩ := hs
      cases hb' : c.l.b.recv p with
      | error x => simp only [hb'] at hs; cases hs
      | ok q =>
        simp only [hb'] at hs
        cases hs
        refine ⟨ha, waits_iff.mpr ⟨fun s hs' => ?_, wb2, wb3⟩⟩
        simp only [Timers.ack] at hs'
        split at hs'
        · split at hs'
          · exact wb1 s hs'
          · injection hs' with hs'; simp only; omega
        · cases hs'

theorem step_waits {cfg : ClockCfg} {c c' : ClockLink} {e : ClockEv} (ha : c.ta.waits c.l.now = true) (hb : c.tb.waits c.l.now = true) (hs : c.step cfg e = some (.ok c')) :
    c'.ta.waits c'.l.now = true ∧ c'.tb.waits c'.l.now = true := by
  cases e with
  | port b e =>
    cases b with
    | true => exact stepA_waits ha hb hs
    | false =>
      simp only [ClockLink.step, Option.map_eq_some_iff] at hs
      obtain ⟨r, hr, hs⟩ := hs
      cases r with
      | error x => cases hs
      | ok c2 => cases hs; exact (stepA_waits (c := c.swap) hb ha hr).symm
  | advance t =>
    simp only [ClockLink.step] at hs
    split at hs
    · next hc => cases hs; exact ⟨hc.2.2.2.1, hc.2.2.2.2.1⟩
    · cases hs

theorem Go.run {cfg : ClockCfg} (hdur : ∀ p, 0 < cfg.dur p) (hdel : 0 < cfg.delay) : ∀ (es : List ClockEv) {c c' : ClockLink}, Go cfg c → c.run cfg es = some (.ok c') → Go cfg c'
  | [], c, c', h, hr => by cases hr; exact h
  | e :: es, c, c', h, hr => by
    obtain ⟨c1, h1, h2⟩ := run_cons hr
    obtain ⟨w1, w2⟩ := step_waits h.wa h.wb h1
    obtain ⟨e', he⟩ := step_timed h1
    obtain ⟨⟨fs, k1, -⟩, k2⟩ := TimedLink.step_ok hdur hdel h.ok.t he
    have k1 : Link.run cfg.steps (untimed c.l) fs = .ok (untimed c1.l) := k1
    exact Go.run hdur hdel es ⟨⟨k2 _ rfl, (h.ok.l.run_flags k1).2.2⟩, w1, w2⟩ h2

end FcTime
end Pcie
