import Verif.Lemmas.FcTimeRun
import Verif.Spec.AckTime
/-
ACKs come back: the argument, on the part of the state that matters.
-/
namespace Pcie
open Spec
namespace AckTime
open FcTime (wl)

/-- The part of the state that matters for the TLPs from `a` to `b`. -/
structure AObs where
  now : Nat
  got : List Nat
  del : Nat
  wl : List (Pkt × Nat)
  ser : Option (Pkt × Nat)
  sa : Bool
  at_ : Option Nat
  ak : Nat

def aobs (cfg : ClockCfg) (c : ClockLink) : AObs :=
  { now := c.l.now, got := tlpTimes c.l.ab.got, del := c.l.b.delivered.length, wl := wl cfg.delay c.l.ba, ser := c.l.ba.ser, sa := c.l.b.sendAck, at_ := c.tb.ackAt,
    ak := acked c.l.a }

/-- What one event changes. -/
inductive ATr (cfg : ClockCfg) (o o' : AObs) : Prop
  | quiet (h : o' = o)
  | pass (p : Pkt) (hs : o.ser = some (p, o.now)) (h : o' = { o with ser := none })
  | arr (h : o' = { o with got := o.got ++ [o.now], del := o.del + 1, at_ := some (o.at_.getD (o.now + max cfg.latency 1)) })
  | fire (ha : o.at_ = some o.now) (h : o' = { o with at_ := none, sa := true })
  | ack (e : Dllp) (hd : e.type = Dllp.ACK) (hq : e.seq = (o.del + 4095) % 4096) (h0 : o.ser = none)
      (h : o' = { o with sa := false, wl := o.wl ++ [(.dllp e, o.now + cfg.dur (.dllp e) + cfg.delay)], ser := some (.dllp e, o.now + cfg.dur (.dllp e)) })
  | send (p : Pkt) (hs : o.sa = false) (h0 : o.ser = none)
      (h : o' = { o with wl := o.wl ++ [(p, o.now + cfg.dur p + cfg.delay)], ser := some (p, o.now + cfg.dur p) })
  | recv (p : Pkt) (wl' : List (Pkt × Nat)) (ak : Nat) (hw : o.wl = (p, o.now) :: wl') (ha : o.ak ≤ ak)
      (hv : ∀ e W, p = .dllp e → e.type = Dllp.ACK → e.seq = (W + 4095) % 4096 → o.ak ≤ W → W ≤ o.del → ak = W) (h : o' = { o with wl := wl', ak := ak })
  | adv (t : Nat) (ht : o.now ≤ t) (hr : o.now < t → o.ser = none → o.sa = false) (hser : ∀ p s, o.ser = some (p, s) → t ≤ s)
      (hat : ∀ s, o.at_ = some s → t ≤ s) (h : o' = { o with now := t })

/-- The time at which the wire is free. -/
def free (o : AObs) : Nat := (o.ser.map (·.2)).getD o.now

/-- The way of the acknowledgement of TLP `j`, which arrived at `t`: it waits for the timer, or for the transmitter, or is on the wire. -/
inductive AWay (cfg : ClockCfg) (D d : Nat) (o : AObs) (j t : Nat) : Prop
  | timer (s : Nat) (h1 : o.at_ = some s) (h2 : s ≤ t + max cfg.latency 1)
  | wait (h1 : o.sa = true) (h2 : free o ≤ t + max cfg.latency 1 + D)
  | wire (e : Dllp) (s W : Nat) (h1 : (.dllp e, s) ∈ o.wl) (h2 : e.type = Dllp.ACK) (h3 : e.seq = (W + 4095) % 4096) (h4 : j < W) (h5 : W ≤ o.del)
      (h6 : s ≤ t + ackTime cfg D d)

structure AInv (cfg : ClockCfg) (D d : Nat) (o : AObs) : Prop where
  timer : ∀ s, o.at_ = some s → o.now ≤ s ∧ s ≤ o.now + max cfg.latency 1
  ser : ∀ p s, o.ser = some (p, s) → o.now ≤ s ∧ s ≤ o.now + cfg.dur p
  cnt : o.got.length = o.del
  way : ∀ j t, o.got[j]? = some t → o.ak ≤ j → AWay cfg D d o j t

theorem AInv.step {cfg : ClockCfg} {D d : Nat} {o o' : AObs} (h : AInv cfg D d o) (ht : ATr cfg o o') (hD : ∀ p s, o.ser = some (p, s) → cfg.dur p ≤ D)
    (hd : ∀ e, cfg.dur (.dllp e) ≤ d) : AInv cfg D d o' := by
  cases ht with
  | quiet h' => subst h'; exact h
  | pass p hs h' =>
    subst h'
    refine ⟨h.timer, nofun, h.cnt, fun j t h1 h2 => ?_⟩
    cases h.way j t h1 h2 with
    | timer s g1 g2 => exact .timer s g1 g2
    | wait g1 g2 =>
      refine .wait g1 ?_
      unfold free at g2 ⊢
      rw [hs] at g2
      exact g2
    | wire e s W g1 g2 g3 g4 g5 g6 => exact .wire e s W g1 g2 g3 g4 g5 g6
  | arr h' =>
    subst h'
    have htm : ∀ s, some (o.at_.getD (o.now + max cfg.latency 1)) = some s → o.now ≤ s ∧ s ≤ o.now + max cfg.latency 1 := by
      intro s hs
      cases ha : o.at_ with
      | none => rw [ha] at hs; simp only [Option.getD_none, Option.some.injEq] at hs; omega
      | some s' => rw [ha] at hs; simp only [Option.getD_some, Option.some.injEq] at hs; subst hs; exact h.timer _ ha
    refine ⟨htm, h.ser, by simp [h.cnt], fun j t h1 h2 => ?_⟩
    simp only at h1 h2
    by_cases hj : j < o.got.length
    · rw [List.getElem?_append_left hj] at h1
      cases h.way j t h1 h2 with
      | timer s g1 g2 => exact .timer s (by simp only [g1, Option.getD_some]) g2
      | wait g1 g2 => exact .wait g1 g2
      | wire e s W g1 g2 g3 g4 g5 g6 => exact .wire e s W g1 g2 g3 g4 (Nat.le_succ_of_le g5) g6
    · have hl := (List.getElem?_eq_some_iff.mp h1).1
      rw [List.length_append, List.length_singleton] at hl
      have hjj : j = o.got.length := by omega
      subst hjj
      rw [List.getElem?_append_right (Nat.le_refl _), Nat.sub_self] at h1
      have h1 : o.now = t := by simpa using h1
      subst h1
      exact .timer _ rfl (htm _ rfl).2
  | fire ha h' =>
    subst h'
    refine ⟨nofun, h.ser, h.cnt, fun j t h1 h2 => ?_⟩
    cases h.way j t h1 h2 with
    | timer s g1 g2 =>
      rw [ha] at g1
      injection g1 with g1
      subst g1
      refine .wait rfl ?_
      unfold free
      simp only
      cases hs : o.ser with
      | none => simp only [Option.map_none, Option.getD_none]; omega
      | some e =>
        obtain ⟨p, s⟩ := e
        have := h.ser p s hs
        have := hD p s hs
        simp only [Option.map_some, Option.getD_some]
        omega
    | wait g1 g2 => exact .wait rfl g2
    | wire e s W g1 g2 g3 g4 g5 g6 => exact .wire e s W g1 g2 g3 g4 g5 g6
  | ack e hd' hq h0 h' =>
    subst h'
    refine ⟨h.timer, ?_, h.cnt, fun j t h1 h2 => ?_⟩
    · intro p s hs
      injection hs with hs
      obtain ⟨rfl, rfl⟩ := Prod.mk.inj hs
      simp only; omega
    · cases h.way j t h1 h2 with
      | timer s g1 g2 => exact .timer s g1 g2
      | wait g1 g2 =>
        have hj := (List.getElem?_eq_some_iff.mp h1).1
        have hc := h.cnt
        refine .wire e _ o.del (List.mem_append_right _ (List.mem_singleton.mpr rfl)) hd' hq (by simp only at hj; omega) (Nat.le_refl _) ?_
        have := hd e
        unfold free at g2
        rw [h0] at g2
        simp only [Option.map_none, Option.getD_none] at g2
        unfold ackTime
        omega
      | wire e s W g1 g2 g3 g4 g5 g6 => exact .wire e s W (List.mem_append_left _ g1) g2 g3 g4 g5 g6
  | send p hs h0 h' =>
    subst h'
    refine ⟨h.timer, ?_, h.cnt, fun j t h1 h2 => ?_⟩
    · intro q s hs
      injection hs with hs
      obtain ⟨rfl, rfl⟩ := Prod.mk.inj hs
      simp only; omega
    · cases h.way j t h1 h2 with
      | timer s g1 g2 => exact .timer s g1 g2
      | wait g1 g2 => rw [hs] at g1; cases g1
      | wire e s W g1 g2 g3 g4 g5 g6 => exact .wire e s W (List.mem_append_left _ g1) g2 g3 g4 g5 g6
  | recv p wl' ak hw ha hv h' =>
    subst h'
    refine ⟨h.timer, h.ser, h.cnt, fun j t h1 h2 => ?_⟩
    simp only at h1 h2
    cases h.way j t h1 (Nat.le_trans ha h2) with
    | timer s g1 g2 => exact .timer s g1 g2
    | wait g1 g2 => exact .wait g1 g2
    | wire e s W g1 g2 g3 g4 g5 g6 =>
      rw [hw] at g1
      rcases List.mem_cons.mp g1 with g1 | g1
      · obtain ⟨g1, -⟩ := Prod.mk.inj g1
        have := hv e W g1.symm g2 g3 (by omega) g5
        omega
      · exact .wire e s W g1 g2 g3 g4 g5 g6
  | adv t' ht' hr hser hat h' =>
    subst h'
    refine ⟨fun s hs => ⟨hat s hs, by have := h.timer s hs; simp only; omega⟩, fun p s hs => ⟨hser p s hs, by have := h.ser p s hs; simp only; omega⟩, h.cnt,
      fun j t h1 h2 => ?_⟩
    cases h.way j t h1 h2 with
    | timer s g1 g2 => exact .timer s g1 g2
    | wait g1 g2 =>
      refine .wait g1 ?_
      unfold free at g2 ⊢
      simp only
      cases hs : o.ser with
      | none =>
        have : ¬ o.now < t' := fun hh => by have := hr hh hs; rw [g1] at this; cases this
        rw [hs] at g2
        simp only [Option.map_none, Option.getD_none] at g2 ⊢
        omega
      | some e => rw [hs] at g2; exact g2
    | wire e s W g1 g2 g3 g4 g5 g6 => exact .wire e s W g1 g2 g3 g4 g5 g6

/-- When the time is over, the TLP is acknowledged. -/
theorem AInv.over {cfg : ClockCfg} {D d : Nat} {o : AObs} (h : AInv cfg D d o) (hw : ∀ e ∈ o.wl, o.now ≤ e.2) {j t : Nat} (hj : o.got[j]? = some t)
    (ht : t + ackTime cfg D d < o.now) : j < o.ak := by
  rcases Nat.lt_or_ge j o.ak with hlt | hge
  · exact hlt
  · exfalso
    cases h.way j t hj hge with
    | timer s g1 g2 => have := (h.timer s g1).1; unfold ackTime at ht; omega
    | wait g1 g2 =>
      have : o.now ≤ free o := by
        unfold free
        cases hs : o.ser with
        | none => exact Nat.le_refl _
        | some e => exact (h.ser e.1 e.2 hs).1
      unfold ackTime at ht; omega
    | wire e s W g1 g2 g3 g4 g5 g6 => have := hw _ g1; simp only at this; omega

end AckTime
end Pcie
