import Verif.Spec.SimPort
namespace Pcie
namespace Wire
variable {α : Type}

/-- The packets on the wire, oldest first. -/
def pkts (w : Wire α) : List α := w.fly.map (·.1) ++ (w.ser.map (·.1)).toList

/-- Timers have not expired, those of the tasks expire one after the other, and the one of a packet still to pass later than all of them. -/
structure Inv (dur : α → Nat) (delay now : Nat) (w : Wire α) : Prop where
  later : ∀ e ∈ w.fly, now ≤ e.2 ∧ e.2 ≤ now + delay
  sorted : w.fly.Pairwise (fun x y => x.2 < y.2)
  ser : ∀ p t, w.ser = some (p, t) → now ≤ t ∧ ∀ e ∈ w.fly, e.2 < t + delay
  /-- the history: everything that was sent with its times -/
  hist : w.sent.map (fun e => (e.1, e.2 + dur e.1 + delay)) = w.got ++ w.fly ++ (w.ser.map fun e => (e.1, e.2 + delay)).toList
  past : ∀ e ∈ w.sent, e.2 + dur e.1 ≤ now ∨ w.ser.map (·.2) = some (e.2 + dur e.1)
  serial : w.sent.Pairwise (fun x y => x.2 + dur x.1 ≤ y.2)

theorem inv_init (dur : α → Nat) (delay now : Nat) : Inv dur delay now ({} : Wire α) :=
  ⟨nofun, .nil, nofun, rfl, nofun, .nil⟩

variable {dur : α → Nat} {delay now : Nat}

theorem start_ok {w w' : Wire α} {p : α} (hd : 0 < dur p) (h : Inv dur delay now w) (hs : w.start dur now p = some w') :
    Inv dur delay now w' ∧ w'.pkts = w.pkts ++ [p] ∧ w'.sent = w.sent ++ [(p, now)] ∧ w'.got = w.got ∧ w'.ser.isSome = true := by
  unfold start at hs
  cases hser : w.ser with
  | some e => rw [hser] at hs; cases hs
  | none =>
    rw [hser] at hs
    cases hs
    have hp : ∀ e ∈ w.sent, e.2 + dur e.1 ≤ now := by
      intro e he
      rcases h.past e he with h | h
      · exact h
      · rw [hser] at h; cases h
    refine ⟨⟨h.later, h.sorted, ?_, ?_, ?_, ?_⟩, ?_, rfl, rfl, rfl⟩
    · rintro p' t ht
      cases ht
      exact ⟨by omega, fun e he => by have := h.later e he; omega⟩
    · have := h.hist
      rw [hser] at this
      simp only [List.map_append, this]
      simp
    · intro e he
      simp only [List.mem_append, List.mem_singleton] at he
      rcases he with he | rfl
      · exact .inl (hp e he)
      · exact .inr rfl
    · rw [List.pairwise_append]
      refine ⟨h.serial, by simp, fun x hx y hy => ?_⟩
      rw [List.mem_singleton] at hy
      subst hy
      exact hp x hx
    · simp [pkts, hser]

theorem pass_ok {w w' : Wire α} (hd : 0 < delay) (h : Inv dur delay now w) (hs : w.pass delay now = some w') :
    Inv dur delay now w' ∧ w'.pkts = w.pkts ∧ w'.sent = w.sent ∧ w'.got = w.got := by
  unfold pass at hs
  cases hser : w.ser with
  | none => rw [hser] at hs; cases hs
  | some e =>
    obtain ⟨p, t⟩ := e
    rw [hser] at hs
    simp only at hs
    split at hs
    · rename_i ht
      subst ht
      cases hs
      obtain ⟨_, hl⟩ := h.ser p t hser
      refine ⟨⟨?_, ?_, nofun, ?_, ?_, h.serial⟩, ?_, rfl, rfl⟩
      · intro e he
        simp only [List.mem_append, List.mem_singleton] at he
        rcases he with he | rfl
        · exact h.later e he
        · exact ⟨by simp, by simp⟩
      · rw [List.pairwise_append]
        refine ⟨h.sorted, by simp, fun x hx y hy => ?_⟩
        rw [List.mem_singleton] at hy
        subst hy
        exact hl x hx
      · have := h.hist
        rw [hser] at this
        simp only [this]
        simp
      · intro e he
        left
        rcases h.past e he with h | h
        · exact h
        · rw [hser] at h
          have := Option.some.inj h
          simp only at this
          omega
      · simp [pkts, hser]
    · cases hs

theorem arrive_ok {w w' : Wire α} {i : Nat} {p : α} (h : Inv dur delay now w) (hs : w.arrive now i = some (p, w')) :
    Inv dur delay now w' ∧ w.pkts = p :: w'.pkts ∧ w'.sent = w.sent ∧ w'.got = w.got ++ [(p, now)] := by
  unfold arrive at hs
  cases he : w.fly[i]? with
  | none => rw [he] at hs; cases hs
  | some e =>
    obtain ⟨q, t⟩ := e
    rw [he] at hs
    simp only at hs
    split at hs
    · rename_i ht
      subst ht
      have hq := Option.some.inj hs
      obtain ⟨rfl, rfl⟩ := Prod.mk.inj hq
      obtain ⟨hi, hget⟩ := List.getElem?_eq_some_iff.mp he
      have hi0 : i = 0 := by
        cases i with
        | zero => rfl
        | succ j =>
          exfalso
          have h0 := List.pairwise_iff_getElem.mp h.sorted 0 (j + 1) (by omega) hi (by omega)
          have h1 := (h.later w.fly[0] (List.getElem_mem _)).1
          rw [hget] at h0
          simp only at h0
          omega
      subst hi0
      cases hf : w.fly with
      | nil => rw [hf] at he; cases he
      | cons e rest =>
        rw [hf] at he
        have : e = (q, t) := Option.some.inj he
        subst this
        have hl := h.later; have hsrt := h.sorted; have hh := h.hist; have hser := h.ser
        rw [hf] at hl hsrt hh hser
        refine ⟨⟨?_, ?_, ?_, ?_, h.past, h.serial⟩, ?_, rfl, rfl⟩
        · intro e he
          exact hl e (List.mem_cons_of_mem _ he)
        · exact (List.pairwise_cons.mp hsrt).2
        · intro p' t' ht'
          exact ⟨(hser p' t' ht').1, fun e he => (hser p' t' ht').2 e (List.mem_cons_of_mem _ he)⟩
        · show _ = w.got ++ [(q, t)] ++ rest ++ _
          rw [hh]; simp
        · simp [pkts, hf]
    · cases hs

theorem advance_ok {w : Wire α} {t : Nat} (h : Inv dur delay now w) (ht : now ≤ t) (hw : w.waits t = true) : Inv dur delay t w := by
  simp only [waits, Bool.and_eq_true, List.all_eq_true, decide_eq_true_eq] at hw
  refine ⟨fun e he => ⟨hw.2 e he, by have := h.later e he; omega⟩, h.sorted, fun p s hs => ⟨?_, (h.ser p s hs).2⟩, h.hist, fun e he => ?_, h.serial⟩
  · have := hw.1
    rw [hs] at this
    simpa using this
  · rcases h.past e he with h | h
    · left; omega
    · exact .inr h

theorem step_ok {s s' : Nat × Wire α} {e : WireEv α} (hdur : ∀ p, 0 < dur p) (hd : 0 < delay) (h : Inv dur delay s.1 s.2)
    (hs : Wire.step dur delay s e = some s') : Inv dur delay s'.1 s'.2 := by
  cases e with
  | start p =>
    simp only [Wire.step, Option.map_eq_some_iff] at hs
    obtain ⟨w, hw, rfl⟩ := hs
    exact (start_ok (hdur p) h hw).1
  | pass =>
    simp only [Wire.step, Option.map_eq_some_iff] at hs
    obtain ⟨w, hw, rfl⟩ := hs
    exact (pass_ok hd h hw).1
  | arrive i =>
    simp only [Wire.step, Option.map_eq_some_iff] at hs
    obtain ⟨⟨p, w⟩, hw, rfl⟩ := hs
    exact (arrive_ok h hw).1
  | advance t =>
    simp only [Wire.step] at hs
    split at hs
    · rename_i hc
      cases hs
      exact advance_ok h hc.1 hc.2
    · cases hs

theorem run_ok (hdur : ∀ p, 0 < dur p) (hd : 0 < delay) : ∀ (es : List (WireEv α)) (s s' : Nat × Wire α), Inv dur delay s.1 s.2 →
    Wire.run dur delay s es = some s' → Inv dur delay s'.1 s'.2
  | [], _, _, h, hr => by cases hr; exact h
  | e :: es, s, s', h, hr => by
    simp only [Wire.run, Option.bind_eq_some_iff] at hr
    obtain ⟨s1, h1, h2⟩ := hr
    exact run_ok hdur hd es s1 s' (step_ok hdur hd h h1) h2

theorem wire_run_append (dur : α → Nat) (delay : Nat) : ∀ (es fs : List (WireEv α)) (s : Nat × Wire α),
    Wire.run dur delay s (es ++ fs) = (Wire.run dur delay s es).bind fun s => Wire.run dur delay s fs
  | [], _, _ => rfl
  | e :: es, fs, s => by
    simp only [List.cons_append, Wire.run]
    cases Wire.step dur delay s e with
    | none => rfl
    | some s1 => exact wire_run_append dur delay es fs s1

/-- Every packet can still arrive. -/
theorem drain_ok (hd : 0 < delay) : ∀ (n : Nat) (now : Nat) (w : Wire α), Inv dur delay now w → w.fly.length + 2 * (w.ser.toList).length ≤ n →
    ∃ es now' w', Wire.run dur delay (now, w) es = some (now', w') ∧ w'.fly = [] ∧ w'.ser = none ∧ w'.sent = w.sent
  | 0, now, w, _, hn => by
    refine ⟨[], now, w, rfl, List.eq_nil_of_length_eq_zero (by omega), ?_, rfl⟩
    cases hs : w.ser with
    | none => rfl
    | some e => rw [hs] at hn; simp at hn
  | n + 1, now, w, h, hn => by
    by_cases hfirst : ∃ p t, w.ser = some (p, t) ∧ ∀ e ∈ w.fly, t ≤ e.2
    · obtain ⟨p, t, hs, hall⟩ := hfirst
      obtain ⟨hnt, _⟩ := h.ser p t hs
      have hw : w.waits t = true := by
        simp only [waits, hs, Bool.and_eq_true, List.all_eq_true, decide_eq_true_eq]
        exact ⟨by simp, hall⟩
      have hp : w.pass delay t = some { w with ser := none, fly := w.fly ++ [(p, t + delay)] } := by simp [pass, hs]
      have hi := (pass_ok hd (advance_ok h hnt hw) hp).1
      obtain ⟨es, now', w', h1, h2, h3, h4⟩ := drain_ok hd n t _ hi (by
        rw [hs] at hn
        simp at hn ⊢
        omega)
      refine ⟨.advance t :: .pass :: es, now', w', ?_, h2, h3, h4⟩
      simp only [Wire.run, Wire.step]
      rw [if_pos ⟨hnt, hw⟩]
      simp only [Option.bind_some, hp, Option.map_some]
      exact h1
    · cases hf : w.fly with
      | nil =>
        cases hs : w.ser with
        | none => exact ⟨[], now, w, rfl, hf, hs, rfl⟩
        | some e =>
          exfalso
          refine hfirst ⟨e.1, e.2, hs, ?_⟩
          rw [hf]; nofun
      | cons e rest =>
        have he := (h.later e (by rw [hf]; simp)).1
        have hsrt := h.sorted
        rw [hf] at hsrt
        have hle : ∀ x ∈ w.fly, e.2 ≤ x.2 := by
          rw [hf]
          intro x hx
          rcases List.mem_cons.mp hx with rfl | hx
          · exact Nat.le_refl _
          · exact Nat.le_of_lt ((List.pairwise_cons.mp hsrt).1 x hx)
        have hw : w.waits e.2 = true := by
          simp only [waits, Bool.and_eq_true, List.all_eq_true, decide_eq_true_eq]
          refine ⟨?_, hle⟩
          cases hs : w.ser with
          | none => rfl
          | some x =>
            simp only [Option.all_some, decide_eq_true_eq]
            rcases Nat.lt_or_ge x.2 e.2 with hlt | hge
            · exact absurd ⟨x.1, x.2, hs, fun y hy => by have := hle y hy; omega⟩ hfirst
            · exact hge
        have ha : w.arrive e.2 0 = some (e.1, { w with fly := rest, got := w.got ++ [(e.1, e.2)] }) := by
          simp [arrive, hf]
        have hi := (arrive_ok (advance_ok h he hw) ha).1
        obtain ⟨es, now', w', h1, h2, h3, h4⟩ := drain_ok hd n e.2 _ hi (by
          rw [hf] at hn
          simp at hn ⊢
          omega)
        refine ⟨.advance e.2 :: .arrive 0 :: es, now', w', ?_, h2, h3, h4⟩
        simp only [Wire.run, Wire.step]
        rw [if_pos ⟨he, hw⟩]
        simp only [Option.bind_some, ha, Option.map_some]
        exact h1

end Wire

open Spec

theorem link_run_append (steps : Nat) : ∀ (es fs : List (Bool × PortAct)) (l : Link),
    Link.run steps l (es ++ fs) = (match Link.run steps l es with | .ok l => Link.run steps l fs | .error e => .error e)
  | [], _, _ => rfl
  | e :: es, fs, l => by
    simp only [List.cons_append, Link.run]
    cases Link.step steps l e with
    | error x => rfl
    | ok l => exact link_run_append steps es fs l

namespace TimedLink

/-- Both wires are in order. -/
def Inv (dur : Pkt → Nat) (delay : Nat) (l : TimedLink) : Prop := Wire.Inv dur delay l.now l.ab ∧ Wire.Inv dur delay l.now l.ba

theorem Inv.swap {dur : Pkt → Nat} {delay : Nat} {l : TimedLink} (h : Inv dur delay l) : Inv dur delay l.swap := ⟨h.2, h.1⟩

/-- What the untimed link does. -/
def toLink : Py TimedLink → Py Link
  | .ok l => .ok (untimed l)
  | .error e => .error e

variable {dur : Pkt → Nat} {delay steps : Nat}

theorem stepA_ok {l : TimedLink} (hdur : ∀ p, 0 < dur p) (hd : 0 < delay) (h : Inv dur delay l) {e : TimedAct} {r : Py TimedLink}
    (hs : l.stepA dur delay steps e = some r) :
    (∃ es, Link.run steps (untimed l) es = toLink r ∧ es.length ≤ 1) ∧ ∀ l', r = .ok l' → Inv dur delay l' := by
  cases e with
  | act e =>
    cases e with
    | send t =>
      simp only [stepA] at hs
      cases ht : l.a.send t with
      | none =>
        rw [ht] at hs; cases hs
        exact ⟨⟨[], rfl, Nat.zero_le _⟩, by rintro _ ⟨⟩; exact h⟩
      | some p =>
        rw [ht] at hs; cases hs
        refine ⟨⟨[(true, .send t)], ?_, Nat.le_refl _⟩, by rintro _ ⟨⟩; exact h⟩
        simp [Link.run, Link.step, Link.stepA, untimed, ht, toLink]
    | release token =>
      cases hs
      exact ⟨⟨[(true, .release token)], rfl, Nat.le_refl _⟩, by rintro _ ⟨⟩; exact h⟩
    | ackTimeout =>
      cases hs
      exact ⟨⟨[(true, .ackTimeout)], rfl, Nat.le_refl _⟩, by rintro _ ⟨⟩; exact h⟩
    | fcTimeout =>
      cases hs
      exact ⟨⟨[(true, .fcTimeout)], rfl, Nat.le_refl _⟩, by rintro _ ⟨⟩; exact h⟩
    | take =>
      cases hs
      exact ⟨⟨[(true, .take)], rfl, Nat.le_refl _⟩, by rintro _ ⟨⟩; exact h⟩
    | transmit n => cases hs
    | recv => cases hs
  | transmit =>
    simp only [stepA] at hs
    split at hs
    · cases hs
    · rename_i hser
      split at hs
      · rename_i p hp
        cases hs
        refine ⟨⟨[(true, .transmit l.now)], ?_, Nat.le_refl _⟩, by rintro _ ⟨⟩; exact h⟩
        simp [Link.run, Link.step, Link.stepA, untimed, hp, toLink]
      · rename_i p pkt hp
        rw [Option.map_eq_some_iff] at hs
        obtain ⟨w, hw, rfl⟩ := hs
        obtain ⟨g1, g2, _⟩ := Wire.start_ok (hdur pkt) h.1 hw
        refine ⟨⟨[(true, .transmit l.now)], ?_, Nat.le_refl _⟩, by rintro _ ⟨⟩; exact ⟨g1, h.2⟩⟩
        simp only [Wire.pkts] at g2
        simp [Link.run, Link.step, Link.stepA, untimed, hp, toLink, g2]
  | pass =>
    simp only [stepA, Option.map_eq_some_iff] at hs
    obtain ⟨w, hw, rfl⟩ := hs
    obtain ⟨g1, g2, _⟩ := Wire.pass_ok hd h.1 hw
    refine ⟨⟨[], ?_, Nat.zero_le _⟩, by rintro _ ⟨⟩; exact ⟨g1, h.2⟩⟩
    simp only [Wire.pkts] at g2
    simp [Link.run, untimed, toLink, g2]
  | arrive i =>
    simp only [stepA, Option.map_eq_some_iff] at hs
    obtain ⟨⟨p, w⟩, hw, rfl⟩ := hs
    obtain ⟨g1, g2, _⟩ := Wire.arrive_ok h.1 hw
    simp only [Wire.pkts] at g2
    refine ⟨⟨[(false, .recv)], ?_, Nat.le_refl _⟩, ?_⟩
    · simp only [Link.run, Link.step, Link.swap, Link.stepA, untimed, g2]
      cases l.b.recv p <;> simp [toLink, untimed, Link.swap]
    · intro l' hl
      cases hb : l.b.recv p with
      | error x => rw [hb] at hl; cases hl
      | ok q => rw [hb] at hl; cases hl; exact ⟨g1, h.2⟩

theorem untimed_swap (l : TimedLink) : untimed l.swap = (untimed l).swap := rfl

theorem link_swap_swap (l : Link) : l.swap.swap = l := rfl

theorem run_swap : ∀ (es : List (Bool × PortAct)) (l : Link),
    Link.run steps l.swap (es.map fun e => (!e.1, e.2)) = (match Link.run steps l es with | .ok l => .ok l.swap | .error e => .error e)
  | [], _ => rfl
  | (b, e) :: es, l => by
    simp only [List.map_cons, Link.run]
    have hstep : Link.step steps l.swap (!b, e) = (match Link.step steps l (b, e) with | .ok l => .ok l.swap | .error e => .error e) := by
      cases b with
      | true =>
        simp only [Link.step, Bool.not_true, Bool.false_eq_true, if_false, if_true, link_swap_swap]
        cases l.stepA steps e <;> rfl
      | false =>
        simp only [Link.step, Bool.not_false, if_true, Bool.false_eq_true, if_false]
        cases l.swap.stepA steps e <;> rfl
    rw [hstep]
    cases hb : Link.step steps l (b, e) with
    | error x => rfl
    | ok l' => exact run_swap es l'

theorem step_ok {l : TimedLink} (hdur : ∀ p, 0 < dur p) (hd : 0 < delay) (h : Inv dur delay l) {e : TimedEv} {r : Py TimedLink}
    (hs : l.step dur delay steps e = some r) :
    (∃ es, Link.run steps (untimed l) es = toLink r ∧ es.length ≤ 1) ∧ ∀ l', r = .ok l' → Inv dur delay l' := by
  cases e with
  | port b e =>
    cases b with
    | true => exact stepA_ok hdur hd h hs
    | false =>
      simp only [step, Option.map_eq_some_iff] at hs
      obtain ⟨r', hr', rfl⟩ := hs
      obtain ⟨⟨es, h1, h3⟩, h2⟩ := stepA_ok hdur hd h.swap hr'
      refine ⟨⟨es.map fun e => (!e.1, e.2), ?_, by rw [List.length_map]; exact h3⟩, ?_⟩
      · have := run_swap (steps := steps) es (untimed l.swap)
        rw [untimed_swap, link_swap_swap, ← untimed_swap, h1] at this
        rw [this]
        cases r' <;> rfl
      · intro l' hl
        cases hr : r' with
        | error x => rw [hr] at hl; cases hl
        | ok q => rw [hr] at hl; cases hl; exact (h2 q hr).swap
  | advance t =>
    simp only [step] at hs
    split at hs
    · rename_i hc
      cases hs
      refine ⟨⟨[], rfl, Nat.zero_le _⟩, ?_⟩
      rintro _ ⟨⟩
      exact ⟨Wire.advance_ok h.1 hc.1 hc.2.1, Wire.advance_ok h.2 hc.1 hc.2.2⟩
    · cases hs

theorem run_ok (hdur : ∀ p, 0 < dur p) (hd : 0 < delay) : ∀ (es : List TimedEv) (l : TimedLink) (r : Py TimedLink), Inv dur delay l →
    l.run dur delay steps es = some r → (∃ fs, Link.run steps (untimed l) fs = toLink r) ∧ ∀ l', r = .ok l' → Inv dur delay l'
  | [], l, r, h, hr => by
    cases hr
    exact ⟨⟨[], rfl⟩, by rintro _ ⟨⟩; exact h⟩
  | e :: es, l, r, h, hr => by
    simp only [run] at hr
    cases hs : step dur delay steps l e with
    | none => rw [hs] at hr; cases hr
    | some r1 =>
      rw [hs] at hr
      obtain ⟨⟨f1, h1, -⟩, h2⟩ := step_ok hdur hd h hs
      cases r1 with
      | error x =>
        have hr : some (Except.error x) = some r := hr
        rw [← Option.some.inj hr]
        exact ⟨⟨f1, h1⟩, fun l' hl => by cases hl⟩
      | ok l1 =>
        obtain ⟨⟨f2, h3⟩, h4⟩ := run_ok hdur hd es l1 r (h2 l1 rfl) hr
        refine ⟨⟨f1 ++ f2, ?_⟩, h4⟩
        rw [link_run_append, h1]
        exact h3

end TimedLink

namespace SimPort
open Spec

theorem agree_lower {a b : Option Nat} (ha : a ≠ some 0) (hb : b ≠ some 0) : agree a b = lower a b ∧ agree b a = lower a b := by
  match a, b with
  | some 0, _ => exact absurd rfl ha
  | _, some 0 => exact absurd rfl hb
  | none, none => exact ⟨rfl, rfl⟩
  | none, some (_ + 1) => exact ⟨rfl, rfl⟩
  | some (_ + 1), none => exact ⟨rfl, rfl⟩
  | some (m + 1), some (n + 1) =>
    refine ⟨rfl, ?_⟩
    show some (min (n + 1) (m + 1)) = some (min (m + 1) (n + 1))
    rw [Nat.min_comm]

/-- What `_connect_int` leaves behind. -/
theorem connectInt_ok {p port q : SimPort} {i scale : Nat} (h : connectInt p i port scale = .ok q) :
    q.other = some i ∧ q.curSpeed = agree p.maxSpeed port.maxSpeed ∧ q.curWidth = agree p.maxWidth port.maxWidth ∧
    q.maxSpeed = p.maxSpeed ∧ q.maxWidth = p.maxWidth ∧ q.portDelay = p.portDelay ∧
    ((∃ s w n d, q.curSpeed = some s ∧ q.curWidth = some w ∧ genRate s = some (n, d) ∧ 0 < w ∧ q.symbolPeriod = (8 * d, n * w) ∧
        q.linkDelay = (p.portDelay + port.portDelay) * scale / 10 ^ 15) ∨
     ((q.curSpeed = none ∨ q.curWidth = none) ∧ q.symbolPeriod = (0, 1) ∧ q.linkDelay = 0)) := by
  unfold connectInt at h
  split at h
  · cases h
  · simp only at h
    cases hw : agree p.maxWidth port.maxWidth with
    | none =>
      rw [hw] at h
      cases h
      exact ⟨rfl, rfl, rfl, rfl, rfl, rfl, .inr ⟨.inr rfl, rfl, rfl⟩⟩
    | some w =>
      cases hs : agree p.maxSpeed port.maxSpeed with
      | none =>
        rw [hw, hs] at h
        cases h
        exact ⟨rfl, rfl, rfl, rfl, rfl, rfl, .inr ⟨.inl rfl, rfl, rfl⟩⟩
      | some s =>
        rw [hw, hs] at h
        simp only at h
        cases hg : genRate s with
        | none => rw [hg] at h; cases h
        | some nd =>
          rw [hg] at h
          obtain ⟨n, d⟩ := nd
          simp only at h
          split at h
          · cases h
          · cases h
            exact ⟨rfl, rfl, rfl, rfl, rfl, rfl, .inl ⟨s, w, n, d, rfl, rfl, hg, by omega, rfl, rfl⟩⟩

/-- `connect` is `_connect_int` on both sides. -/
theorem connect_split {ps qs : Nat → SimPort} {i j scale : Nat} (hij : i ≠ j) (h : connect ps i j scale = .ok qs) :
    ∃ p q, connectInt (ps j) i (ps i) scale = .ok q ∧ connectInt (ps i) j q scale = .ok p ∧ qs i = p ∧ qs j = q ∧ ∀ k, k ≠ i → k ≠ j → qs k = ps k := by
  unfold connect at h
  split at h
  · cases h
  · cases hq : connectInt (ps j) i (ps i) scale with
    | error e => rw [hq] at h; cases h
    | ok q =>
      rw [hq] at h
      simp only [if_true] at h
      rw [if_neg hij] at h
      cases hp : connectInt (ps i) j q scale with
      | error e => rw [hp] at h; cases h
      | ok p =>
        rw [hp] at h
        cases h
        refine ⟨p, q, rfl, hp, by simp, by simp [hij.symm], fun k h1 h2 => by simp [h1, h2]⟩

theorem connect_rate {ps qs : Nat → SimPort} {i j scale : Nat} (hij : i ≠ j) (h : connect ps i j scale = .ok qs) {s w : Nat}
    (hs : (qs i).curSpeed = some s) (hw : (qs i).curWidth = some w) :
    ∃ n d, genRate s = some (n, d) ∧ (qs i).symbolPeriod = (8 * d, n * w) ∧ 0 < w := by
  obtain ⟨p, q, _, h2, rfl, _, _⟩ := connect_split hij h
  obtain ⟨_, _, _, _, _, _, h3⟩ := connectInt_ok h2
  rcases h3 with ⟨s', w', n, d, a1, a2, a3, a4, a5, _⟩ | ⟨a1, _⟩
  · rw [hs] at a1; rw [hw] at a2
    cases a1; cases a2
    exact ⟨n, d, a3, a5, a4⟩
  · rw [hs, hw] at a1
    rcases a1 with a1 | a1 <;> cases a1

theorem connect_ok {ps qs : Nat → SimPort} {i j scale : Nat} (hij : i ≠ j) (h : connect ps i j scale = .ok qs)
    (hz : ∀ k, (ps k).maxSpeed ≠ some 0 ∧ (ps k).maxWidth ≠ some 0) :
    (qs i).other = some j ∧ (qs j).other = some i ∧
    (qs i).curSpeed = lower (ps i).maxSpeed (ps j).maxSpeed ∧ (qs j).curSpeed = (qs i).curSpeed ∧
    (qs i).curWidth = lower (ps i).maxWidth (ps j).maxWidth ∧ (qs j).curWidth = (qs i).curWidth ∧
    (qs j).symbolPeriod = (qs i).symbolPeriod ∧ (qs j).linkDelay = (qs i).linkDelay ∧
    ((qs i).curSpeed.isSome ∧ (qs i).curWidth.isSome → (qs i).linkDelay = ((ps i).portDelay + (ps j).portDelay) * scale / 10 ^ 15) ∧
    ∀ k, k ≠ i → k ≠ j → qs k = ps k := by
  obtain ⟨p, q, h1, h2, rfl, rfl, h3⟩ := connect_split hij h
  obtain ⟨a1, a2, a3, a4, a5, a6, a7⟩ := connectInt_ok h1
  obtain ⟨b1, b2, b3, b4, b5, b6, b7⟩ := connectInt_ok h2
  rw [a4] at b2
  rw [a5] at b3
  have ls := agree_lower (hz i).1 (hz j).1
  have lw := agree_lower (hz i).2 (hz j).2
  rw [ls.2] at a2
  rw [ls.1] at b2
  rw [lw.2] at a3
  rw [lw.1] at b3
  refine ⟨b1, a1, b2, by rw [a2, b2], b3, by rw [a3, b3], ?_, ?_, ?_, h3⟩
  · rcases a7 with ⟨s, w, n, d, c1, c2, c3, c4, c5, c6⟩ | ⟨c1, c2, c3⟩ <;> rcases b7 with ⟨s', w', n', d', e1, e2, e3, e4, e5, e6⟩ | ⟨e1, e2, e3⟩
    · rw [a2] at c1; rw [b2, c1] at e1; cases e1
      rw [a3] at c2; rw [b3, c2] at e2; cases e2
      rw [c3] at e3; cases e3
      rw [c5, e5]
    · rw [a2] at c1; rw [a3] at c2; rw [b2, b3, c1, c2] at e1
      rcases e1 with e | e <;> cases e
    · rw [b2] at e1; rw [b3] at e2; rw [a2, a3, e1, e2] at c1
      rcases c1 with e | e <;> cases e
    · rw [c2, e2]
  · rcases a7 with ⟨s, w, n, d, c1, c2, c3, c4, c5, c6⟩ | ⟨c1, c2, c3⟩ <;> rcases b7 with ⟨s', w', n', d', e1, e2, e3, e4, e5, e6⟩ | ⟨e1, e2, e3⟩
    · rw [c6, e6, a6, Nat.add_comm]
    · rw [a2] at c1; rw [a3] at c2; rw [b2, b3, c1, c2] at e1
      rcases e1 with e | e <;> cases e
    · rw [b2] at e1; rw [b3] at e2; rw [a2, a3, e1, e2] at c1
      rcases c1 with e | e <;> cases e
    · rw [c3, e3]
  · rintro ⟨g1, g2⟩
    rcases b7 with ⟨s', w', n', d', e1, e2, e3, e4, e5, e6⟩ | ⟨e1, e2, e3⟩
    · rw [e6, a6]
    · rcases e1 with e | e <;> simp [e] at g1 g2

end SimPort
end Pcie
