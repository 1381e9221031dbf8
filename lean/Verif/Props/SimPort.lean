import Verif.Lemmas.SimPort
import Verif.Props.Link
import Verif.Props.Tlp
/-
C47: the link delivers packets in order, after the time they take on the wire and a constant delay.
-/
namespace Pcie
open Spec

section
variable {α : Type} (size : α → Nat) (p : SimPort) (scale : Nat)

/-- The timers of a port for packets of the given sizes. -/
abbrev wireRun (t0 : Nat) (es : List (WireEv α)) : Option (Nat × Wire α) := Wire.run (fun x => p.duration scale (size x)) p.delay (t0, {}) es

theorem wireRun_inv {t0 : Nat} {es : List (WireEv α)} {now : Nat} {w : Wire α} (h : wireRun size p scale t0 es = some (now, w)) :
    Wire.Inv (fun x => p.duration scale (size x)) p.delay now w :=
  Wire.run_ok (fun _ => Nat.le_max_right _ _) (Nat.le_max_right _ _) es (t0, {}) (now, w) (Wire.inv_init _ _ _) h

/-- In order: whatever the ports, packets and timing, and whatever the order in which timers of the same time expire, what has arrived, followed by what is on the wire, is
what was sent. -/
theorem C47_order (t0 : Nat) (es : List (WireEv α)) (now : Nat) (w : Wire α) (h : wireRun size p scale t0 es = some (now, w)) :
    w.got.map (·.1) ++ w.fly.map (·.1) ++ (w.ser.map (·.1)).toList = w.sent.map (·.1) := by
  have hh := congrArg (List.map (·.1)) (wireRun_inv size p scale h).hist
  simp only [List.map_map, List.map_append] at hh
  rw [show (fun e : α × Nat => e.1) = ((fun x : α × Nat => x.1) ∘ fun e : α × Nat => (e.1, e.2 + p.duration scale (size e.1) + p.delay)) from rfl, hh]
  congr 1
  cases w.ser <;> rfl

/-- The times: a packet arrives exactly when its symbols have been sent and the delay of the link has passed. -/
theorem C47_latency (t0 : Nat) (es : List (WireEv α)) (now : Nat) (w : Wire α) (h : wireRun size p scale t0 es = some (now, w))
    (i : Nat) (x : α) (t : Nat) (hi : w.got[i]? = some (x, t)) :
    ∃ s, w.sent[i]? = some (x, s) ∧ t = s + p.duration scale (size x) + p.delay := by
  have hh := congrArg (·[i]?) (wireRun_inv size p scale h).hist
  have hl := (List.getElem?_eq_some_iff.mp hi).1
  rw [List.append_assoc, List.getElem?_append_left hl, hi, List.getElem?_map, Option.map_eq_some_iff] at hh
  obtain ⟨⟨y, s⟩, h1, h2⟩ := hh
  obtain ⟨rfl, rfl⟩ := Prod.mk.inj h2
  exact ⟨s, h1, rfl⟩

/-- In time: a packet that could have arrived before now has arrived. -/
theorem C47_deadline (t0 : Nat) (es : List (WireEv α)) (now : Nat) (w : Wire α) (h : wireRun size p scale t0 es = some (now, w))
    (i : Nat) (x : α) (s : Nat) (hi : w.sent[i]? = some (x, s)) (hn : s + p.duration scale (size x) + p.delay < now) :
    w.got[i]? = some (x, s + p.duration scale (size x) + p.delay) := by
  have hv := wireRun_inv size p scale h
  have hh := congrArg (·[i]?) hv.hist
  rw [List.getElem?_map, hi, Option.map_some] at hh
  rcases Nat.lt_or_ge i w.got.length with hl | hl
  · rw [List.append_assoc, List.getElem?_append_left hl] at hh
    exact hh.symm
  · exfalso
    rw [List.append_assoc, List.getElem?_append_right hl] at hh
    have hm := List.mem_of_getElem? hh.symm
    rcases List.mem_append.mp hm with hm | hm
    · have := (hv.later _ hm).1
      simp only at this
      omega
    · rw [Option.mem_toList, Option.map_eq_some_iff] at hm
      obtain ⟨⟨y, t⟩, h1, h2⟩ := hm
      have := (hv.ser y t h1).1
      have := (Prod.mk.inj h2).2
      simp only at this
      omega

/-- One at a time: the next packet starts when the symbols of the last one have been sent. -/
theorem C47_serialised (t0 : Nat) (es : List (WireEv α)) (now : Nat) (w : Wire α) (h : wireRun size p scale t0 es = some (now, w)) :
    w.sent.Pairwise fun x y => x.2 + p.duration scale (size x.1) ≤ y.2 :=
  (wireRun_inv size p scale h).serial

/-- Nothing is stuck: after every history there are further events after which everything has arrived. -/
theorem C47_delivered (t0 : Nat) (es : List (WireEv α)) (now : Nat) (w : Wire α) (h : wireRun size p scale t0 es = some (now, w)) :
    ∃ fs now' w', wireRun size p scale t0 (es ++ fs) = some (now', w') ∧ w'.sent = w.sent ∧ w'.got.map (·.1) = w.sent.map (·.1) := by
  obtain ⟨fs, now', w', h1, h2, h3, h4⟩ := Wire.drain_ok (Nat.le_max_right _ _) _ now w (wireRun_inv size p scale h) (Nat.le_refl _)
  have hr : wireRun size p scale t0 (es ++ fs) = some (now', w') := by
    have h : Wire.run _ _ (t0, {}) es = some (now, w) := h
    rw [wireRun, Wire.wire_run_append, h]
    exact h1
  refine ⟨fs, now', w', hr, h4, ?_⟩
  have := C47_order size p scale t0 _ now' w' hr
  rw [h2, h3] at this
  rw [← h4, ← this]; simp

end

/-- The rate: after two ports have been connected, a packet of `size` symbols takes its physical time on the wire, rounded down to whole steps, and at least one step. -/
theorem C47_rate (ps qs : Nat → SimPort) (i j scale : Nat) (hij : i ≠ j) (h : SimPort.connect ps i j scale = .ok qs) (s w : Nat)
    (hs : (qs i).curSpeed = some s) (hw : (qs i).curWidth = some w) (size : Nat) :
    let bits := size * 8 * (lineRate s).2 * scale
    let perStep := (lineRate s).1 * w
    0 < perStep ∧ 1 ≤ (qs i).duration scale size ∧ (qs i).duration scale size * perStep ≤ max bits perStep ∧ bits < ((qs i).duration scale size + 1) * perStep := by
  obtain ⟨n, d, g1, g2, g3⟩ := SimPort.connect_rate hij h hs hw
  intro bits perStep
  have e0 : ∀ s n d, genRate s = some (n, d) → lineRate s = (n, d) ∧ 0 < n := by
    intro s n d g
    match s with
    | 0 => cases g
    | 1 => cases g; exact ⟨rfl, by decide⟩
    | 2 => cases g; exact ⟨rfl, by decide⟩
    | 3 => cases g; exact ⟨rfl, by decide⟩
    | 4 => cases g; exact ⟨rfl, by decide⟩
    | 5 => cases g; exact ⟨rfl, by decide⟩
    | _ + 6 => cases g
  obtain ⟨e1, hn⟩ := e0 s n d g1
  have e2 : (qs i).duration scale size = max (bits / perStep) 1 := by
    simp only [SimPort.duration, g2, bits, perStep, e1, Nat.mul_assoc]
  have hp : 0 < perStep := by simp only [perStep, e1]; exact Nat.mul_pos hn g3
  have hm := Nat.div_add_mod bits perStep
  have hlt := Nat.mod_lt bits hp
  rw [e2]
  refine ⟨hp, Nat.le_max_right _ _, ?_, ?_⟩
  · rcases Nat.le_total (bits / perStep) 1 with hc | hc
    · rw [Nat.max_eq_right hc, Nat.one_mul]; exact Nat.le_max_right _ _
    · rw [Nat.max_eq_left hc]
      refine Nat.le_trans ?_ (Nat.le_max_left _ _)
      exact Nat.div_mul_le_self _ _
  · have : bits < (bits / perStep + 1) * perStep := by
      rw [Nat.add_mul, Nat.one_mul, Nat.mul_comm (bits / perStep)]; omega
    exact Nat.lt_of_lt_of_le this (Nat.mul_le_mul_right _ (by omega))

/-- Connecting: both ports have each other, the lower of the speeds and widths, and the same timing. -/
theorem C47_connect (ps qs : Nat → SimPort) (i j scale : Nat) (hij : i ≠ j) (h : SimPort.connect ps i j scale = .ok qs)
    (hz : ∀ k, (ps k).maxSpeed ≠ some 0 ∧ (ps k).maxWidth ≠ some 0) :
    (qs i).other = some j ∧ (qs j).other = some i ∧
    (qs i).curSpeed = lower (ps i).maxSpeed (ps j).maxSpeed ∧ (qs j).curSpeed = (qs i).curSpeed ∧
    (qs i).curWidth = lower (ps i).maxWidth (ps j).maxWidth ∧ (qs j).curWidth = (qs i).curWidth ∧
    (qs j).symbolPeriod = (qs i).symbolPeriod ∧ (qs j).linkDelay = (qs i).linkDelay ∧
    ((qs i).curSpeed.isSome ∧ (qs i).curWidth.isSome → (qs i).linkDelay = ((ps i).portDelay + (ps j).portDelay) * scale / 10 ^ 15) ∧
    ∀ k, k ≠ i → k ≠ j → qs k = ps k := SimPort.connect_ok hij h hz

/-- A port that is connected stays so: connecting it again raises an exception. -/
theorem C47_exclusive (ps : Nat → SimPort) (i j scale : Nat) (h : (ps i).other ≠ none ∨ (ps j).other ≠ none) :
    ∃ e, SimPort.connect ps i j scale = .error e := by
  have hi : ∀ o : Option Nat, o ≠ none → o.isSome = true := fun o ho => by cases o with | none => exact absurd rfl ho | some _ => rfl
  unfold SimPort.connect
  by_cases h1 : (ps i).other.isSome = true
  · rw [if_pos h1]; exact ⟨_, rfl⟩
  · rw [if_neg h1]
    rcases h with h | h
    · exact absurd (hi _ h) h1
    · rw [SimPort.connectInt, if_pos (hi _ h)]; exact ⟨_, rfl⟩

/-- The timed link does what the link of C21-C25 does: after every timed history, the ports and the packets on the wires are those of a history of the link without time
(`Reach`), so that everything proved of those holds with any link delay; and no port ever raises an exception. -/
theorem C47_link (sp : SimPort) (scale steps : Nat) (l0 : TimedLink) (h0 : FreshTimed l0) (es : List TimedEv) (r : Py TimedLink)
    (hr : l0.run (fun x => sp.duration scale x.wireSize) sp.delay steps es = some r) : ∃ l, r = .ok l ∧ Reach steps (untimed l) := by
  obtain ⟨h1, h2, h3⟩ := h0
  obtain ⟨⟨fs, g1⟩, _⟩ := TimedLink.run_ok (dur := fun x => sp.duration scale x.wireSize) (delay := sp.delay) (steps := steps) (fun _ => Nat.le_max_right _ _)
    (Nat.le_max_right _ _) es l0 r (by rw [TimedLink.Inv, h1, h2]; exact ⟨Wire.inv_init _ _ _, Wire.inv_init _ _ _⟩) hr
  obtain ⟨l, hl⟩ := C21_no_error steps (untimed l0) h3 fs
  rw [hl] at g1
  cases r with
  | error e => cases g1
  | ok l' =>
    simp only [TimedLink.toLink, Except.ok.injEq] at g1
    exact ⟨l', rfl, untimed l0, fs, h3, by rw [← g1]; exact hl⟩

/-- What occupies the wire: a DLLP 8 symbols (2 framing, 4 content, 2 check), a TLP the bytes that are sent plus 8 (2 framing, 2 sequence number, 4 check). -/
theorem C47_size (d : Dllp) (t : Tlp) (ty : TlpType) (he : Encodable ty t) :
    (Pkt.dllp d).wireSize = 2 + 4 + 2 ∧ ∃ b, t.pack = .ok b ∧ (Pkt.tlp t).wireSize = b.length + 2 + 2 + 4 := by
  refine ⟨rfl, ?_⟩
  obtain ⟨hdr, _, h1, h2⟩ := C04_pack_wire_format ty t he
  refine ⟨_, h1, ?_⟩
  simp only [Pkt.wireSize, Tlp.wireSize, Tlp.size, Tlp.payloadSize, List.length_append, h2]

/-- For example, TLPs arrive in order whatever the delay. -/
theorem C47_in_order (sp : SimPort) (scale steps : Nat) (l0 : TimedLink) (h0 : FreshTimed l0) (es : List TimedEv) (l : TimedLink)
    (hr : l0.run (fun x => sp.duration scale x.wireSize) sp.delay steps es = some (.ok l)) :
    l.b.delivered.map content <+: l.a.accepted.map content := by
  obtain ⟨l', h1, h2⟩ := C47_link sp scale steps l0 h0 es _ hr
  cases h1
  have := C24_in_order_partial steps (untimed l) h2
  rw [List.map_append, List.map_append, List.append_assoc] at this
  exact ⟨_, this⟩

/-- A Gen 3 x16 port; a Gen 4 x8 port; connected, in femtoseconds. -/
def exPorts : Nat → SimPort := fun k => if k = 0 then { maxSpeed := some 3, maxWidth := some 16 } else { maxSpeed := some 4, maxWidth := some 8 }

/- The hypotheses can be met: a DLLP and a TLP of 276 bytes take 1 ns and 35 ns (at 1.015625 ns for 8 bytes on 8 lanes) and then 10 ns. -/
example : (SimPort.connect exPorts 0 1 (10 ^ 15)).toOption.map (fun qs => ((qs 0).curSpeed, (qs 1).curWidth, (qs 1).duration (10 ^ 15) 8, (qs 0).duration (10 ^ 15) 276,
    (qs 0).delay)) = some (some 3, some 8, 1015625, 35039062, 10000000) := by decide +kernel
example : ((SimPort.connect exPorts 0 1 (10 ^ 15)).toOption.bind fun qs =>
    (wireRun id (qs 0) (10 ^ 15) 0 [.start 8, .advance 1015625, .pass, .start 16, .advance 3046875, .pass, .advance 11015625, .arrive 0, .advance 13046875, .arrive 0]).map
      fun s => (s.1, s.2.got)) = some (13046875, [(8, 11015625), (16, 13046875)]) := by decide +kernel
/- A timer that has not expired does not fire, and time does not pass it. -/
example : (wireRun id ({ symbolPeriod := (1, 1) } : SimPort) 1 0 [.start 8, .pass]).isNone ∧ (wireRun id ({ symbolPeriod := (1, 1) } : SimPort) 1 0 [.start 8, .advance 9]).isNone := by
  decide +kernel
example : FreshTimed { a := exFresh.a, b := exFresh.b } := ⟨rfl, rfl, exFresh_fresh⟩
example : ((TimedLink.run (fun x => ({ symbolPeriod := (1, 1) } : SimPort).duration 1 x.wireSize) 10 10 { a := exFresh.a, b := exFresh.b }
    [.port true .transmit, .port false .transmit, .advance 8, .port true .pass, .port false .pass, .port true .transmit, .advance 16, .port true .pass, .advance 18, .port true (.arrive 0)]).bind
      (·.toOption)).map (fun l => (l.now, l.ab.got.length, l.ab.fly.length, l.ba.fly.length)) = some (18, 1, 1, 1) := by decide +kernel

end Pcie
