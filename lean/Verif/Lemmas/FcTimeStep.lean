import Verif.Lemmas.FcTimeObs
/-
Every event of a clocked link changes what matters in one of the ways of `Tr`.
-/
namespace Pcie
open Spec
namespace FcTime

/-- The TLP that arrives next is the expected one. -/
theorem seq_ok {l : Link} (h : LinkInv False l) {t : Tlp} {rest : List Pkt} (ha : l.ab = .tlp t :: rest) : t.seq = l.b.nextRx := by
  obtain ⟨S, i, k, hs⟩ := h.da.seq
  have hf := hs.fl
  rw [ha, tlps_tlp] at hf
  have hn : l.b.nextRx = i % 4096 := hs.nrx
  have h0 := congrArg (·[0]?) hf
  simp only [List.getElem?_cons_zero, List.getElem?_drop, Nat.add_zero] at h0
  obtain ⟨hi, he⟩ := List.getElem?_eq_some_iff.mp h0.symm
  rw [numbered_getElem] at he
  rw [← he, hn]

/-- What the sender makes of a packet. -/
theorem recv_a {p q : Port} {pkt : Pkt} (h : p.recv pkt = .ok q) (h1 : p.fc.fi1 = true) (h2 : p.fc.fi2 = true) (w : Credit) :
    (counters q.fc w).txLimit = match pkt with | .dllp d => if d.type = updType w.1 then fld w d else (counters p.fc w).txLimit | .tlp _ => (counters p.fc w).txLimit := by
  cases pkt with
  | dllp d =>
    unfold Port.recv Port.handleDllp at h
    simp only at h ⊢
    split at h
    · next hn =>
      cases h
      rw [if_neg]; rw [hn]; cases w.1 <;> decide
    · split at h
      · next hn =>
        have hnu : ¬ d.type = updType w.1 := by
          rcases hn with hn | hn <;> rw [hn] <;> cases w.1 <;> decide
        rw [if_neg hnu]
        split at h
        · cases h; rfl
        · split at h
          · cases h; rfl
          · split at h
            · cases h
            · next p2 hp =>
              split at h
              · cases h
              · cases h; rw [Port.purge_fc hp]
      · split at h
        · split at h
          · next fc hf =>
            cases h
            simp only
            unfold FcCh.handleFc at hf
            rw [if_neg (by simp [h1]), if_neg (by simp [h2])] at hf
            obtain ⟨a, b⟩ := w
            split at hf
            · next hd =>
              split at hf
              · cases hf
                rw [hd]
                cases a <;> cases b <;> rfl
              · cases hf
            · split at hf
              · next hd =>
                split at hf
                · cases hf
                  rw [hd]
                  cases a <;> cases b <;> rfl
                · cases hf
              · split at hf
                · next hd =>
                  split at hf
                  · cases hf
                    rw [hd]
                    cases a <;> cases b <;> rfl
                  · cases hf
                · next x1 x2 x3 =>
                  cases hf
                  rw [if_neg]
                  cases a
                  · exact x1
                  · exact x2
                  · exact x3
          · cases h
        · cases h
  | tlp t =>
    unfold Port.recv Port.recvTlp at h
    simp only at h ⊢
    split at h
    · unfold FcCh.process at h
      split at h
      · cases h
      · next fc tok hp =>
        split at hp
        · cases hp
        · next ty hty =>
          injection hp with hp
          injection hp with hp1 hp2
          subst hp1
          injection h with h; subst h
          have := congrFun (congrArg TxC.tx (FcCh.rxConsume_txv p.fc ty t.copy.dataCredits)) w
          have := congrArg TxF.limit this
          obtain ⟨a, b⟩ := w
          cases a <;> cases b <;> exact this
    · split at h
      · cases h; rfl
      · split at h
        · cases h; rfl
        · cases h; rfl

theorem lim_of_txv {p q : Port} (h : q.fc.txv = p.fc.txv) : (fun w => (counters q.fc w).txLimit) = fun w => (counters p.fc w).txLimit := by
  funext w
  exact congrArg TxF.limit (congrFun (congrArg TxC.tx h) w)

theorem send_lim {p q : Port} {t : Tlp} (h : p.send t = some q) : (fun w => (counters q.fc w).txLimit) = fun w => (counters p.fc w).txLimit := by
  unfold Port.send at h
  split at h
  · cases h
  · split at h
    · cases h
      funext w
      simp only
      rw [FcCh.counters_txConsume]
      split
      · exact congrArg TxF.limit (FcState.txConsume_tx _ _)
      · rfl
    · cases h

theorem transmit_lim (p : Port) (now steps : Nat) : (fun w => (counters (p.transmit now steps).1.fc w).txLimit) = fun w => (counters p.fc w).txLimit := by
  rcases Port.transmit_cases p now steps with ⟨hs, he⟩ | ⟨fc, d, hf, hu, he⟩ | ⟨hn, he⟩ | ⟨sf, x, rest, hq, he⟩ | ⟨sf, he⟩
  · rw [he]
  · obtain ⟨ty, u0, u1, u2, u3, u4, u5, u6, u7⟩ := FcCh.update_some hu
    rw [he]; exact lim_of_txv (p := p) (q := { p with fc := fc }) u3
  · rw [he]
  · rw [he]
  · rw [he]

/-- Sending does not concern the receiver's side of a port. -/
theorem send_b {p q : Port} {t : Tlp} (h : p.send t = some q) : q.sendFc = p.sendFc ∧ nextUpdate q.fc = nextUpdate p.fc ∧ q.fc.dict = p.fc.dict ∧
    q.delivered = p.delivered ∧ q.sendAck = p.sendAck ∧ q.ackTimer = p.ackTimer := by
  have hr := (Port.send_frame h).1
  have hs : q.sendFc = p.sendFc := by
    unfold Port.send at h
    split at h
    · cases h
    · split at h
      · cases h; rfl
      · cases h
  exact ⟨hs, congrArg (fun v => v.fc.next) hr, congrArg (fun v => v.fc.dict) hr, congrArg RxView.delivered hr, congrArg RxView.sendAck hr, congrArg RxView.ackTimer hr⟩

theorem rel_eq {p q : Port} (h1 : q.fc.dict = p.fc.dict) (h2 : q.delivered = p.delivered) : rel q = rel p ∧ used q = used p := by
  unfold used
  refine ⟨?_, by rw [h1, h2]⟩
  funext w; unfold rel; rw [h1, h2]

theorem phi_eq {p q : Port} (h1 : q.sendAck = p.sendAck) (h2 : q.ackTimer = p.ackTimer) : phi q = phi p := by
  unfold phi; rw [h1, h2]

theorem initDllp_notUpd (c : FcCh) (x : FcType) : NotUpd (.dllp (c.initDllp x)) := by
  intro d hd ty
  cases hd
  rw [(FcCh.initDllp_type c x).1]
  split
  · exact (init_ne_upd x ty).2
  · exact (init_ne_upd x ty).1

theorem ack_notUpd (b : Bool) (n : Nat) : NotUpd (.dllp (if b then Dllp.createNak n else Dllp.createAck n)) := by
  intro d hd ty
  cases hd
  cases b <;> cases ty <;> simp [Dllp.createNak, Dllp.createAck] <;> decide

/-- What is needed of the state before. -/
structure Ok (cfg : ClockCfg) (c : ClockLink) : Prop where
  t : TimedLink.Inv cfg.dur cfg.delay c.l
  l : LinkInv False (untimed c.l)

/-- Both ports have finished the initialisation. -/
def Ready (c : ClockLink) : Prop := c.l.a.fc.fi2 = true ∧ c.l.b.fc.fi2 = true

theorem stepA_tr {cfg : ClockCfg} {c c' : ClockLink} {e : ClockAct} (h : Ok cfg c) (hs : c.stepA cfg e = some (.ok c')) :
    Tr cfg c.l.b.adv (Ready c) (obs cfg c) (obs cfg c') ∧ (c.l.b.fc.dict.length ≤ c.l.b.delivered.length → c'.l.b.fc.dict.length ≤ c'.l.b.delivered.length) := by
  -- nothing happens at `b` and on its wire
  have same : ∀ {a : Port} {ab : Wire Pkt} {ta : Timers}, (fun w => (counters a.fc w).txLimit) = (fun w => (counters c.l.a.fc w).txLimit) →
      c' = { l := { c.l with a := a, ab := ab }, ta := ta, tb := c.tb } →
      Tr cfg c.l.b.adv (Ready c) (obs cfg c) (obs cfg c') ∧ (c.l.b.fc.dict.length ≤ c.l.b.delivered.length → c'.l.b.fc.dict.length ≤ c'.l.b.delivered.length) := by
    intro a ab ta hl hc
    subst hc
    exact ⟨.quiet rfl rfl rfl rfl rfl rfl (Nat.le_refl _) (Nat.le_refl _) rfl hl, id⟩
  cases e with
  | idle =>
    simp only [ClockLink.stepA] at hs
    split at hs
    · cases hs; exact same (a := c.l.a.fcTimeout) rfl rfl
    · cases hs
  | timed e =>
    cases e with
    | act e =>
      cases e with
      | send t =>
        simp only [ClockLink.stepA, TimedLink.stepA] at hs
        cases ht : c.l.a.send t with
        | none => rw [ht] at hs; cases hs; exact same rfl rfl
        | some p => rw [ht] at hs; cases hs; exact same (send_lim ht) rfl
      | release token =>
        cases hs
        exact same (lim_of_txv (congrArg TxView.fc (Port.release_txv c.l.a token).1)) rfl
      | ackTimeout =>
        simp only [ClockLink.stepA] at hs
        split at hs
        · cases hs
          refine same ?_ rfl
          unfold Port.ackTimeout; split <;> rfl
        · cases hs
      | fcTimeout =>
        simp only [ClockLink.stepA] at hs
        split at hs
        · cases hs; exact same (a := c.l.a.fcTimeout) rfl rfl
        · cases hs
      | take => cases hs; exact same (a := c.l.a.take) rfl rfl
      | transmit n => cases hs
      | recv => cases hs
    | transmit =>
      simp only [ClockLink.stepA, TimedLink.stepA] at hs
      have hl := transmit_lim c.l.a c.l.now cfg.steps
      cases hser : c.l.ab.ser with
      | some _ => rw [hser] at hs; cases hs
      | none =>
        rw [hser] at hs
        cases ht : c.l.a.transmit c.l.now cfg.steps with
        | mk p pkt =>
          rw [ht] at hs hl
          cases pkt with
          | none => cases hs; exact same hl rfl
          | some pkt =>
            simp only [Option.map_map, Option.map_eq_some_iff, Function.comp] at hs
            obtain ⟨w, hw, hs⟩ := hs
            cases hs; exact same hl rfl
    | pass =>
      simp only [ClockLink.stepA, TimedLink.stepA, Option.map_map, Option.map_eq_some_iff, Function.comp] at hs
      obtain ⟨w, hw, hs⟩ := hs
      cases hs; exact same rfl rfl
    | arrive i =>
      simp only [ClockLink.stepA, TimedLink.stepA, Option.map_map, Option.map_eq_some_iff, Function.comp] at hs
      obtain ⟨⟨p, w⟩, hw, hs⟩ := hs
      cases hb : c.l.b.recv p with
      | error x => simp only [hb] at hs; cases hs
      | ok q =>
        simp only [hb] at hs
        cases hs
        have hab : (untimed c.l).ab = p :: w.pkts := (Wire.arrive_ok h.t.1 hw).2.1
        obtain ⟨r1, r2, r3, r4, r5, r6⟩ := recv_b hb (fun t ht => by subst ht; exact seq_ok h.l hab)
        exact ⟨.quiet rfl rfl rfl r1 r2 r3 r4 r5 rfl rfl, r6⟩

theorem stepB_tr {cfg : ClockCfg} {c c' : ClockLink} {e : ClockAct} (h : Ok cfg c) (hd : c.l.b.fc.dict.length ≤ c.l.b.delivered.length)
    (hs : c.swap.stepA cfg e = some (.ok c')) :
    Tr cfg c.l.b.adv (Ready c) (obs cfg c) (obs cfg c'.swap) ∧ c'.l.a.fc.dict.length ≤ c'.l.a.delivered.length := by
  -- `b` changes nothing that matters
  have same : ∀ {b : Port}, b.sendFc = c.l.b.sendFc → nextUpdate b.fc = nextUpdate c.l.b.fc → b.fc.dict = c.l.b.fc.dict → b.delivered = c.l.b.delivered →
      phi b ≤ phi c.l.b → ∀ {ta : Timers}, ta.fcAt = c.tb.fcAt → c' = { l := { c.l.swap with a := b }, ta := ta, tb := c.ta } →
      Tr cfg c.l.b.adv (Ready c) (obs cfg c) (obs cfg c'.swap) ∧ c'.l.a.fc.dict.length ≤ c'.l.a.delivered.length := by
    intro b h1 h2 h3 h4 h5 ta h6 hc
    subst hc
    obtain ⟨k1, k2⟩ := rel_eq h3 h4
    exact ⟨.quiet rfl rfl rfl h1 h2 k1 (by show phi b + used c.l.b ≤ phi c.l.b + used b; omega) (by show used c.l.b ≤ used b; omega) h6 rfl,
      by show b.fc.dict.length ≤ _; rw [h3]; show _ ≤ b.delivered.length; rw [h4]; exact hd⟩
  cases e with
  | idle =>
    simp only [ClockLink.stepA] at hs
    split at hs
    · cases hs
      exact ⟨.fire rfl rfl rfl rfl rfl rfl rfl rfl (.inl rfl) rfl, hd⟩
    · cases hs
  | timed e =>
    cases e with
    | act e =>
      cases e with
      | send t =>
        simp only [ClockLink.stepA, TimedLink.stepA] at hs
        cases ht : c.swap.l.a.send t with
        | none => rw [ht] at hs; cases hs; exact same rfl rfl rfl rfl (Nat.le_refl _) rfl rfl
        | some p =>
          rw [ht] at hs
          cases hs
          obtain ⟨s1, s2, s3, s4, s5, s6⟩ := send_b ht
          exact same s1 s2 s3 s4 (Nat.le_of_eq (phi_eq s5 s6)) rfl rfl
      | release token =>
        simp only [ClockLink.stepA] at hs
        rcases release_b c.l.b token with ⟨hn, he⟩ | ⟨hy, ty, r1, r2, r3, r4, r5, r6⟩
        · rw [if_neg (show ¬ (c.swap.l.a.fc.dict.any _ = true) by show ¬ (c.l.b.fc.dict.any _ = true); rw [hn]; decide)] at hs
          cases hs
          exact same (b := c.l.b.release token) (by rw [he]) (by rw [he]) (by rw [he]) (by rw [he]) (by rw [he]) rfl rfl
        · rw [if_pos (show c.swap.l.a.fc.dict.any _ = true from hy)] at hs
          cases hs
          refine ⟨.release ty rfl rfl rfl r1 r2 r3 r4 ?_ rfl rfl, ?_⟩
          · show used (c.l.b.release token) = used c.l.b + 1
            unfold used
            rw [r5]
            omega
          · show (c.l.b.release token).fc.dict.length ≤ (c.l.b.release token).delivered.length
            rw [r5]; omega
      | ackTimeout =>
        simp only [ClockLink.stepA] at hs
        split at hs
        · cases hs
          refine same (b := c.l.b.ackTimeout) ?_ ?_ ?_ ?_ ?_ (ta := { c.tb with ackAt := none }) rfl rfl
          · unfold Port.ackTimeout; split <;> rfl
          · unfold Port.ackTimeout; split <;> rfl
          · unfold Port.ackTimeout; split <;> rfl
          · unfold Port.ackTimeout; split <;> rfl
          · unfold Port.ackTimeout phi
            split
            · next ht => simp only [ht, Bool.false_eq_true, if_false, if_true]; split <;> split <;> omega
            · exact Nat.le_refl _
        · cases hs
      | fcTimeout =>
        simp only [ClockLink.stepA] at hs
        split at hs
        · next ht =>
          cases hs
          exact ⟨.fire rfl rfl rfl rfl rfl rfl rfl rfl (.inr ⟨rfl, ht⟩) rfl, hd⟩
        · cases hs
      | take => cases hs; exact same (b := c.l.b.take) rfl rfl rfl rfl (Nat.le_refl _) rfl rfl
      | transmit n => cases hs
      | recv => cases hs
    | transmit =>
      simp only [ClockLink.stepA, TimedLink.stepA] at hs
      cases hser : c.swap.l.ab.ser with
      | some _ => rw [hser] at hs; cases hs
      | none =>
        rw [hser] at hs
        have hser' : c.l.ba.ser = none := hser
        have hf := h.l.fb.f3
        rcases transmit_b c.l.b c.l.now cfg.steps hf with ⟨n, hk, he⟩ | ⟨fc, d, h1, h2, h3, he⟩ | ⟨q, pkt, he, hn, hsf, q1, q2, q3, q4, q5⟩
        · rw [show c.swap.l.a.transmit c.swap.l.now cfg.steps = _ from he] at hs
          simp only [Option.map_map, Option.map_eq_some_iff, Function.comp] at hs
          obtain ⟨w, hw, hs⟩ := hs
          cases hs
          obtain ⟨w1, w2, w3, _⟩ := wl_start (delay := cfg.delay) hw
          refine ⟨.ack _ (ack_notUpd c.l.b.nak n) (by show c.l.ba.ser.map _ = none; rw [hser']; rfl) rfl w2 (by show w.ser.map _ = _; rw [w3]; rfl) rfl rfl rfl ?_ rfl rfl rfl, hd⟩
          show phi { c.l.b with sendAck := false } + 1 = phi c.l.b
          unfold phi; rw [hk]; simp; omega
        · rw [show c.swap.l.a.transmit c.swap.l.now cfg.steps = _ from he] at hs
          simp only [Option.map_map, Option.map_eq_some_iff, Function.comp] at hs
          obtain ⟨w, hw, hs⟩ := hs
          cases hs
          obtain ⟨w1, w2, w3, _⟩ := wl_start (delay := cfg.delay) hw
          obtain ⟨ty, u1, u2, u3, u4, u5, u6⟩ := update_first h3
          have e1 : rel { c.l.b with fc := fc } = rel c.l.b ∧ used { c.l.b with fc := fc } = used c.l.b := rel_eq u5 rfl
          refine ⟨.upd ty d h1 u1 u4 u2 ?_ (by show c.l.ba.ser.map _ = none; rw [hser']; rfl) rfl w2 (by show w.ser.map _ = _; rw [w3]; rfl) rfl u6 e1.1 rfl e1.2 rfl rfl, ?_⟩
          · intro b hb
            have hal := (h.l.da.fc (ty, b)).al
            rw [u3 b]
            rw [if_neg (show ¬ ((untimed c.l).b.rxv.fc.rx (ty, b)).init = 0 from hb)] at hal
            exact hal
          · show fc.dict.length ≤ c.l.b.delivered.length
            rw [u5]; exact hd
        · rw [show c.swap.l.a.transmit c.swap.l.now cfg.steps = _ from he] at hs
          have e1 := rel_eq (p := c.l.b) (q := q) (by rw [q1]) q2
          have e2 := phi_eq q3 q4
          have e3 : (obs cfg c).ser = none := by show c.l.ba.ser.map _ = none; rw [hser']; rfl
          have e4 : q.sendFc = c.l.b.sendFc ∨ (q.sendFc = false ∧ ∀ y, c.l.now < nextUpdate c.l.b.fc y) := by
            rcases hsf with h | ⟨h1, h2, h3⟩
            · exact .inl h
            · exact .inr ⟨h1, hn h3 h2⟩
          have e5 : q.fc.dict.length ≤ q.delivered.length := by rw [q1, q2]; exact hd
          cases pkt with
          | none =>
            cases hs
            refine ⟨.other none nofun (fun hr => hn hr.2) e3 rfl ?_ e3 e4 (by show nextUpdate q.fc = _; rw [q1]; rfl) e1.1 e2 e1.2 rfl rfl, e5⟩
            simp [obs, ClockLink.swap, TimedLink.swap]
          | some pkt =>
            simp only [Option.map_map, Option.map_eq_some_iff, Function.comp] at hs
            obtain ⟨w, hw, hs⟩ := hs
            cases hs
            obtain ⟨w1, w2, w3, _⟩ := wl_start (delay := cfg.delay) hw
            refine ⟨.other (some pkt) ?_ (fun hr => hn hr.2) e3 rfl w2 (by show w.ser.map _ = _; rw [w3]; rfl) e4 (by show nextUpdate q.fc = _; rw [q1]; rfl) e1.1 e2 e1.2 rfl rfl, e5⟩
            intro p hp
            cases hp
            cases pkt with
            | tlp t => exact fun d hd => by cases hd
            | dllp d => obtain ⟨x, rfl⟩ := q5 d rfl; exact initDllp_notUpd _ x
    | pass =>
      simp only [ClockLink.stepA, TimedLink.stepA, Option.map_map, Option.map_eq_some_iff, Function.comp] at hs
      obtain ⟨w, hw, hs⟩ := hs
      cases hs
      obtain ⟨w1, w2, w3, _⟩ := wl_pass (delay := cfg.delay) hw
      refine ⟨.quiet rfl w1 ?_ rfl rfl rfl (Nat.le_refl _) (Nat.le_refl _) rfl rfl, hd⟩
      show (w.ser.map (·.2)).getD c.l.now = (c.l.ba.ser.map (·.2)).getD c.l.now
      rw [w3, show c.l.ba.ser.map (·.2) = some c.l.now from w2]; rfl
    | arrive i =>
      simp only [ClockLink.stepA, TimedLink.stepA, Option.map_map, Option.map_eq_some_iff, Function.comp] at hs
      obtain ⟨⟨p, w⟩, hw, hs⟩ := hs
      cases hb : c.swap.l.b.recv p with
      | error x => simp only [hb] at hs; cases hs
      | ok q =>
        simp only [hb] at hs
        cases hs
        obtain ⟨w1, w2, _⟩ := wl_arrive h.t.2 hw
        refine ⟨.recv p rfl w1 (by show w.ser.map _ = c.l.ba.ser.map _; rw [w2]) rfl rfl rfl rfl rfl rfl ?_, hd⟩
        intro hr v
        have k := recv_a hb (h.l.da.fi21 hr.1) hr.1 v
        cases p <;> exact k

theorem step_tr {cfg : ClockCfg} {c c' : ClockLink} {e : ClockEv} (h : Ok cfg c) (hd : c.l.b.fc.dict.length ≤ c.l.b.delivered.length) (hs : c.step cfg e = some (.ok c')) :
    Tr cfg c.l.b.adv (Ready c) (obs cfg c) (obs cfg c') ∧ c'.l.b.fc.dict.length ≤ c'.l.b.delivered.length := by
  cases e with
  | port b e =>
    cases b with
    | true => obtain ⟨h1, h2⟩ := stepA_tr h hs; exact ⟨h1, h2 hd⟩
    | false =>
      simp only [ClockLink.step, Option.map_eq_some_iff] at hs
      obtain ⟨r, hr, hs⟩ := hs
      cases r with
      | error x => cases hs
      | ok c2 => cases hs; exact stepB_tr h hd hr
  | advance t =>
    simp only [ClockLink.step] at hs
    split at hs
    · next hc =>
      cases hs
      obtain ⟨g1, g2, g3, g4, g5, g6⟩ := hc
      have hw := Wire.advance_ok h.t.2 g1 g3
      refine ⟨.adv g1 ?_ (wl_ge hw) ?_ ?_ rfl rfl rfl rfl rfl rfl rfl rfl rfl, hd⟩
      · intro hlt hser
        have := (g6 hlt).2
        unfold ready at this
        have hn : c.l.ba.ser = none := by
          cases hx : c.l.ba.ser with
          | none => rfl
          | some v => have : (c.l.ba.ser.map (·.2)) = none := hser; rw [hx] at this; cases this
        rw [hn] at this
        simp only [Option.isNone_none, Bool.true_and, Bool.not_eq_false', Bool.and_eq_true, Bool.not_eq_true'] at this
        exact this.1.2
      · intro s hs
        have hs : c.l.ba.ser.map (·.2) = some s := hs
        rw [Option.map_eq_some_iff] at hs
        obtain ⟨⟨q, t'⟩, h1, h2⟩ := hs
        cases h2
        exact (hw.ser q _ h1).1
      · intro s hs
        have hs : c.tb.fcAt = some s := hs
        simp only [Timers.waits, Bool.and_eq_true] at g5
        have := g5.1.2
        rw [hs] at this
        exact of_decide_eq_true this
    · cases hs

end FcTime
end Pcie
