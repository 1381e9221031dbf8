import Verif.Lemmas.AckTime
/-
Every event of a clocked link changes what matters for ACKs in one of the ways of `ATr`.
-/
namespace Pcie
open Spec
namespace AckTime
open FcTime

theorem acked_txv {p q : Port} (h : q.txv = p.txv) : acked q = acked p := by
  have h1 : q.accepted = p.accepted := congrArg TxView.accepted h
  have h2 : q.txq = p.txq := congrArg TxView.txq h
  have h3 : q.retry = p.retry := congrArg TxView.retry h
  unfold acked; rw [h1, h2, h3]

theorem acked_send {p q : Port} {t : Tlp} (h : p.send t = some q) : acked q = acked p := by
  unfold Port.send at h
  split at h
  · cases h
  · split at h
    · cases h
      simp only [acked, List.length_append, List.length_singleton]
      omega
    · cases h

theorem acked_ackTimeout (p : Port) : acked p.ackTimeout = acked p := by
  unfold Port.ackTimeout; split <;> rfl

theorem acked_transmit (p : Port) (now steps : Nat) : acked (p.transmit now steps).1 = acked p := by
  rcases Port.transmit_cases p now steps with ⟨hs, he⟩ | ⟨fc, d, hf, hu, he⟩ | ⟨hn, he⟩ | ⟨sf, x, rest, hq, he⟩ | ⟨sf, he⟩
  · rw [he]; rfl
  · rw [he]; rfl
  · rw [he]; rfl
  · rw [he]
    simp only [acked, hq, List.length_append, List.length_cons, List.length_nil]
    omega
  · rw [he]; rfl

/-- The receiver's part of a port that sends no ACK. -/
theorem transmit_rx {p : Port} (now steps : Nat) (h : p.sendAck = false) : (p.transmit now steps).1.sendAck = false ∧ (p.transmit now steps).1.ackTimer = p.ackTimer ∧
    (p.transmit now steps).1.delivered = p.delivered := by
  rcases Port.transmit_cases p now steps with ⟨hs, he⟩ | ⟨fc, d, hf, hu, he⟩ | ⟨hn, he⟩ | ⟨sf, x, rest, hq, he⟩ | ⟨sf, he⟩
  · rw [h] at hs; cases hs
  all_goals rw [he]; exact ⟨h, rfl, rfl⟩

/-- A DLLP is received. -/
theorem recv_dllp {p q : Port} {d : Dllp} (h : p.recv (.dllp d) = .ok q) : q.sendAck = p.sendAck ∧ q.ackTimer = p.ackTimer ∧ q.delivered = p.delivered := by
  have hp : ∀ n seq (a b : Port), Port.purge seq n a = .ok b → b.sendAck = a.sendAck ∧ b.ackTimer = a.ackTimer ∧ b.delivered = a.delivered := by
    intro n
    induction n with
    | zero => intro seq a b e; cases e; exact ⟨rfl, rfl, rfl⟩
    | succ n ih =>
      intro seq a b e
      unfold Port.purge at e
      split at e
      · split at e
        · cases e
        · have k := ih _ _ _ e
          exact k
      · cases e; exact ⟨rfl, rfl, rfl⟩
  unfold Port.recv Port.handleDllp at h
  simp only at h
  split at h
  · cases h; exact ⟨rfl, rfl, rfl⟩
  · split at h
    · split at h
      · cases h; exact ⟨rfl, rfl, rfl⟩
      · split at h
        · cases h; exact ⟨rfl, rfl, rfl⟩
        · split at h
          · cases h
          · next p2 h2 =>
            split at h
            · cases h
            · cases h; exact hp _ _ _ _ h2
    · split at h
      · split at h
        · cases h; exact ⟨rfl, rfl, rfl⟩
        · cases h
      · cases h

/-- A DLLP other than an ACK or a NAK is received. -/
theorem recv_other {p q : Port} {d : Dllp} (h : p.recv (.dllp d) = .ok q) (h1 : d.type ≠ Dllp.ACK) (h2 : d.type ≠ Dllp.NAK) : acked q = acked p := by
  unfold Port.recv Port.handleDllp at h
  simp only at h
  split at h
  · cases h; rfl
  · rw [if_neg (by rintro (h | h); exacts [h1 h, h2 h])] at h
    split at h
    · split at h
      · cases h; rfl
      · cases h
    · cases h

/-- A TLP with the expected number is received. -/
theorem recv_tlp {p q : Port} {t : Tlp} (h : p.recv (.tlp t) = .ok q) (hs : t.seq = p.nextRx) :
    q.sendAck = p.sendAck ∧ q.ackTimer = true ∧ q.delivered.length = p.delivered.length + 1 ∧ acked q = acked p := by
  unfold Port.recv Port.recvTlp at h
  simp only at h
  rw [if_pos hs] at h
  split at h
  · cases h
  · cases h
    exact ⟨rfl, rfl, by simp, rfl⟩

theorem tlpTimes_append (a b : List (Pkt × Nat)) : tlpTimes (a ++ b) = tlpTimes a ++ tlpTimes b := by simp [tlpTimes]

/-- The timer of a port runs exactly if the port thinks so. -/
def Sync (p : Port) (t : Timers) : Prop := p.ackTimer = t.ackAt.isSome

theorem arrive_got {w w' : Wire Pkt} {now i : Nat} {p : Pkt} (hs : w.arrive now i = some (p, w')) : w'.got = w.got ++ [(p, now)] := by
  unfold Wire.arrive at hs
  split at hs
  · split at hs
    · cases hs; rfl
    · cases hs
  · cases hs

theorem aobs_ext {o o' : AObs} (h1 : o'.now = o.now) (h2 : o'.got = o.got) (h3 : o'.del = o.del) (h4 : o'.wl = o.wl) (h5 : o'.ser = o.ser) (h6 : o'.sa = o.sa)
    (h7 : o'.at_ = o.at_) (h8 : o'.ak = o.ak) : o' = o := by
  cases o; cases o'; cases h1; cases h2; cases h3; cases h4; cases h5; cases h6; cases h7; cases h8; rfl

theorem stepA_atr {cfg : ClockCfg} {c c' : ClockLink} {e : ClockAct} (h : Ok cfg c) (hy : Sync c.l.b c.tb) (hs : c.stepA cfg e = some (.ok c')) :
    ATr cfg (aobs cfg c) (aobs cfg c') ∧ Sync c'.l.b c'.tb := by
  -- nothing happens at `b` and on its wire
  have same : ∀ {a : Port} {ab : Wire Pkt} {ta : Timers}, acked a = acked c.l.a → ab.got = c.l.ab.got → c' = { l := { c.l with a := a, ab := ab }, ta := ta, tb := c.tb } →
      ATr cfg (aobs cfg c) (aobs cfg c') ∧ Sync c'.l.b c'.tb := by
    intro a ab ta hl hg hc
    subst hc
    exact ⟨.quiet (aobs_ext rfl (by simp only [aobs, hg]) rfl rfl rfl rfl rfl hl), hy⟩
  cases e with
  | idle =>
    simp only [ClockLink.stepA] at hs
    split at hs
    · cases hs; exact same (a := c.l.a.fcTimeout) rfl rfl rfl
    · cases hs
  | timed e =>
    cases e with
    | act e =>
      cases e with
      | send t =>
        simp only [ClockLink.stepA, TimedLink.stepA] at hs
        cases ht : c.l.a.send t with
        | none => rw [ht] at hs; cases hs; exact same rfl rfl rfl
        | some p => rw [ht] at hs; cases hs; exact same (acked_send ht) rfl rfl
      | release token =>
        cases hs
        exact same (acked_txv (Port.release_txv c.l.a token).1) rfl rfl
      | ackTimeout =>
        simp only [ClockLink.stepA] at hs
        split at hs
        · cases hs; exact same (acked_ackTimeout _) rfl rfl
        · cases hs
      | fcTimeout =>
        simp only [ClockLink.stepA] at hs
        split at hs
        · cases hs; exact same (a := c.l.a.fcTimeout) rfl rfl rfl
        · cases hs
      | take => cases hs; exact same (a := c.l.a.take) rfl rfl rfl
      | transmit n => cases hs
      | recv => cases hs
    | transmit =>
      simp only [ClockLink.stepA, TimedLink.stepA] at hs
      have hl := acked_transmit c.l.a c.l.now cfg.steps
      cases hser : c.l.ab.ser with
      | some _ => rw [hser] at hs; cases hs
      | none =>
        rw [hser] at hs
        cases ht : c.l.a.transmit c.l.now cfg.steps with
        | mk p pkt =>
          rw [ht] at hs hl
          cases pkt with
          | none => cases hs; exact same hl rfl rfl
          | some pkt =>
            simp only [Option.map_map, Option.map_eq_some_iff, Function.comp] at hs
            obtain ⟨w, hw, hs⟩ := hs
            cases hs
            refine same hl ?_ rfl
            unfold Wire.start at hw
            rw [hser] at hw
            cases hw; rfl
    | pass =>
      simp only [ClockLink.stepA, TimedLink.stepA, Option.map_map, Option.map_eq_some_iff, Function.comp] at hs
      obtain ⟨w, hw, hs⟩ := hs
      cases hs
      refine same (a := c.l.a) rfl ?_ rfl
      unfold Wire.pass at hw
      split at hw
      · split at hw
        · cases hw; rfl
        · cases hw
      · cases hw
    | arrive i =>
      simp only [ClockLink.stepA, TimedLink.stepA, Option.map_map, Option.map_eq_some_iff, Function.comp] at hs
      obtain ⟨⟨p, w⟩, hw, hs⟩ := hs
      cases hb : c.l.b.recv p with
      | error x => simp only [hb] at hs; cases hs
      | ok q =>
        simp only [hb] at hs
        cases hs
        have hab : (untimed c.l).ab = p :: w.pkts := (Wire.arrive_ok h.t.1 hw).2.1
        have hg := arrive_got hw
        cases p with
        | tlp t =>
          obtain ⟨r1, r2, r3, r4⟩ := recv_tlp hb (seq_ok h.l hab)
          have ha : (c.tb.ack cfg c.l.now c.l.b q).ackAt = some (c.tb.ackAt.getD (c.l.now + max cfg.latency 1)) := by
            simp only [Timers.ack, r2, if_true]
            unfold Sync at hy
            rw [hy]
            cases c.tb.ackAt <;> rfl
          refine ⟨.arr (aobs_ext rfl ?_ r3 rfl rfl r1 ha rfl), ?_⟩
          · show tlpTimes w.got = tlpTimes c.l.ab.got ++ [c.l.now]
            rw [hg, tlpTimes_append]; rfl
          · show q.ackTimer = (c.tb.ack cfg c.l.now c.l.b q).ackAt.isSome
            rw [ha, r2]; rfl
        | dllp d =>
          obtain ⟨r1, r2, r3⟩ := recv_dllp hb
          have ha : (c.tb.ack cfg c.l.now c.l.b q).ackAt = c.tb.ackAt := by
            simp only [Timers.ack, r2]
            unfold Sync at hy
            rw [hy]
            cases c.tb.ackAt <;> rfl
          refine ⟨.quiet (aobs_ext rfl ?_ (by show q.delivered.length = _; rw [r3]; rfl) rfl rfl r1 ha rfl), ?_⟩
          · show tlpTimes w.got = tlpTimes c.l.ab.got
            rw [hg, tlpTimes_append]; simp [tlpTimes]
          · show q.ackTimer = (c.tb.ack cfg c.l.now c.l.b q).ackAt.isSome
            rw [ha, r2]; exact hy

theorem stepB_atr {cfg : ClockCfg} {c c' : ClockLink} {e : ClockAct} (h : Ok cfg c) (hy : Sync c.l.b c.tb) (hr : c.l.a.retry.length ≤ 2048)
    (hs : c.swap.stepA cfg e = some (.ok c')) : ATr cfg (aobs cfg c) (aobs cfg c'.swap) ∧ Sync c'.l.a c'.ta := by
  -- `b` changes nothing that matters
  have same : ∀ {b : Port}, b.sendAck = c.l.b.sendAck → b.ackTimer = c.l.b.ackTimer → b.delivered = c.l.b.delivered →
      ∀ {ta : Timers}, ta.ackAt = c.tb.ackAt → c' = { l := { c.l.swap with a := b }, ta := ta, tb := c.ta } →
      ATr cfg (aobs cfg c) (aobs cfg c'.swap) ∧ Sync c'.l.a c'.ta := by
    intro b h1 h2 h3 ta h6 hc
    subst hc
    refine ⟨.quiet (aobs_ext rfl rfl (by show b.delivered.length = _; rw [h3]; rfl) rfl rfl h1 h6 rfl), ?_⟩
    show b.ackTimer = ta.ackAt.isSome
    rw [h2, h6]; exact hy
  cases e with
  | idle =>
    simp only [ClockLink.stepA] at hs
    split at hs
    · cases hs; exact same (b := c.l.b.fcTimeout) rfl rfl rfl (ta := { c.tb with idleAt := c.l.now + max cfg.idle 1 }) rfl rfl
    · cases hs
  | timed e =>
    cases e with
    | act e =>
      cases e with
      | send t =>
        simp only [ClockLink.stepA, TimedLink.stepA] at hs
        cases ht : c.swap.l.a.send t with
        | none => rw [ht] at hs; cases hs; exact same rfl rfl rfl rfl rfl
        | some p =>
          rw [ht] at hs
          cases hs
          obtain ⟨s1, s2, s3, s4, s5, s6⟩ := send_b ht
          exact same s5 s6 s4 rfl rfl
      | release token =>
        cases hs
        refine same (b := c.l.b.release token) ?_ ?_ ?_ (ta := if c.l.b.fc.dict.any (·.1 = token) then c.tb.startFc cfg c.l.now else c.tb) ?_ rfl
        · unfold Port.release; split <;> rfl
        · unfold Port.release; split <;> rfl
        · unfold Port.release; split <;> rfl
        · split <;> rfl
      | ackTimeout =>
        simp only [ClockLink.stepA] at hs
        split at hs
        · next ht =>
          have ht : c.tb.ackAt = some c.l.now := ht
          cases hs
          have hk : c.l.b.ackTimer = true := by rw [show c.l.b.ackTimer = _ from hy, ht]; rfl
          have hn : c.l.b.nak = false := by
            obtain ⟨S, i, k, hq⟩ := h.l.da.seq
            exact hq.nak
          have hto : c.l.b.ackTimeout = { c.l.b with ackTimer := false, sendAck := true } := by
            unfold Port.ackTimeout; rw [if_pos hk]; simp only [hn, Bool.false_eq_true, if_false]
          refine ⟨.fire ht (aobs_ext rfl rfl ?_ rfl rfl ?_ rfl rfl), ?_⟩
          · show c.l.b.ackTimeout.delivered.length = _
            rw [hto]; rfl
          · show c.l.b.ackTimeout.sendAck = true
            rw [hto]
          · show c.l.b.ackTimeout.ackTimer = false
            rw [hto]
        · cases hs
      | fcTimeout =>
        simp only [ClockLink.stepA] at hs
        split at hs
        · cases hs; exact same (b := c.l.b.fcTimeout) rfl rfl rfl (ta := { c.tb with fcAt := none }) rfl rfl
        · cases hs
      | take => cases hs; exact same (b := c.l.b.take) rfl rfl rfl rfl rfl
      | transmit n => cases hs
      | recv => cases hs
    | transmit =>
      simp only [ClockLink.stepA, TimedLink.stepA] at hs
      cases hser : c.swap.l.ab.ser with
      | some _ => rw [hser] at hs; cases hs
      | none =>
        rw [hser] at hs
        have hser' : c.l.ba.ser = none := hser
        obtain ⟨S, i, k, hq⟩ := h.l.da.seq
        have hlen : c.l.b.delivered.length = i := by
          have h2 := hq.de
          have hil := hq.il
          simp only [Port.rxv] at h2
          rw [show c.l.b.delivered = _ from h2, List.length_map, List.length_take, numbered_length]; omega
        cases hsa : c.l.b.sendAck with
        | true =>
          rcases Port.transmit_cases c.l.b c.l.now cfg.steps with ⟨_, he⟩ | hx
          · rw [show c.swap.l.a.transmit c.swap.l.now cfg.steps = _ from he] at hs
            simp only [Option.map_map, Option.map_eq_some_iff, Function.comp] at hs
            obtain ⟨w, hw, hs⟩ := hs
            cases hs
            have hn : c.l.b.nak = false := hq.nak
            rw [hn] at hw
            simp only [Bool.false_eq_true, if_false] at hw
            obtain ⟨w1, w2, w3, _⟩ := wl_start (delay := cfg.delay) hw
            refine ⟨.ack (Dllp.createAck ((c.l.b.nextRx + 4095) % 4096)) rfl ?_ hser' (aobs_ext rfl rfl rfl w2 w3 rfl rfl rfl), hy⟩
            show (c.l.b.nextRx + 4095) % 4096 = (c.l.b.delivered.length + 4095) % 4096
            have hnx : c.l.b.nextRx = i % 4096 := hq.nrx
            rw [hnx, hlen]; omega
          · exfalso
            have he : c.l.b.transmit c.l.now cfg.steps = ({ c.l.b with sendAck := false },
                some (.dllp (if c.l.b.nak then Dllp.createNak ((c.l.b.nextRx + 4095) % 4096) else Dllp.createAck ((c.l.b.nextRx + 4095) % 4096)))) := by
              unfold Port.transmit; rw [if_pos hsa]
            have hne := congrArg (fun r => r.1.sendAck) he
            simp only at hne
            rcases hx with ⟨fc, d, hf, hu, hx⟩ | ⟨hn, hx⟩ | ⟨sf, x, rest, hq, hx⟩ | ⟨sf, hx⟩ <;>
              (rw [hx] at hne; simp only at hne; rw [hsa] at hne; cases hne)
        | false =>
          obtain ⟨t1, t2, t3⟩ := transmit_rx c.l.now cfg.steps hsa
          cases ht : c.l.b.transmit c.l.now cfg.steps with
          | mk q pkt =>
            rw [ht] at t1 t2 t3
            rw [show c.swap.l.a.transmit c.swap.l.now cfg.steps = _ from ht] at hs
            cases pkt with
            | none => cases hs; exact same (t1.trans hsa.symm) t2 t3 rfl rfl
            | some pkt =>
              simp only [Option.map_map, Option.map_eq_some_iff, Function.comp] at hs
              obtain ⟨w, hw, hs⟩ := hs
              cases hs
              obtain ⟨w1, w2, w3, _⟩ := wl_start (delay := cfg.delay) hw
              refine ⟨.send pkt hsa hser' (aobs_ext rfl rfl (by show q.delivered.length = _; rw [t3]; rfl) w2 w3 (t1.trans hsa.symm) rfl rfl), ?_⟩
              show q.ackTimer = _
              rw [t2]; exact hy
    | pass =>
      simp only [ClockLink.stepA, TimedLink.stepA, Option.map_map, Option.map_eq_some_iff, Function.comp] at hs
      obtain ⟨w, hw, hs⟩ := hs
      cases hs
      obtain ⟨w1, w2, w3, _⟩ := wl_pass (delay := cfg.delay) hw
      have w2 : c.l.ba.ser.map (·.2) = some c.l.now := w2
      rw [Option.map_eq_some_iff] at w2
      obtain ⟨⟨p, s⟩, w2, w4⟩ := w2
      have w4 : s = c.l.now := w4
      subst w4
      exact ⟨.pass p w2 (aobs_ext rfl rfl rfl w1 w3 rfl rfl rfl), hy⟩
    | arrive i =>
      simp only [ClockLink.stepA, TimedLink.stepA, Option.map_map, Option.map_eq_some_iff, Function.comp] at hs
      obtain ⟨⟨p, w⟩, hw, hs⟩ := hs
      cases hb : c.swap.l.b.recv p with
      | error x => simp only [hb] at hs; cases hs
      | ok q =>
        simp only [hb] at hs
        cases hs
        have hb : c.l.a.recv p = .ok q := hb
        obtain ⟨w1, w2, _⟩ := wl_arrive h.t.2 hw
        have hba : (untimed c.l).ba = p :: w.pkts := (Wire.arrive_ok h.t.2 hw).2.1
        have key : acked c.l.a ≤ acked q ∧ ∀ e W, p = .dllp e → e.type = Dllp.ACK → e.seq = (W + 4095) % 4096 → acked c.l.a ≤ W → W ≤ c.l.b.delivered.length → acked q = W := by
          cases p with
          | tlp t =>
            obtain ⟨r1, r2, r3, r4⟩ := recv_tlp hb (seq_ok h.l.swap hba)
            exact ⟨Nat.le_of_eq r4.symm, fun e W he => by cases he⟩
          | dllp d =>
            have hda := h.l.da
            rw [hba, dllps_dllp] at hda
            by_cases hack : d.type = Dllp.ACK
            · obtain ⟨p', e1, -, e3, e4⟩ := hda.recvAck (fun hf => hf.elim) hack
              have e1 : c.l.a.recv (.dllp d) = .ok p' := e1
              rw [hb] at e1
              injection e1 with e1
              subst e1
              obtain ⟨S, k, V, x1, x2, x3, x4, x5, x6⟩ := e4 hr
              have x1 : c.l.a.accepted = S ++ c.l.a.txq := x1
              have x2 : V ≤ c.l.b.delivered.length := x2
              have x5 : c.l.a.retry = (numbered S).drop k := x5
              have hVS : V ≤ S.length := by
                obtain ⟨S', i, k', hq⟩ := h.l.da.seq
                have h2 := hq.de
                have hil := hq.il
                have hac : c.l.a.accepted = S' ++ c.l.a.txq := hq.acc
                have hl : c.l.b.delivered.length ≤ S'.length := by
                  simp only [Port.rxv] at h2
                  rw [show c.l.b.delivered = _ from h2, List.length_map, List.length_take, numbered_length]; omega
                have := congrArg List.length (x1.symm.trans hac)
                simp only [List.length_append] at this
                omega
              have a1 : acked c.l.a = k := by
                unfold acked
                rw [x1, x5, List.length_append, List.length_drop, numbered_length]; omega
              have a2 : acked q = V := by
                unfold acked
                have y1 : q.accepted = c.l.a.accepted := by rw [e3]; rfl
                have y2 : q.txq = c.l.a.txq := by rw [e3]; rfl
                rw [y1, y2, x1, x6, List.length_append, List.length_drop, numbered_length]; omega
              rw [x5, List.length_drop, numbered_length] at hr
              refine ⟨by omega, fun e W he _ hq h1 h2 => ?_⟩
              cases he
              obtain ⟨S', i, k', hq'⟩ := h.l.da.seq
              have hil := hq'.il
              have h2' := hq'.de
              have hac : c.l.a.accepted = S' ++ c.l.a.txq := hq'.acc
              have hl : c.l.b.delivered.length ≤ S'.length := by
                simp only [Port.rxv] at h2'
                rw [show c.l.b.delivered = _ from h2', List.length_map, List.length_take, numbered_length]; omega
              have := congrArg List.length (x1.symm.trans hac)
              simp only [List.length_append] at this
              rw [a2]
              rw [hq] at x4
              omega
            · have hnak : d.type ≠ Dllp.NAK := by
                rcases hda.types d List.mem_cons_self with hk | ⟨ty, hk⟩
                · exact absurd hk hack
                · rcases hk with hk | hk | hk <;> rw [hk] <;> cases ty <;> decide
              exact ⟨Nat.le_of_eq (recv_other hb hack hnak).symm, fun e W he hk => by cases he; exact absurd hk hack⟩
        exact ⟨.recv p _ (acked q) w1 key.1 key.2 (aobs_ext rfl rfl rfl rfl w2 rfl rfl rfl), hy⟩

theorem step_atr {cfg : ClockCfg} {c c' : ClockLink} {e : ClockEv} (h : Ok cfg c) (hy : Sync c.l.b c.tb) (hr : c.l.a.retry.length ≤ 2048)
    (hs : c.step cfg e = some (.ok c')) : ATr cfg (aobs cfg c) (aobs cfg c') ∧ Sync c'.l.b c'.tb := by
  cases e with
  | port b e =>
    cases b with
    | true => exact stepA_atr h hy hs
    | false =>
      simp only [ClockLink.step, Option.map_eq_some_iff] at hs
      obtain ⟨r, hr', hs⟩ := hs
      cases r with
      | error x => cases hs
      | ok c2 => cases hs; exact stepB_atr h hy hr hr'
  | advance t =>
    simp only [ClockLink.step] at hs
    split at hs
    · next hc =>
      cases hs
      obtain ⟨g1, g2, g3, g4, g5, g6⟩ := hc
      have hw := Wire.advance_ok h.t.2 g1 g3
      refine ⟨.adv t g1 ?_ ?_ ?_ rfl, hy⟩
      · intro hlt hser
        have := (g6 hlt).2
        unfold ready at this
        have hn : c.l.ba.ser = none := hser
        rw [hn] at this
        simp only [Option.isNone_none, Bool.true_and, Bool.not_eq_false', Bool.and_eq_true, Bool.not_eq_true'] at this
        exact this.1.1.2
      · intro p s hs
        exact (hw.ser p s hs).1
      · intro s hs
        have hs : c.tb.ackAt = some s := hs
        simp only [Timers.waits, Bool.and_eq_true] at g5
        have := g5.1.1
        rw [hs] at this
        exact of_decide_eq_true this
    · cases hs

end AckTime
end Pcie
