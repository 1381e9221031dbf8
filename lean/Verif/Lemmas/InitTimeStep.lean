import Verif.Lemmas.AckTimeStep
import Verif.Lemmas.InitTime
/-
Every event of a clocked link changes what matters for the initialisation in one of the ways of `ITr`.
-/
namespace Pcie
open Spec
namespace InitTime
open FcTime (wl Ok wl_start wl_pass wl_arrive wl_ge seq_ok send_b)

/-- The flags of a sender that matter for the initialisation. -/
def fl (p : Port) : (FcType → Bool) × Bool × Bool := (p.fc.cap, p.fc.fi1, p.fc.fi2)

theorem fl_txv {p q : Port} (h : q.fc.txv = p.fc.txv) : fl q = fl p := by
  have h1 : q.fc.cap = p.fc.cap := congrArg TxC.cap h
  have h2 : q.fc.fi1 = p.fc.fi1 := congrArg TxC.fi1 h
  have h3 : q.fc.fi2 = p.fc.fi2 := congrArg TxC.fi2 h
  unfold fl; rw [h1, h2, h3]

theorem fl_send {p q : Port} {t : Tlp} (h : p.send t = some q) : fl q = fl p ∧ q.fcInitType = p.fcInitType := by
  unfold Port.send at h
  split at h
  · cases h
  · next ty _ =>
    split at h
    · cases h
      refine ⟨?_, rfl⟩
      cases ty <;> rfl
    · cases h

theorem fl_transmit (p : Port) (now steps : Nat) : fl (p.transmit now steps).1 = fl p := by
  rcases Port.transmit_cases p now steps with ⟨hs, he⟩ | ⟨fc, d, hf, hu, he⟩ | ⟨hn, he⟩ | ⟨sf, x, rest, hq, he⟩ | ⟨sf, he⟩
  · rw [he]; rfl
  · rw [he]
    obtain ⟨ty, -, -, -, u, -⟩ := FcCh.update_some hu
    exact fl_txv u
  · rw [he]; rfl
  · rw [he]; rfl
  · rw [he]; rfl

/-- An InitFC DLLP is received during FC_INIT1. -/
theorem recv_init {p q : Port} {d : Dllp} {ty : FcType} (h : p.recv (.dllp d) = .ok q) (hd : IsInit ty d) (h1 : p.fc.fi1 = false) :
    (∀ y, q.fc.cap y = (decide (y = ty) || p.fc.cap y)) ∧ q.fc.fi1 = (q.fc.cap .P && q.fc.cap .NP && q.fc.cap .CPL) := by
  have hn : d.type ≠ Dllp.NOP ∧ ¬ (d.type = Dllp.ACK ∨ d.type = Dllp.NAK) ∧ d.type ∈ Dllp.fcTypes := by
    unfold IsInit at hd
    cases ty <;> rcases hd with hd | hd <;> rw [hd] <;> decide
  unfold Port.recv Port.handleDllp at h
  simp only at h
  rw [if_neg hn.1, if_neg hn.2.1, if_pos hn.2.2, FcCh.handleFc_fi1 _ _ h1] at h
  cases h
  obtain ⟨-, k2, k3, -⟩ := FcCh.init1_init p.fc d ty hd
  exact ⟨k2, k3⟩

/-- FC_INIT2 ends with an InitFC2 or UpdateFC DLLP. -/
theorem recv_fi2 {p q : Port} {pkt : Pkt} (h : p.recv pkt = .ok q) (hc : p.fc.fi2 = true → p.fc.fi1 = true) (hf : q.fc.fi2 = true) :
    p.fc.fi2 = true ∨ ∃ x, pkt = .dllp x ∧ isFi2 x := by
  cases pkt with
  | tlp t =>
    left
    rw [← hf]
    unfold Port.recv Port.recvTlp at h
    simp only at h
    split at h
    · unfold FcCh.process at h
      split at h
      · cases h
      · next fc tok hp =>
        split at hp
        · cases hp
        · next ty hty =>
          cases hp
          cases h
          exact (congrArg TxC.fi2 (FcCh.rxConsume_txv p.fc ty t.copy.dataCredits)).symm
    · split at h
      · cases h; rfl
      · split at h <;> (cases h; rfl)
  | dllp d =>
    unfold Port.recv Port.handleDllp at h
    simp only at h
    split at h
    · cases h; exact .inl hf
    · split at h
      · split at h
        · cases h; exact .inl hf
        · split at h
          · cases h; exact .inl hf
          · split at h
            · cases h
            · next p2 h2 =>
              split at h
              · cases h
              · cases h; rw [Port.purge_fc h2] at hf; exact .inl hf
      · split at h
        · split at h
          · next fc hfc =>
            cases h
            rcases (FcCh.handleFc_mono hfc hc).2.2.2 hf with k | k
            · exact .inl k
            · exact .inr ⟨d, rfl, k⟩
          · cases h
        · cases h

theorem recv_type {p q : Port} {pkt : Pkt} (h : p.recv pkt = .ok q) : q.fcInitType = p.fcInitType := by
  have hp : ∀ n seq (a b : Port), Port.purge seq n a = .ok b → b.fcInitType = a.fcInitType := by
    intro n
    induction n with
    | zero => intro seq a b e; cases e; rfl
    | succ n ih =>
      intro seq a b e
      unfold Port.purge at e
      split at e
      · split at e
        · cases e
        · have k := ih _ _ _ e
          exact k
      · cases e; rfl
  cases pkt with
  | tlp t =>
    unfold Port.recv Port.recvTlp at h
    simp only at h
    split at h
    · split at h
      · cases h
      · cases h; rfl
    · split at h
      · cases h; rfl
      · split at h <;> (cases h; rfl)
  | dllp d =>
    unfold Port.recv Port.handleDllp at h
    simp only at h
    split at h
    · cases h; rfl
    · split at h
      · split at h
        · cases h; rfl
        · split at h
          · cases h; rfl
          · split at h
            · cases h
            · next p2 h2 =>
              split at h
              · cases h
              · cases h; exact hp _ _ _ _ h2
      · split at h
        · split at h
          · cases h; rfl
          · cases h
        · cases h

/-- A port that wants to acknowledge has received TLPs. -/
def Got (p : Port) : Prop := p.sendAck = true ∨ p.ackTimer = true → p.delivered ≠ []

theorem Got.eq {p q : Port} (h : Got p) (h1 : q.sendAck = p.sendAck) (h2 : q.ackTimer = p.ackTimer) (h3 : q.delivered = p.delivered) : Got q := by
  unfold Got; rw [h1, h2, h3]; exact h

theorem iobs_ext {o o' : IObs} (h1 : o'.now = o.now) (h2 : o'.sent = o.sent) (h3 : o'.gotn = o.gotn) (h4 : o'.wl = o.wl) (h5 : o'.ser = o.ser)
    (h8 : o'.ty = o.ty) (h9 : (o'.bf1, o'.bf2) = (o.bf1, o.bf2)) (h10 : (o'.af, o'.af1, o'.af2) = (o.af, o.af1, o.af2)) : o' = o := by
  cases o; cases o'; cases h1; cases h2; cases h3; cases h4; cases h5; cases h8; cases h9; cases h10; rfl

theorem stepA_itr {cfg : ClockCfg} {c c' : ClockLink} {e : ClockAct} (h : Ok cfg c) (hy : Got c.l.b) (hs : c.stepA cfg e = some (.ok c')) :
    ITr cfg (iobs cfg c) (iobs cfg c') ∧ Got c'.l.b := by
  -- nothing happens at `b` and on its wire
  have same : ∀ {a : Port} {ab : Wire Pkt} {ta : Timers}, fl a = fl c.l.a → c' = { l := { c.l with a := a, ab := ab }, ta := ta, tb := c.tb } →
      ITr cfg (iobs cfg c) (iobs cfg c') ∧ Got c'.l.b := by
    intro a ab ta hl hc
    subst hc
    exact ⟨.quiet (iobs_ext rfl rfl rfl rfl rfl rfl rfl hl), hy⟩
  cases e with
  | idle =>
    simp only [ClockLink.stepA] at hs
    split at hs
    · cases hs; exact same (a := c.l.a.fcTimeout) rfl rfl
    · cases hs
  | timed e =>
    cases e with
    | act e =>
      cases e with
      | send t =>
        simp only [ClockLink.stepA, TimedLink.stepA] at hs
        cases ht : c.l.a.send t with
        | none => rw [ht] at hs; cases hs; exact same rfl rfl
        | some p => rw [ht] at hs; cases hs; exact same (fl_send ht).1 rfl
      | release token =>
        cases hs
        exact same (fl_txv (congrArg TxView.fc (Port.release_txv c.l.a token).1)) rfl
      | ackTimeout =>
        simp only [ClockLink.stepA] at hs
        split at hs
        · cases hs
          refine same (a := c.l.a.ackTimeout) ?_ rfl
          unfold Port.ackTimeout; split <;> rfl
        · cases hs
      | fcTimeout =>
        simp only [ClockLink.stepA] at hs
        split at hs
        · cases hs; exact same (a := c.l.a.fcTimeout) rfl rfl
        · cases hs
      | take => cases hs; exact same (a := c.l.a.take) rfl rfl
      | transmit n => cases hs
      | recv => cases hs
    | transmit =>
      simp only [ClockLink.stepA, TimedLink.stepA] at hs
      have hl := fl_transmit c.l.a c.l.now cfg.steps
      cases hser : c.l.ab.ser with
      | some _ => rw [hser] at hs; cases hs
      | none =>
        rw [hser] at hs
        cases ht : c.l.a.transmit c.l.now cfg.steps with
        | mk p pkt =>
          rw [ht] at hs hl
          cases pkt with
          | none => cases hs; exact same hl rfl
          | some pkt =>
            simp only [Option.map_map, Option.map_eq_some_iff, Function.comp] at hs
            obtain ⟨w, hw, hs⟩ := hs
            cases hs
            exact same hl rfl
    | pass =>
      simp only [ClockLink.stepA, TimedLink.stepA, Option.map_map, Option.map_eq_some_iff, Function.comp] at hs
      obtain ⟨w, hw, hs⟩ := hs
      cases hs
      exact same (a := c.l.a) rfl rfl
    | arrive i =>
      simp only [ClockLink.stepA, TimedLink.stepA, Option.map_map, Option.map_eq_some_iff, Function.comp] at hs
      obtain ⟨⟨p, w⟩, hw, hs⟩ := hs
      cases hb : c.l.b.recv p with
      | error x => simp only [hb] at hs; cases hs
      | ok q =>
        simp only [hb] at hs
        cases hs
        have hab : (untimed c.l).ab = p :: w.pkts := (Wire.arrive_ok h.t.1 hw).2.1
        have hf := (Port.recv_flags hb h.l.db.fi21 h.l.db.fi1c).1
        refine ⟨.bf q.fc.fi1 q.fc.fi2 hf (iobs_ext rfl rfl rfl rfl rfl (recv_type hb) rfl rfl), ?_⟩
        cases p with
        | tlp t =>
          obtain ⟨r1, r2, r3, r4⟩ := AckTime.recv_tlp hb (seq_ok h.l hab)
          intro _ hn
          have hn : q.delivered = [] := hn
          rw [hn] at r3; cases r3
        | dllp d =>
          obtain ⟨r1, r2, r3⟩ := AckTime.recv_dllp hb
          exact hy.eq r1 r2 r3

theorem stepB_itr {cfg : ClockCfg} {c c' : ClockLink} {e : ClockAct} (h : Ok cfg c) (hy : Got c.l.b) (hs : c.swap.stepA cfg e = some (.ok c')) :
    ITr cfg (iobs cfg c) (iobs cfg c'.swap) ∧ Got c'.l.a := by
  -- `b` changes nothing that matters
  have same : ∀ {b : Port}, b.fcInitType = c.l.b.fcInitType → fl b = fl c.l.b → Got b →
      ∀ {ta : Timers}, c' = { l := { c.l.swap with a := b }, ta := ta, tb := c.ta } → ITr cfg (iobs cfg c) (iobs cfg c'.swap) ∧ Got c'.l.a := by
    intro b h2 h3 h4 ta hc
    subst hc
    exact ⟨.quiet (iobs_ext rfl rfl rfl rfl rfl h2 (congrArg (·.2) h3) rfl), h4⟩
  cases e with
  | idle =>
    simp only [ClockLink.stepA] at hs
    split at hs
    · cases hs; exact same (b := c.l.b.fcTimeout) rfl rfl hy rfl
    · cases hs
  | timed e =>
    cases e with
    | act e =>
      cases e with
      | send t =>
        simp only [ClockLink.stepA, TimedLink.stepA] at hs
        cases ht : c.swap.l.a.send t with
        | none => rw [ht] at hs; cases hs; exact same rfl rfl hy rfl
        | some p =>
          rw [ht] at hs
          cases hs
          obtain ⟨s1, s2, s3, s4, s5, s6⟩ := send_b ht
          obtain ⟨f1, f2⟩ := fl_send ht
          exact same f2 f1 (hy.eq s5 s6 s4) rfl
      | release token =>
        cases hs
        refine same (b := c.l.b.release token) ?_ (fl_txv (congrArg TxView.fc (Port.release_txv c.l.b token).1)) (hy.eq ?_ ?_ ?_) rfl
        · unfold Port.release; split <;> rfl
        · unfold Port.release; split <;> rfl
        · unfold Port.release; split <;> rfl
        · unfold Port.release; split <;> rfl
      | ackTimeout =>
        simp only [ClockLink.stepA] at hs
        split at hs
        · cases hs
          refine same (b := c.l.b.ackTimeout) ?_ ?_ ?_ rfl
          · unfold Port.ackTimeout; split <;> rfl
          · unfold Port.ackTimeout; split <;> rfl
          · unfold Port.ackTimeout
            split
            · next hk => exact fun _ => hy (.inr hk)
            · exact hy
        · cases hs
      | fcTimeout =>
        simp only [ClockLink.stepA] at hs
        split at hs
        · cases hs; exact same (b := c.l.b.fcTimeout) rfl rfl hy rfl
        · cases hs
      | take => cases hs; exact same (b := c.l.b.take) rfl rfl hy rfl
      | transmit n => cases hs
      | recv => cases hs
    | transmit =>
      simp only [ClockLink.stepA, TimedLink.stepA] at hs
      cases hser : c.swap.l.ab.ser with
      | some _ => rw [hser] at hs; cases hs
      | none =>
        rw [hser] at hs
        have hser' : c.l.ba.ser = none := hser
        have hflb := congrArg (·.2) (fl_transmit c.l.b c.l.now cfg.steps)
        have send : ∀ {q : Port} {pkt : Pkt} {f : Prop}, (∀ w : Wire Pkt, c.swap.l.ab.start cfg.dur c.swap.l.now pkt = some w →
            ({ c.swap with l := { c.swap.l with a := q, ab := w } } : ClockLink) = c' → f) → c.l.b.transmit c.l.now cfg.steps = (q, some pkt) → f := by
          intro q pkt f hf he
          rw [show c.swap.l.a.transmit c.swap.l.now cfg.steps = _ from he] at hs
          simp only [Option.map_map, Option.map_eq_some_iff, Function.comp] at hs
          obtain ⟨w, hw, hs⟩ := hs
          injection hs with hs
          exact hf w hw hs
        rcases Port.transmit_cases c.l.b c.l.now cfg.steps with ⟨hk, he⟩ | ⟨fc, d, hf, hu, he⟩ | ⟨hn, he⟩ | ⟨sf, x, rest, hq, he⟩ | ⟨sf, he⟩
        · refine send (fun w hw hc => ?_) he
          subst hc
          obtain ⟨w1, w2, w3, w4⟩ := wl_start (delay := cfg.delay) hw
          have hgot : w.got = c.l.ba.got := by
            unfold Wire.start at hw; rw [hser] at hw; cases hw; rfl
          have hdel := hy (.inl hk)
          have haf : c.l.a.fc.fi2 = true := by
            cases hfi : c.l.a.fc.fi2 with
            | true => rfl
            | false =>
              exfalso
              have hacc : c.l.a.accepted = [] := h.l.da.acc0 hfi
              obtain ⟨S, i, k, hq⟩ := h.l.da.seq
              have h2 := hq.de
              have hil := hq.il
              have ha : c.l.a.accepted = S ++ c.l.a.txq := hq.acc
              rw [hacc] at ha
              have hS : S = [] := (List.append_eq_nil_iff.mp ha.symm).1
              simp only [Port.rxv] at h2
              apply hdel
              rw [show c.l.b.delivered = _ from h2, hS, show numbered ([] : List Tlp) = [] from rfl, List.take_nil, List.map_nil]
          exact ⟨.other _ (h.l.da.fi21 haf) (.inl haf) hser' (iobs_ext rfl w4 (congrArg List.length hgot) w2 w3 rfl rfl rfl), fun hx => hdel⟩
        · refine send (fun w hw hc => ?_) he
          subst hc
          obtain ⟨w1, w2, w3, w4⟩ := wl_start (delay := cfg.delay) hw
          have hgot : w.got = c.l.ba.got := by
            unfold Wire.start at hw; rw [hser] at hw; cases hw; rfl
          rw [he] at hflb
          exact ⟨.other (.dllp d) (h.l.fb.f2 hf) (.inr hf) hser' (iobs_ext rfl w4 (congrArg List.length hgot) w2 w3 rfl hflb rfl), hy⟩
        · refine send (fun w hw hc => ?_) he
          subst hc
          obtain ⟨w1, w2, w3, w4⟩ := wl_start (delay := cfg.delay) hw
          have hgot : w.got = c.l.ba.got := by
            unfold Wire.start at hw; rw [hser] at hw; cases hw; rfl
          refine ⟨.init (c.l.b.fc.initDllp c.l.b.fcInitType) (initDllp_is _ _) ⟨fun hf => ?_, fun hf => ?_⟩ hser'
            (iobs_ext rfl w4 (congrArg List.length hgot) w2 w3 rfl rfl rfl), hy⟩
          · show c.l.b.fc.fi1 = true
            cases h1 : c.l.b.fc.fi1 with
            | true => rfl
            | false =>
              exfalso
              obtain ⟨ty, hf⟩ := hf
              rw [(FcCh.initDllp_type _ _).1, if_neg (by rw [h1]; decide)] at hf
              have : ∀ x y : FcType, ¬ (init1Type x = init2Type y ∨ init1Type x = updType y) := by intro x y; cases x <;> cases y <;> decide
              exact this _ _ hf
          · have hf : c.l.b.fc.fi1 = true := hf
            refine ⟨c.l.b.fcInitType, .inl ?_⟩
            rw [(FcCh.initDllp_type _ _).1, if_pos hf]
        · refine send (fun w hw hc => ?_) he
          subst hc
          obtain ⟨w1, w2, w3, w4⟩ := wl_start (delay := cfg.delay) hw
          have hgot : w.got = c.l.ba.got := by
            unfold Wire.start at hw; rw [hser] at hw; cases hw; rfl
          have hbf : c.l.b.fc.fi2 = true := by
            cases hfi : c.l.b.fc.fi2 with
            | true => rfl
            | false =>
              exfalso
              have hacc : c.l.b.accepted = [] := h.l.db.acc0 hfi
              obtain ⟨S, i, k, hq'⟩ := h.l.db.seq
              have ha : c.l.b.accepted = S ++ c.l.b.txq := hq'.acc
              rw [hacc, hq] at ha
              cases S <;> cases ha
          exact ⟨.other _ (h.l.fb.f2 hbf) (.inr hbf) hser' (iobs_ext rfl w4 (congrArg List.length hgot) w2 w3 rfl rfl rfl), hy⟩
        · rw [show c.swap.l.a.transmit c.swap.l.now cfg.steps = _ from he] at hs
          cases hs
          exact same (b := { c.l.b with sendFc := sf }) rfl rfl hy rfl
    | pass =>
      simp only [ClockLink.stepA, TimedLink.stepA, Option.map_map, Option.map_eq_some_iff, Function.comp] at hs
      obtain ⟨w, hw, hs⟩ := hs
      cases hs
      obtain ⟨w1, w2, w3, w5⟩ := wl_pass (delay := cfg.delay) hw
      have hgot : w.got = c.l.ba.got := by
        unfold Wire.pass at hw
        split at hw
        · split at hw
          · cases hw; rfl
          · cases hw
        · cases hw
      have w2 : c.l.ba.ser.map (·.2) = some c.l.now := w2
      rw [Option.map_eq_some_iff] at w2
      obtain ⟨⟨p, s⟩, w2, w4⟩ := w2
      have w4 : s = c.l.now := w4
      subst w4
      exact ⟨.pass p w2 (iobs_ext rfl w5 (congrArg List.length hgot) w1 w3 rfl rfl rfl), hy⟩
    | arrive i =>
      simp only [ClockLink.stepA, TimedLink.stepA, Option.map_map, Option.map_eq_some_iff, Function.comp] at hs
      obtain ⟨⟨p, w⟩, hw, hs⟩ := hs
      cases hb : c.swap.l.b.recv p with
      | error x => simp only [hb] at hs; cases hs
      | ok q =>
        simp only [hb] at hs
        cases hs
        have hb : c.l.a.recv p = .ok q := hb
        obtain ⟨w1, w2, w3⟩ := wl_arrive h.t.2 hw
        have hgot := AckTime.arrive_got hw
        obtain ⟨k1, k2, k3, k4, -⟩ := Port.recv_flags hb h.l.da.fi21 h.l.da.fi1c
        have hist := h.t.2.hist
        rw [List.append_assoc] at hist
        have hist : c.l.ba.sent.map (fun e => (e.1, e.2 + cfg.dur e.1 + cfg.delay)) = c.l.ba.got ++ wl cfg.delay c.l.ba := hist
        rw [show wl cfg.delay c.l.ba = _ from w1] at hist
        have hx := congrArg (fun l : List (Pkt × Nat) => l[c.l.ba.got.length]?) hist
        simp only [List.getElem?_map] at hx
        rw [List.getElem?_append_right (Nat.le_refl _), Nat.sub_self, List.getElem?_cons_zero, Option.map_eq_some_iff] at hx
        obtain ⟨⟨p', s⟩, hx1, hx2⟩ := hx
        obtain ⟨hx2, hx3⟩ := Prod.mk.inj hx2
        simp only at hx2 hx3
        subst hx2
        refine ⟨.recv p' s (wl cfg.delay w) q.fc.cap q.fc.fi1 q.fc.fi2 w1 hx1 hx3 ⟨k3, k1, k2⟩ (fun x ty hp hi h1 => ?_) (fun x hp h2 h1 => k4 x hp h1 h2)
          (recv_fi2 hb h.l.da.fi21) (iobs_ext rfl w3 ?_ rfl w2 rfl rfl rfl), hy⟩
        · subst hp
          exact recv_init hb hi h1
        · show w.got.length = c.l.ba.got.length + 1
          rw [hgot]; simp; rfl

theorem step_itr {cfg : ClockCfg} {c c' : ClockLink} {e : ClockEv} (h : Ok cfg c) (hy : Got c.l.b) (hs : c.step cfg e = some (.ok c')) :
    ITr cfg (iobs cfg c) (iobs cfg c') ∧ Got c'.l.b := by
  cases e with
  | port b e =>
    cases b with
    | true => exact stepA_itr h hy hs
    | false =>
      simp only [ClockLink.step, Option.map_eq_some_iff] at hs
      obtain ⟨r, hr, hs⟩ := hs
      cases r with
      | error x => cases hs
      | ok c2 => cases hs; exact stepB_itr h hy hr
  | advance t =>
    simp only [ClockLink.step] at hs
    split at hs
    · next hc =>
      cases hs
      obtain ⟨g1, g2, g3, g4, g5, g6⟩ := hc
      have hw := Wire.advance_ok h.t.2 g1 g3
      refine ⟨.adv t g1 (fun hlt hser => ?_) (fun p s hs => (hw.ser p s hs).1) rfl, hy⟩
      · have := (g6 hlt).2
        unfold ready at this
        have hn : c.l.ba.ser = none := hser
        rw [hn] at this
        simp only [Option.isNone_none, Bool.true_and, Bool.not_eq_false', Bool.and_eq_true, Bool.not_eq_true'] at this
        have hb := h.l.fb.f3 this.2
        exact ⟨h.l.fb.f2 hb, hb⟩
    · cases hs

end InitTime
end Pcie
