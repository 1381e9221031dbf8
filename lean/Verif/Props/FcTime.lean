import Verif.Lemmas.FcTimeGo
import Verif.Props.SimPort
/-
C79: credits that a receiver releases come back to the sender in bounded time.

All theorems speak about port `a` as sender and port `b` as receiver; by `C79_symmetric` they hold in the other direction as well.
-/
namespace Pcie
open Spec

/-! ### A concrete link -/

/-- DLLPs take 1 step, TLPs 3, the delay of the link is 2, updates are sent at least every 100 steps; the timers expire after 10 and 60 steps. -/
def exTimes : ClockCfg := { dur := fun | .dllp _ => 1 | .tlp _ => 3, delay := 2, steps := 100, latency := 10, idle := 60 }

/-- The link `exFresh`, with time. -/
def exClock : ClockLink := { l := { a := exFresh.a, b := exFresh.b }, ta := { idleAt := 60 }, tb := { idleAt := 60 } }

/-- An event that has to happen now, at `a`. -/
def dueA (c : ClockLink) : Option ClockAct :=
  if c.l.ab.ser.map (·.2) = some c.l.now then some (.timed .pass)
  else if c.l.ab.fly.head?.map (·.2) = some c.l.now then some (.timed (.arrive 0))
  else if c.ta.ackAt = some c.l.now then some (.timed (.act .ackTimeout))
  else if c.ta.fcAt = some c.l.now then some (.timed (.act .fcTimeout))
  else if c.ta.idleAt = c.l.now then some .idle
  else if ready c.l.a c.l.ab then some (.timed .transmit)
  else none

/-- The times at which something has to happen at `a`. -/
def timesA (c : ClockLink) : List Nat :=
  (c.l.ab.ser.map (·.2)).toList ++ c.l.ab.fly.map (·.2) ++ c.ta.ackAt.toList ++ c.ta.fcAt.toList ++ [c.ta.idleAt]

/-- An event that has to happen, or else the passing of time until there is one, but not beyond `t`. -/
def dueEv (t : Nat) (c : ClockLink) : ClockEv :=
  match dueA c, dueA c.swap with
  | some e, _ => .port true e
  | none, some e => .port false e
  | none, none => .advance ((timesA c ++ timesA c.swap).foldl min t)

/-- The events of the given number of steps of the link, until time `t`. -/
def dueEvs (cfg : ClockCfg) (t : Nat) : Nat → ClockLink → List ClockEv
  | 0, _ => []
  | n + 1, c =>
    if c.l.now = t ∧ (dueA c).isNone ∧ (dueA c.swap).isNone then []
    else match c.step cfg (dueEv t c) with
      | some (.ok c') => dueEv t c :: dueEvs cfg t n c'
      | _ => []

/-- The link at time 40: initialised; two TLPs sent. -/
def exC0 : Option (Py ClockLink) := exClock.run exTimes (dueEvs exTimes 40 200 exClock ++ [.port true (.timed (.act (.send exTlp))), .port true (.timed (.act (.send exTlp)))])
/-- The link at time 55: received, and one of the TLPs released. -/
def exC1 : Option (Py ClockLink) := exC0.bind fun r => match r with
  | .ok c => c.run exTimes (dueEvs exTimes 55 200 c ++ [.port false (.timed (.act (.release 0)))])
  | .error e => some (.error e)
/-- Later. -/
def exC2 (t : Nat) : Option (Py ClockLink) := exC1.bind fun r => match r with
  | .ok c => c.run exTimes (dueEvs exTimes t 200 c)
  | .error e => some (.error e)

/-- What one sees of the link: the time, whether both ports are initialised, posted credits released by `b`, used by `a`, and left to `a`. -/
def exSee (r : Option (Py ClockLink)) : Option (Nat × Bool × Nat × Nat × Nat) :=
  r.bind fun r => r.toOption.map fun c =>
    (c.l.now, c.l.a.fc.fi2 && c.l.b.fc.fi2, released (.P, false) c.l.b, units (.P, false) c.l.a.accepted, (counters c.l.a.fc (.P, false)).txAvail)

example : FreshClock exClock := ⟨⟨rfl, rfl, exFresh_fresh⟩, rfl, rfl, rfl, rfl, by decide, by decide⟩

example : exSee exC0 = some (40, true, 0, 2, 0) := by decide +kernel
example : exSee exC1 = some (55, true, 1, 2, 0) := by decide +kernel
example : exSee (exC2 60) = some (60, true, 1, 2, 0) := by decide +kernel
example : exSee (exC2 80) = some (80, true, 1, 2, 1) := by decide +kernel

/-! ### The theorems -/

theorem clockRun_timed {cfg : ClockCfg} : ∀ (es : List ClockEv) {c : ClockLink} {r : Py ClockLink}, c.run cfg es = some r →
    ∃ fs, c.l.run cfg.dur cfg.delay cfg.steps fs = some (r.map ClockLink.l)
  | [], _, _, h => by cases h; exact ⟨[], rfl⟩
  | e :: es, c, r, h => by
    unfold ClockLink.run at h
    split at h
    · cases h
    · next x hx =>
      cases h
      obtain ⟨f, hf⟩ := FcTime.step_timed hx
      exact ⟨[f], by unfold TimedLink.run; rw [hf]; rfl⟩
    · next c1 hx =>
      obtain ⟨f, hf⟩ := FcTime.step_timed hx
      obtain ⟨fs, hfs⟩ := clockRun_timed es h
      exact ⟨f :: fs, by unfold TimedLink.run; rw [hf]; exact hfs⟩

/-- With timers, the link still does what the link of C21-C25 does, and no port ever raises an exception. -/
theorem C79_link (cfg : ClockCfg) (hdur : ∀ p, 0 < cfg.dur p) (hdel : 0 < cfg.delay) (c0 : ClockLink) (h0 : FreshClock c0) (es : List ClockEv) (r : Py ClockLink)
    (hr : c0.run cfg es = some r) : ∃ c, r = .ok c ∧ Reach cfg.steps (untimed c.l) := by
  obtain ⟨fs, hfs⟩ := clockRun_timed es hr
  obtain ⟨⟨h1, h2, h3⟩, -⟩ := h0
  obtain ⟨⟨gs, g1⟩, _⟩ := TimedLink.run_ok hdur hdel fs c0.l _ (by rw [TimedLink.Inv, h1, h2]; exact ⟨Wire.inv_init _ _ _, Wire.inv_init _ _ _⟩) hfs
  obtain ⟨l, hl⟩ := C21_no_error cfg.steps (untimed c0.l) h3 gs
  rw [hl] at g1
  cases r with
  | error x => cases g1
  | ok c =>
    have g1 : Except.ok l = Except.ok (untimed c.l) := g1
    injection g1 with g1
    exact ⟨c, rfl, untimed c0.l, gs, h3, by rw [← g1]; exact hl⟩

/-- What holds in one direction holds in the other. -/
theorem C79_symmetric (cfg : ClockCfg) : ∀ (es : List ClockEv) (c c' : ClockLink), c.run cfg es = some (.ok c') → c.swap.run cfg (es.map ClockEv.swap) = some (.ok c'.swap)
  | [], c, c', h => by cases h; rfl
  | e :: es, c, c', h => by
    obtain ⟨c1, h1, h2⟩ := FcTime.run_cons h
    have ih := C79_symmetric cfg es c1 c' h2
    have hs := FcTime.step_swap h1
    show ClockLink.run cfg c.swap (e.swap :: es.map ClockEv.swap) = _
    unfold ClockLink.run
    rw [hs]; exact ih

/-- Credits come back: take any history of the link up to a moment when both ports are initialised, and any history after it. When more than the return time has passed,
everything that the receiver had advertised at reset and released up to that moment is the sender's: of each kind of credit, what it has left together with what the TLPs it
accepted have used is at least that much. The return time is that of the slowest packet the receiver has sent (`D`), of a DLLP (`d`) for each TLP received or released
meanwhile and five more, of the update timer and of the link; and it has to be less than the time (30 us) within which the port does not repeat an update. -/
theorem C79_credits_return (cfg : ClockCfg) (hdur : ∀ p, 0 < cfg.dur p) (hdel : 0 < cfg.delay) (c0 c1 c2 : ClockLink) (es1 es2 : List ClockEv) (h0 : FreshClock c0)
    (h1 : c0.run cfg es1 = some (.ok c1)) (ha : c1.l.a.fc.fi2 = true) (hb : c1.l.b.fc.fi2 = true) (h2 : c1.run cfg es2 = some (.ok c2))
    (D d : Nat) (hD : ∀ e ∈ c2.l.ba.sent, cfg.dur e.1 ≤ D) (hd : ∀ x, cfg.dur (.dllp x) ≤ d)
    (ht : c1.l.now + returnTime cfg D d (traffic c2.l.b - traffic c1.l.b) < c2.l.now)
    (hs : returnTime cfg D d (traffic c2.l.b - traffic c1.l.b) ≤ cfg.steps) (w : Credit) (hf : (counters c0.l.b.fc w).rxInit ≠ 0) :
    (counters c0.l.b.fc w).rxInit + released w c1.l.b ≤ units w c2.l.a.accepted + (counters c2.l.a.fc w).txAvail := by
  have hmul : (traffic c2.l.b - traffic c1.l.b + 4) * d ≤ (traffic c2.l.b - traffic c1.l.b + 5) * d := FcTime.mul_mono (by omega)
  unfold returnTime at ht hs
  have hst : 0 < cfg.steps := by omega
  obtain ⟨g1, g2, -⟩ := (FcTime.All.fresh h0).run hdur hdel hst es1 h1
  obtain ⟨k1, k2, k3, k4, k5⟩ := g1.run hdur hdel hst es2 h2
  have e1 : c1.l.b.adv w = (counters c0.l.b.fc w).rxInit := congrFun g2 w
  have hi : c1.l.b.adv w ≠ 0 := by rw [e1]; exact hf
  have b1 := FcTime.Back.start g1 ⟨ha, hb⟩ hi (D := D) d (c1.l.now + max cfg.latency 1 + D + (traffic c2.l.b - traffic c1.l.b + 4) * d) (fun e he => hD e (k4 e he))
  have b2 := b1.run hdur hdel hst hd es2 g1 ⟨ha, hb⟩ hi h2 hD (Nat.le_refl _) (by omega)
  rw [← k2] at b2 hi
  have := b2.over k1 (k3 ⟨ha, hb⟩) hi (by
    show c1.l.now + max cfg.latency 1 + D + (traffic c2.l.b - traffic c1.l.b + 5) * d + cfg.delay < c2.l.now
    omega)
  rw [k2, e1] at this
  exact this

/-- A sender gets through: a TLP whose credits had been advertised or released before can be sent after the return time. -/
theorem C79_sender_unblocked (cfg : ClockCfg) (hdur : ∀ p, 0 < cfg.dur p) (hdel : 0 < cfg.delay) (c0 c1 c2 : ClockLink) (es1 es2 : List ClockEv) (h0 : FreshClock c0)
    (h1 : c0.run cfg es1 = some (.ok c1)) (ha : c1.l.a.fc.fi2 = true) (hb : c1.l.b.fc.fi2 = true) (h2 : c1.run cfg es2 = some (.ok c2))
    (D d : Nat) (hD : ∀ e ∈ c2.l.ba.sent, cfg.dur e.1 ≤ D) (hd : ∀ x, cfg.dur (.dllp x) ≤ d)
    (ht : c1.l.now + returnTime cfg D d (traffic c2.l.b - traffic c1.l.b) < c2.l.now)
    (hs : returnTime cfg D d (traffic c2.l.b - traffic c1.l.b) ≤ cfg.steps) (t : Tlp) (ty : FcType) (hty : t.fcType = some ty) (hlen : t.dataCredits < 2 ^ 16)
    (hc : ∀ b, (counters c0.l.b.fc (ty, b)).rxInit ≠ 0 →
      units (ty, b) c2.l.a.accepted + cost (ty, b) t ≤ (counters c0.l.b.fc (ty, b)).rxInit + released (ty, b) c1.l.b) :
    (c2.l.a.send t).isSome = true := by
  have hst : 0 < cfg.steps := by unfold returnTime at hs; omega
  obtain ⟨g1, g2, -⟩ := (FcTime.All.fresh h0).run hdur hdel hst es1 h1
  obtain ⟨k1, k2, k3, -⟩ := g1.run hdur hdel hst es2 h2
  have hfi := (k3 ⟨ha, hb⟩).1
  have av : ∀ b, cost (ty, b) t ≤ (counters c2.l.a.fc (ty, b)).txAvail := by
    intro b
    have hw := k1.ok.l.da.fc (ty, b)
    have hcap := k1.ok.l.da.fi1c (k1.ok.l.da.fi21 hfi) ty
    have hadv : c2.l.b.adv (ty, b) = (counters c0.l.b.fc (ty, b)).rxInit := (congrFun k2 _).trans (congrFun g2 _)
    by_cases hz : (counters c0.l.b.fc (ty, b)).rxInit = 0
    · have e : (counters c2.l.a.fc (ty, b)).txInit = c2.l.b.adv (ty, b) := hw.cp hcap
      have hbits : (counters c2.l.a.fc (ty, b)).bits = (if b then 16 else 12) := hw.tb
      unfold FcState.txAvail FcState.txInfinite
      rw [if_pos (by rw [e, hadv, hz]; rfl), hbits, cost_of_fc hty]
      cases b
      · simp [costOf]
      · simp only [costOf, if_true]; omega
    · have := C79_credits_return cfg hdur hdel c0 c1 c2 es1 es2 h0 h1 ha hb h2 D d hD hd ht hs (ty, b) hz
      have := hc b hz
      omega
  have a0 := av false
  have a1 := av true
  rw [cost_of_fc hty] at a0 a1
  simp only [costOf, if_true, Bool.false_eq_true, if_false] at a0 a1
  unfold Port.send
  rw [hty]
  simp only
  have hcr : c2.l.a.fc.txHasCredit ty t.dataCredits = true := by
    unfold FcCh.txHasCredit
    cases ty <;> simp only [counters] at a0 a1 <;> simp only [decide_eq_true_eq] <;> exact ⟨a0, a1⟩
  rw [if_pos ⟨hfi, hcr⟩]; rfl

/-- The times of a connected port whose timers have the values of the source: `scale` steps in a second, updates repeated after 30 us, the idle timer of 10 us. -/
def SimPort.clock (sp : SimPort) (scale : Nat) : ClockCfg :=
  { dur := fun x => sp.duration scale x.wireSize, delay := sp.delay, steps := 30 * scale / 10 ^ 6, latency := sp.latencySteps scale, idle := 10 * scale / 10 ^ 6 }

theorem duration_mono (sp : SimPort) (scale : Nat) {m n : Nat} (h : m ≤ n) : sp.duration scale m ≤ sp.duration scale n := by
  have : m * sp.symbolPeriod.1 * scale / sp.symbolPeriod.2 ≤ n * sp.symbolPeriod.1 * scale / sp.symbolPeriod.2 :=
    Nat.div_le_div_right (Nat.mul_le_mul_right _ (Nat.mul_le_mul_right _ h))
  unfold SimPort.duration
  omega

/-- For simulated ports, whatever their speed and width: if the packets that the receiver sends have at most `size` symbols, the return time is the update latency of the
port, the time of `size` symbols, that of 8 symbols for each TLP received or released meanwhile and five more, and the delay of the link. -/
theorem C79_port (sp : SimPort) (scale : Nat) (c0 c1 c2 : ClockLink) (es1 es2 : List ClockEv) (h0 : FreshClock c0)
    (h1 : c0.run (sp.clock scale) es1 = some (.ok c1)) (ha : c1.l.a.fc.fi2 = true) (hb : c1.l.b.fc.fi2 = true) (h2 : c1.run (sp.clock scale) es2 = some (.ok c2))
    (size : Nat) (hsize : ∀ e ∈ c2.l.ba.sent, e.1.wireSize ≤ size) (bound : Nat)
    (hbound : bound = max (sp.latencySteps scale) 1 + sp.duration scale size + (traffic c2.l.b - traffic c1.l.b + 5) * sp.duration scale 8 + sp.delay)
    (ht : c1.l.now + bound < c2.l.now) (hs : bound ≤ 30 * scale / 10 ^ 6) (w : Credit) (hf : (counters c0.l.b.fc w).rxInit ≠ 0) :
    (counters c0.l.b.fc w).rxInit + released w c1.l.b ≤ units w c2.l.a.accepted + (counters c2.l.a.fc w).txAvail := by
  subst hbound
  exact C79_credits_return (sp.clock scale) (fun _ => Nat.le_max_right _ _) (Nat.le_max_right _ _) c0 c1 c2 es1 es2 h0 h1 ha hb h2 (sp.duration scale size)
    (sp.duration scale 8) (fun e he => duration_mono sp scale (hsize e he)) (fun _ => Nat.le_refl _) ht hs w hf

/-- Time passes: whatever has happened, the ports alone, without anything being sent or released, take the link to any later time: the clock of the simulator never
stops, because at each time only finitely many things have to be done. -/
theorem C79_time_passes (cfg : ClockCfg) (hdur : ∀ p, 0 < cfg.dur p) (hdel : 0 < cfg.delay) (c0 c1 : ClockLink) (es1 : List ClockEv) (h0 : FreshClock c0)
    (h1 : c0.run cfg es1 = some (.ok c1)) (t : Nat) (ht : c1.l.now ≤ t) :
    ∃ es2 c2, (∀ e ∈ es2, evUser e = false) ∧ c1.run cfg es2 = some (.ok c2) ∧ c2.l.now = t := by
  obtain ⟨es, c2, g1, g2, g3, -⟩ := FcTime.go hdur hdel t _ c1 ((FcTime.Go.fresh h0).run hdur hdel es1 h1) ht (Nat.le_refl _)
  exact ⟨es, c2, g1, g2, g3⟩

/-! ### The hypotheses are met -/

/-- The times and counts that `C79_credits_return` asks for, between two states. -/
def exHyps (cfg : ClockCfg) (D d : Nat) (r1 r2 : Option (Py ClockLink)) : Option Bool :=
  r1.bind fun r1 => r2.bind fun r2 => r1.toOption.bind fun c1 => r2.toOption.map fun c2 =>
    c1.l.a.fc.fi2 && c1.l.b.fc.fi2 && c2.l.ba.sent.all (fun e => cfg.dur e.1 ≤ D) &&
      decide (c1.l.now + returnTime cfg D d (traffic c2.l.b - traffic c1.l.b) < c2.l.now) && decide (returnTime cfg D d (traffic c2.l.b - traffic c1.l.b) ≤ cfg.steps)

example : exHyps exTimes 1 1 exC1 (exC2 80) = some true := by decide +kernel
example : ∀ x, exTimes.dur (.dllp x) ≤ 1 := fun _ => Nat.le_refl _
example : (exC1.bind fun r => r.toOption.map fun c => (c.l.a.send exTlp).isSome) = some false := by decide +kernel
example : ((exC2 80).bind fun r => r.toOption.map fun c => (c.l.a.send exTlp).isSome) = some true := by decide +kernel

/-- A port of generation 1 with one lane, with picosecond steps: the latency of the update timer is 0.95 us, so that without traffic, and with packets of at most 152
symbols, credits are back within 1.7 us; up to 880 TLPs may be received or released meanwhile. -/
def exPort : SimPort := { curSpeed := some 1, curWidth := some 1, symbolPeriod := (80, 20000000000), linkDelay := 10000 }

example : exPort.latencySteps (10 ^ 12) = 949600 ∧ returnTime (exPort.clock (10 ^ 12)) (exPort.duration (10 ^ 12) 152) (exPort.duration (10 ^ 12) 8) 0 = 1727600 ∧
    returnTime (exPort.clock (10 ^ 12)) (exPort.duration (10 ^ 12) 152) (exPort.duration (10 ^ 12) 8) 880 ≤ (exPort.clock (10 ^ 12)).steps := by decide +kernel

end Pcie
