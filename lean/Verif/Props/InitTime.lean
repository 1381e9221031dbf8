import Verif.Props.AckTime
import Verif.Lemmas.InitTimeRun
/-
C81: the initialisation of a link takes bounded time.
-/
namespace Pcie
open Spec InitTime

/-- In every history: `exchangeTime` after the start (three DLLPs and the delay of the link) both ports know the credits of the other of all three types, and none knows them
all before. -/
theorem C81_credits_known (cfg : ClockCfg) (hdur : ∀ p, 0 < cfg.dur p) (hdel : 0 < cfg.delay) (c0 c : ClockLink) (es : List ClockEv)
    (h0 : FreshClock c0) (h : c0.run cfg es = some (.ok c)) (d : Nat) (hd : ∀ x, cfg.dur (.dllp x) = d) :
    (c0.l.now + exchangeTime cfg d < c.l.now → ∀ ty, c.l.a.fc.cap ty = true ∧ c.l.b.fc.cap ty = true) ∧
    ((∀ ty, c.l.a.fc.cap ty = true) ∨ (∀ ty, c.l.b.fc.cap ty = true) → c0.l.now + exchangeTime cfg d ≤ c.l.now) := by
  have hr := (Start.fresh (cfg := cfg) (d := d) h0).run hdur hdel hd es h
  refine ⟨fun ht => ?_, ?_⟩
  · have ha : c.l.a.fc.fi1 = true := by
      cases hf : c.l.a.fc.fi1 with
      | true => rfl
      | false => have := hr.late hd hf; omega
    have hb : c.l.b.fc.fi1 = true := by
      cases hf : c.l.b.fc.fi1 with
      | true => rfl
      | false => have := hr.swap.late hd hf; have : c.l.now ≤ _ := this; omega
    exact fun ty => ⟨hr.ok.l.da.fi1c ha ty, hr.ok.l.db.fi1c hb ty⟩
  · rintro (hc | hc)
    · refine hr.ia.s10 ?_
      rw [hr.ia.s5]
      show (c.l.a.fc.cap .P && c.l.a.fc.cap .NP && c.l.a.fc.cap .CPL) = true
      rw [hc, hc, hc]; rfl
    · refine hr.ib.s10 ?_
      rw [hr.ib.s5]
      show (c.l.b.fc.cap .P && c.l.b.fc.cap .NP && c.l.b.fc.cap .CPL) = true
      rw [hc, hc, hc]; rfl

/-- In every history, whatever the users of the ports do: five DLLPs and two delays of the link after the start both ports are initialised. -/
theorem C81_initialised (cfg : ClockCfg) (hdur : ∀ p, 0 < cfg.dur p) (hdel : 0 < cfg.delay) (c0 c : ClockLink) (es : List ClockEv)
    (h0 : FreshClock c0) (h : c0.run cfg es = some (.ok c)) (d : Nat) (hd : ∀ x, cfg.dur (.dllp x) = d)
    (ht : c0.l.now + initLatest cfg d < c.l.now) : c.l.a.fc.fi2 = true ∧ c.l.b.fc.fi2 = true :=
  ⟨finish hdur hdel hd h0 h ht, finish (c0 := c0.swap) (c := c.swap) hdur hdel hd (fresh_swap h0) (clock_swap es h) ht⟩

/-- No port is initialised, and no TLP is accepted for sending, before four DLLPs and two delays. -/
theorem C81_not_before (cfg : ClockCfg) (hdur : ∀ p, 0 < cfg.dur p) (hdel : 0 < cfg.delay) (c0 c : ClockLink) (es : List ClockEv)
    (h0 : FreshClock c0) (h : c0.run cfg es = some (.ok c)) (d : Nat) (hd : ∀ x, cfg.dur (.dllp x) = d) (ht : c.l.now < c0.l.now + initEarliest cfg d) :
    c.l.a.fc.fi2 = false ∧ c.l.b.fc.fi2 = false ∧ c.l.a.accepted = [] ∧ c.l.b.accepted = [] ∧ ∀ t, c.l.a.send t = none ∧ c.l.b.send t = none := by
  have hr := (Start.fresh (cfg := cfg) (d := d) h0).run hdur hdel hd es h
  have ha : c.l.a.fc.fi2 = false := by
    cases hf : c.l.a.fc.fi2 with
    | false => rfl
    | true => have := hr.ia.s9 hf; have : _ ≤ c.l.now := this; omega
  have hb : c.l.b.fc.fi2 = false := by
    cases hf : c.l.b.fc.fi2 with
    | false => rfl
    | true => have := hr.ib.s9 hf; have : _ ≤ c.l.now := this; omega
  have no : ∀ (p : Port) t, p.fc.fi2 = false → p.send t = none := by
    intro p t hp
    unfold Port.send
    rw [hp]
    cases t.fcType <;> simp
  exact ⟨ha, hb, hr.ok.l.da.acc0 ha, hr.ok.l.db.acc0 hb, fun t => ⟨no _ t ha, no _ t hb⟩⟩

/-- So the first TLP can be handed to a port then, without waiting, if it fits the credits that the other port advertised. -/
theorem C81_first_send (cfg : ClockCfg) (hdur : ∀ p, 0 < cfg.dur p) (hdel : 0 < cfg.delay) (c0 c : ClockLink) (es : List ClockEv)
    (h0 : FreshClock c0) (h : c0.run cfg es = some (.ok c)) (d : Nat) (hd : ∀ x, cfg.dur (.dllp x) = d)
    (ht : c0.l.now + initLatest cfg d < c.l.now) (hq : c.l.a.accepted = []) (t : Tlp) (ty : FcType) (hty : t.fcType = some ty) (hlen : t.dataCredits < 2 ^ 16)
    (hc : ∀ b, (counters c0.l.b.fc (ty, b)).rxInit ≠ 0 → cost (ty, b) t ≤ (counters c0.l.b.fc (ty, b)).rxInit) : (c.l.a.send t).isSome = true := by
  have hfi := (C81_initialised cfg hdur hdel c0 c es h0 h d hd ht).1
  have hst := Start.fresh (cfg := cfg) (d := d) h0
  have hr := hst.run hdur hdel hd es h
  obtain ⟨fs, hfs⟩ := untime hdur hdel hd es hst h
  have av : ∀ b, cost (ty, b) t ≤ (counters c.l.a.fc (ty, b)).txAvail := by
    intro b
    have hw := hr.ok.l.da.fc (ty, b)
    have hcap := hr.ok.l.da.fi1c (hr.ok.l.da.fi21 hfi) ty
    by_cases hz : (counters c0.l.b.fc (ty, b)).rxInit = 0
    · have e : (counters c.l.a.fc (ty, b)).txInit = (counters c0.l.b.fc (ty, b)).rxInit := C23_credits _ _ _ fs h0.1.2.2 hfs hfi (ty, b)
      have hbits : (counters c.l.a.fc (ty, b)).bits = (if b then 16 else 12) := hw.tb
      unfold FcState.txAvail FcState.txInfinite
      rw [if_pos (by rw [e, hz]; rfl), hbits, cost_of_fc hty]
      cases b
      · simp [costOf]
      · simp only [costOf, if_true]; omega
    · have k := (C23_limit _ _ _ fs h0.1.2.2 hfs hfi hq (ty, b) hz).2
      have k : (counters c.l.a.fc (ty, b)).txAvail = (counters c0.l.b.fc (ty, b)).rxInit := k
      rw [k]; exact hc b hz
  have a0 := av false
  have a1 := av true
  rw [cost_of_fc hty] at a0 a1
  simp only [costOf, if_true, Bool.false_eq_true, if_false] at a0 a1
  unfold Port.send
  rw [hty]
  simp only
  have hcr : c.l.a.fc.txHasCredit ty t.dataCredits = true := by
    unfold FcCh.txHasCredit
    cases ty <;> simp only [counters] at a0 a1 <;> simp only [decide_eq_true_eq] <;> exact ⟨a0, a1⟩
  rw [if_pos ⟨hfi, hcr⟩]; rfl

/-- Two ports that have been connected, at any speed and width: a DLLP takes the time of 8 symbols. The users need not wait for anything else, and time always passes
(`C79_time_passes`), so the initialisation always ends. -/
theorem C81_port (sp : SimPort) (scale : Nat) (hdel : 0 < sp.delay) (c0 c : ClockLink) (es : List ClockEv) (h0 : FreshClock c0) (h : c0.run (sp.clock scale) es = some (.ok c)) :
    (c.l.a.fc.fi2 = true ∨ c.l.b.fc.fi2 = true → c0.l.now + (4 * sp.duration scale 8 + 2 * sp.delay) ≤ c.l.now) ∧
    (c0.l.now + (5 * sp.duration scale 8 + 2 * sp.delay) < c.l.now → c.l.a.fc.fi2 = true ∧ c.l.b.fc.fi2 = true) := by
  have hdur : ∀ p, 0 < (sp.clock scale).dur p := fun _ => Nat.le_max_right _ _
  refine ⟨fun hf => Nat.le_of_not_lt fun ht => ?_, fun ht => C81_initialised (sp.clock scale) hdur hdel c0 c es h0 h (sp.duration scale 8) (fun _ => rfl) ht⟩
  obtain ⟨k1, k2, -⟩ := C81_not_before (sp.clock scale) hdur hdel c0 c es h0 h (sp.duration scale 8) (fun _ => rfl) ht
  rw [k1, k2] at hf
  rcases hf with hf | hf <;> cases hf

/-- From every state of a link, the ports alone finish the initialisation. -/
theorem C81_always_ends (cfg : ClockCfg) (hdur : ∀ p, 0 < cfg.dur p) (hdel : 0 < cfg.delay) (c0 c1 : ClockLink) (es1 : List ClockEv)
    (h0 : FreshClock c0) (h1 : c0.run cfg es1 = some (.ok c1)) (d : Nat) (hd : ∀ x, cfg.dur (.dllp x) = d) :
    ∃ es2 c2, (∀ e ∈ es2, evUser e = false) ∧ c1.run cfg es2 = some (.ok c2) ∧ c2.l.a.fc.fi2 = true ∧ c2.l.b.fc.fi2 = true := by
  obtain ⟨es2, c2, g1, g2, g3⟩ := C79_time_passes cfg hdur hdel c0 c1 es1 h0 h1 (max c1.l.now (c0.l.now + initLatest cfg d + 1)) (Nat.le_max_left _ _)
  have hr : c0.run cfg (es1 ++ es2) = some (.ok c2) := by
    rw [clock_append h1]; exact g2
  obtain ⟨k1, k2⟩ := C81_initialised cfg hdur hdel c0 c2 (es1 ++ es2) h0 hr d hd (by omega)
  exact ⟨es2, c2, g1, g2, k1, k2⟩

/-! ### The hypotheses are met -/

example : exchangeTime exTimes 1 = 5 ∧ initEarliest exTimes 1 = 8 ∧ initLatest exTimes 1 = 9 ∧ ∀ x, exTimes.dur (.dllp x) = 1 := ⟨rfl, rfl, rfl, fun _ => rfl⟩
/-- On the link of C79 the credits are known at 5, and the ports are initialised at 8. -/
def exInitAt (t : Nat) : Option (Bool × Bool × Bool) := (exClock.run exTimes (dueEvs exTimes t 200 exClock)).bind fun r => r.toOption.map fun c =>
  (c.l.a.fc.cap .CPL, c.l.a.fc.fi2, c.l.b.fc.fi2)
example : exInitAt 4 = some (false, false, false) := by decide +kernel
example : exInitAt 6 = some (true, false, false) := by decide +kernel
example : exInitAt 10 = some (true, true, true) := by decide +kernel
/-- Two ports of generation 3 with 16 lanes, with picosecond steps: 22.5 ns. -/
example : (SimPort.connect (fun _ => { maxSpeed := some 3, maxWidth := some 16 }) 0 1 (10 ^ 12)).toOption.map (fun qs =>
    ((qs 0).curWidth, (qs 0).delay, 4 * (qs 0).duration (10 ^ 12) 8 + 2 * (qs 0).delay, 5 * (qs 0).duration (10 ^ 12) 8 + 2 * (qs 0).delay)) =
    some (some 16, 10000, 22028, 22535) := by decide +kernel

end Pcie
