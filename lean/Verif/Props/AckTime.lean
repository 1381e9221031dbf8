import Verif.Lemmas.AckTimeRun
import Verif.Props.FcTime
import Verif.Props.Link
/-
C80: every TLP is acknowledged in bounded time, so that the number of TLPs that are not acknowledged stays below the limit up to which their sequence numbers are
unambiguous (`ReachBounded`, assumed in C25).

All theorems speak about port `a` as sender and port `b` as receiver; by `C79_symmetric` they hold in the other direction as well.
-/
namespace Pcie
open Spec

section
variable (cfg : ClockCfg) (hdur : ∀ p, 0 < cfg.dur p) (hdel : 0 < cfg.delay) (c0 c : ClockLink) (es : List ClockEv) (h0 : FreshClock c0)
  (h : c0.run cfg es = some (.ok c)) (D d m : Nat) (hz : Sizes cfg D m c) (hd : ∀ x, cfg.dur (.dllp x) ≤ d) (hm : 0 < m)
  (hu : roundTrip cfg D d / m + 1 ≤ 2048)
include hdur hdel h0 h hz hd hm hu

/-- A TLP that was received at time `t` is acknowledged when more than `ackTime` has passed. -/
theorem C80_received_acked (j t : Nat) (hj : (tlpTimes c.l.ab.got)[j]? = some t) (ht : t + ackTime cfg D d < c.l.now) : j < acked c.l.a := by
  obtain ⟨g, -⟩ := (AckTime.Both.fresh h0).run hdur hdel hd hm hu es h hz
  exact g.ia.over (FcTime.wl_ge g.ok.t.2) hj ht

/-- A TLP that was sent at time `t` is acknowledged when more than `roundTrip` has passed. -/
theorem C80_sent_acked (j t : Nat) (hj : (tlpTimes c.l.ab.sent)[j]? = some t) (ht : t + roundTrip cfg D d < c.l.now) : j < acked c.l.a := by
  obtain ⟨g, -⟩ := (AckTime.Both.fresh h0).run hdur hdel hd hm hu es h hz
  obtain ⟨-, -, g3⟩ := g.info hz
  refine Nat.lt_of_not_le fun hle => ?_
  have := g3 j t hj hle
  omega

/-- The retry buffer is empty when all TLPs were sent more than `roundTrip` ago. -/
theorem C80_retry_empty (ht : ∀ t ∈ tlpTimes c.l.ab.sent, t + roundTrip cfg D d < c.l.now) : c.l.a.retry = [] := by
  obtain ⟨g, -⟩ := (AckTime.Both.fresh h0).run hdur hdel hd hm hu es h hz
  obtain ⟨g1, g2, g3⟩ := g.info hz
  refine List.eq_nil_of_length_eq_zero ?_
  rw [g2]
  refine Nat.sub_eq_zero_of_le (Nat.le_of_not_lt fun hlt => ?_)
  have := g3 _ _ (List.getElem?_eq_getElem hlt) (Nat.le_refl _)
  have := ht _ (List.getElem_mem hlt)
  omega

/-- Few TLPs are in the retry buffer: as many as fit into the time of `roundTrip`, and one more. -/
theorem C80_outstanding : c.l.a.retry.length ≤ roundTrip cfg D d / m + 1 := by
  obtain ⟨g, -⟩ := (AckTime.Both.fresh h0).run hdur hdel hd hm hu es h hz
  exact g.bound hz hm

/-- The hypothesis of C25 holds: throughout the history, at most 2048 TLPs are in the retry buffers. -/
theorem C80_bounded : ReachBounded cfg.steps (untimed c.l) := by
  obtain ⟨-, fs, g1, g2⟩ := (AckTime.Both.fresh h0).run hdur hdel hd hm hu es h hz
  exact ⟨untimed c0.l, fs, h0.1.2.2, g1, g2⟩

end

/-! ### Simulated ports -/

theorem genRate_cases {s n d : Nat} (h : genRate s = some (n, d)) : 0 < n ∧ 0 < d ∧ n * 10 ≤ d * 315080000000 := by
  match s with
  | 0 => cases h
  | 1 => cases h; decide
  | 2 => cases h; decide
  | 3 => cases h; decide
  | 4 => cases h; decide
  | 5 => cases h; decide
  | _ + 6 => cases h

theorem wireSize_ge (t : Tlp) : 20 ≤ t.wireSize := by
  unfold Tlp.wireSize Tlp.size Tlp.headerSize
  split <;> omega

theorem wireSize_le {t : Tlp} (h : t.data.length ≤ 4096) : t.wireSize ≤ 4120 := by
  unfold Tlp.wireSize Tlp.size Tlp.headerSize Tlp.payloadSize
  split <;> omega

/-- A quotient, when `20 K / Q` is at most `m`. -/
theorem quot_le {K Q m : Nat} (hQ : 0 < Q) (hm : 0 < m) (h : 20 * K / Q ≤ m) (a b : Nat) : 20 * a * K / (b * Q) ≤ 2 * a * m / b := by
  have h1 : 20 * K < (m + 1) * Q := by
    rw [← Nat.div_lt_iff_lt_mul hQ]; omega
  have h2 : 20 * K ≤ 2 * m * Q := Nat.le_trans (Nat.le_of_lt h1) (Nat.mul_le_mul_right _ (by omega))
  have h3 : 20 * a * K ≤ 2 * a * m * Q := by
    have := Nat.mul_le_mul_left a h2
    calc 20 * a * K = a * (20 * K) := by ac_rfl
      _ ≤ a * (2 * m * Q) := this
      _ = 2 * a * m * Q := by ac_rfl
  rw [Nat.mul_comm b Q, ← Nat.div_div_eq_div_mul]
  refine Nat.div_le_div_right ?_
  exact Nat.div_le_of_le_mul (by rw [Nat.mul_comm Q]; exact h3)

/-- For ports of any speed and of up to 32 lanes, whose delays together are at most 10 ns, and TLPs of up to 4096 bytes of data, the time until the acknowledgement is
that of at most 1499 TLPs. -/
theorem port_times {q : SimPort} {scale : Nat} {pd : Nat} (hpd : pd ≤ 10000000) (hw : ∀ w, q.curWidth = some w → w ≤ 32)
    (h : (∃ s w n d, q.curSpeed = some s ∧ q.curWidth = some w ∧ genRate s = some (n, d) ∧ 0 < w ∧ q.symbolPeriod = (8 * d, n * w) ∧ q.linkDelay = pd * scale / 10 ^ 15) ∨
     ((q.curSpeed = none ∨ q.curWidth = none) ∧ q.symbolPeriod = (0, 1) ∧ q.linkDelay = 0)) :
    roundTrip (q.clock scale) (q.duration scale 4120) (q.duration scale 8) / q.duration scale 20 + 1 ≤ 1500 := by
  have hm : 0 < q.duration scale 20 := Nat.le_max_right _ _
  suffices hs : roundTrip (q.clock scale) (q.duration scale 4120) (q.duration scale 8) ≤ 1499 * q.duration scale 20 by
    have hs2 : roundTrip (q.clock scale) (q.duration scale 4120) (q.duration scale 8) ≤ q.duration scale 20 * 1499 := by omega
    exact Nat.succ_le_succ (Nat.div_le_of_le_mul hs2)
  have h8 : q.duration scale 8 ≤ q.duration scale 20 := duration_mono q scale (by decide)
  unfold roundTrip ackTime
  have e1 : (q.clock scale).latency = q.latencySteps scale := rfl
  have e2 : (q.clock scale).delay = max q.linkDelay 1 := rfl
  rw [e1, e2]
  rcases h with ⟨s, w, n, d, hs, hcw, hg, hw0, hp, hl⟩ | ⟨h1, hp, hl⟩
  · obtain ⟨hn, hd0, hnd⟩ := genRate_cases hg
    have hw32 := hw w hcw
    have hQ : 0 < n * w := Nat.mul_pos hn hw0
    have hdu : ∀ z, q.duration scale z = max (z * (8 * d * scale) / (n * w)) 1 := fun z => by
      unfold SimPort.duration; rw [hp, Nat.mul_assoc z]
    have hq : 20 * (8 * d * scale) / (n * w) ≤ q.duration scale 20 := by rw [hdu]; exact Nat.le_max_left _ _
    have k1 := quot_le hQ hm hq 206 1
    have k2 := quot_le hQ hm hq 2074 10
    have hD : q.duration scale 4120 ≤ 412 * q.duration scale 20 := by
      rw [hdu 4120, show 4120 * (8 * d * scale) / (n * w) = 20 * 206 * (8 * d * scale) / (1 * (n * w)) by rw [Nat.one_mul]]
      omega
    have hL : q.latencySteps scale ≤ 415 * q.duration scale 20 := by
      have hl1 : (maxUpdateLatency 128 w s).1 ≤ 41480 := by
        have a1 : updateFactor 128 w ≤ 30 := by
          unfold updateFactor
          split <;> split <;> (try split) <;> decide
        have a2 : (if s = 1 then 19 else if s = 2 then 70 else 115) * (10 * w) ≤ 115 * (10 * w) :=
          Nat.mul_le_mul_right _ (by split <;> (try split) <;> decide)
        show (128 + 28) * updateFactor 128 w + (if s = 1 then 19 else if s = 2 then 70 else 115) * (10 * w) ≤ 41480
        omega
      have hl2 : (maxUpdateLatency 128 w s).2 = 10 * w := rfl
      have e : q.latencySteps scale = (maxUpdateLatency 128 w s).1 * 8 * d * scale / (10 * w * n) := by
        unfold SimPort.latencySteps; rw [hcw, hs]; simp only [hg, hl2]
      have hle : (maxUpdateLatency 128 w s).1 * 8 * d * scale ≤ 20 * 2074 * (8 * d * scale) := by
        calc (maxUpdateLatency 128 w s).1 * 8 * d * scale = (maxUpdateLatency 128 w s).1 * (8 * d * scale) := by simp only [Nat.mul_assoc]
          _ ≤ 20 * 2074 * (8 * d * scale) := Nat.mul_le_mul_right _ hl1
      have := Nat.div_le_div_right (c := 10 * (n * w)) hle
      rw [e, show 10 * w * n = 10 * (n * w) by ac_rfl]
      omega
    have hdl : q.linkDelay ≤ 127 * q.duration scale 20 := by
      have h1 : 20 * (8 * d * scale) < (q.duration scale 20 + 1) * (n * w) := by
        rw [← Nat.div_lt_iff_lt_mul hQ]; omega
      have h2 : 20 * (8 * d * scale) ≤ (2 * q.duration scale 20) * (n * w) := Nat.le_trans (Nat.le_of_lt h1) (Nat.mul_le_mul_right _ (by omega))
      have h3 : n * w * 10 ≤ d * 315080000000 * 32 := by
        calc n * w * 10 = (n * 10) * w := by ac_rfl
          _ ≤ d * 315080000000 * 32 := Nat.mul_le_mul hnd hw32
      have h4 : 10 * (20 * (8 * d * scale)) ≤ (2 * q.duration scale 20) * (d * 315080000000 * 32) := by
        calc 10 * (20 * (8 * d * scale)) ≤ 10 * ((2 * q.duration scale 20) * (n * w)) := Nat.mul_le_mul_left _ h2
          _ = (2 * q.duration scale 20) * (n * w * 10) := by ac_rfl
          _ ≤ _ := Nat.mul_le_mul_left _ h3
      have h5 : 1600 * scale ≤ 20165120000000 * q.duration scale 20 := by
        refine (Nat.mul_le_mul_left_iff hd0).mp ?_
        calc d * (1600 * scale) = 10 * (20 * (8 * d * scale)) := by
              rw [show (1600 : Nat) = 10 * (20 * 8) from rfl]; ac_rfl
          _ ≤ (2 * q.duration scale 20) * (d * 315080000000 * 32) := h4
          _ = d * (20165120000000 * q.duration scale 20) := by
              rw [show (20165120000000 : Nat) = 2 * 315080000000 * 32 from rfl]; ac_rfl
      have h6 : pd * scale ≤ 10000000 * scale := Nat.mul_le_mul_right _ hpd
      rw [hl]
      have h7 : pd * scale / 10 ^ 15 ≤ 10000000 * scale / 10 ^ 15 := Nat.div_le_div_right h6
      omega
    omega
  · have hdu : ∀ z, q.duration scale z = 1 := fun z => by unfold SimPort.duration; rw [hp]; simp
    have hL : q.latencySteps scale = 0 := by
      unfold SimPort.latencySteps
      rcases h1 with h1 | h1
      · rw [h1]; cases q.curWidth <;> rfl
      · rw [h1]
    rw [hdu, hdu, hdu, hL, hl]
    decide

/-- For two ports that have been connected, at any speed, with up to 32 lanes and port delays of together at most 10 ns (the default is 5 ns each), and TLPs with at most
4096 bytes of data: in every history there are at most 1500 TLPs that are not acknowledged, the sequence numbers of the ACKs are never ambiguous (C25 applies), and a TLP
is acknowledged `roundTrip` after it was sent, where packets take the time of at most 4120 symbols, and ACKs that of 8. -/
theorem C80_port (ps qs : Nat → SimPort) (i j scale : Nat) (hij : i ≠ j) (hc : SimPort.connect ps i j scale = .ok qs)
    (hw : ∀ w, (qs i).curWidth = some w → w ≤ 32) (hpd : (ps i).portDelay + (ps j).portDelay ≤ 10000000)
    (c0 c : ClockLink) (es : List ClockEv) (h0 : FreshClock c0) (h : c0.run ((qs i).clock scale) es = some (.ok c))
    (hz : ∀ e ∈ c.l.ab.sent ++ c.l.ba.sent, ∀ t, e.1 = .tlp t → t.data.length ≤ 4096) :
    c.l.a.retry.length ≤ 1500 ∧ ReachBounded ((qs i).clock scale).steps (untimed c.l) ∧
    ∀ n t, (tlpTimes c.l.ab.sent)[n]? = some t →
      t + roundTrip ((qs i).clock scale) ((qs i).duration scale 4120) ((qs i).duration scale 8) < c.l.now → n < acked c.l.a := by
  obtain ⟨p, q, g1, g2, g3, -⟩ := SimPort.connect_split hij hc
  obtain ⟨-, -, -, -, -, k6, -⟩ := SimPort.connectInt_ok g1
  obtain ⟨-, -, -, -, -, -, k7⟩ := SimPort.connectInt_ok g2
  rw [← g3, k6] at k7
  have hu := port_times (scale := scale) hpd hw k7
  have hsz : Sizes ((qs i).clock scale) ((qs i).duration scale 4120) ((qs i).duration scale 20) c := by
    intro e he
    have hx := hz e he
    obtain ⟨x, tm⟩ := e
    cases x with
    | dllp x => exact ⟨duration_mono _ _ (by show 8 ≤ 4120; decide), nofun⟩
    | tlp t => exact ⟨duration_mono _ _ (wireSize_le (hx t rfl)), fun t' ht => duration_mono _ _ (wireSize_ge t)⟩
  have hdur : ∀ p, 0 < ((qs i).clock scale).dur p := fun _ => Nat.le_max_right _ _
  have hdel : 0 < ((qs i).clock scale).delay := Nat.le_max_right _ _
  have hm : 0 < (qs i).duration scale 20 := Nat.le_max_right _ _
  have hd : ∀ x, ((qs i).clock scale).dur (.dllp x) ≤ (qs i).duration scale 8 := fun _ => Nat.le_refl _
  refine ⟨Nat.le_trans (C80_outstanding _ hdur hdel c0 c es h0 h _ _ _ hsz hd hm (by omega)) hu, C80_bounded _ hdur hdel c0 c es h0 h _ _ _ hsz hd hm (by omega), fun n t hn ht => ?_⟩
  exact C80_sent_acked _ hdur hdel c0 c es h0 h _ _ _ hsz hd hm (by omega) n t hn ht

/-! ### The hypotheses are met -/

/-- On the link of C79 a TLP takes 3 steps, other packets 1: at most 8 TLPs are not acknowledged, and each is within 21 steps. -/
example : roundTrip exTimes 3 1 = 21 ∧ roundTrip exTimes 3 1 / 3 + 1 = 8 ∧ ackTime exTimes 3 1 = 16 := by decide
/-- The two TLPs are sent at 40 and 43 and received at 45 and 48; at 52 they are not acknowledged, at 80 both are. -/
def exAcks (r : Option (Py ClockLink)) : Option (List Nat × List Nat × Nat × Nat × Nat) :=
  r.bind fun r => r.toOption.map fun c => (tlpTimes c.l.ab.sent, tlpTimes c.l.ab.got, acked c.l.a, c.l.a.retry.length, c.l.now)
example : exAcks exC1 = some ([40, 43], [45, 48], 0, 2, 55) := by decide +kernel
example : exAcks (exC2 80) = some ([40, 43], [45, 48], 2, 0, 80) := by decide +kernel
example : ((exC2 80).bind fun r => r.toOption.map fun c =>
    (c.l.ab.sent ++ c.l.ba.sent).all fun e => decide (exTimes.dur e.1 ≤ 3) && (match e.1 with | .tlp _ => decide (3 ≤ exTimes.dur e.1) | .dllp _ => true)) = some true := by
  decide +kernel
/-- Two ports of generation 3 with 16 lanes, with picosecond steps: the time until the acknowledgement is at most 691 ns. -/
example : (SimPort.connect (fun _ => { maxSpeed := some 3, maxWidth := some 16 }) 0 1 (10 ^ 12)).toOption.map (fun qs =>
    ((qs 0).curWidth, roundTrip ((qs 0).clock (10 ^ 12)) ((qs 0).duration (10 ^ 12) 4120) ((qs 0).duration (10 ^ 12) 8))) = some (some 16, 690056) := by decide +kernel

end Pcie
