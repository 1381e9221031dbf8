import Verif.Lemmas.AckTimeRun
import Verif.Lemmas.InitTimeStep
/-
Histories of a clocked link: both ports are initialised in time.
-/
namespace Pcie
open Spec
namespace InitTime
open FcTime (wl Ok wl_ge run_cons step_swap step_timed)

/-- What holds at all times, in both directions. -/
structure Start (cfg : ClockCfg) (t0 d : Nat) (c : ClockLink) : Prop where
  ok : Ok cfg c
  ia : IInv cfg t0 d (iobs cfg c)
  ib : IInv cfg t0 d (iobs cfg c.swap)
  ga : Got c.l.b
  gb : Got c.l.a

theorem Start.swap {cfg : ClockCfg} {t0 d : Nat} {c : ClockLink} (h : Start cfg t0 d c) : Start cfg t0 d c.swap :=
  ⟨AckTime.Ok.swap h.ok, h.ib, h.ia, h.gb, h.ga⟩

theorem Start.fresh {cfg : ClockCfg} {d : Nat} {c : ClockLink} (h : FreshClock c) : Start cfg c.l.now d c := by
  have hok := (FcTime.All.fresh (cfg := cfg) h).ok
  obtain ⟨⟨h1, h2, h3⟩, h4, h5, h6, h7, h8, h9⟩ := h
  obtain ⟨k1, k2, ⟨a', b', c', d', e', f', fc', hfc', hp'⟩, ⟨a, b, c'', d'', e, f, fc, hfc, hp⟩⟩ := h3
  have hp : c.l.b = { fc := fc } := hp
  have hp' : c.l.a = { fc := fc' } := hp'
  obtain ⟨-, -, m1, m2, m3, -⟩ := FcCh.new_ok hfc'
  obtain ⟨-, -, n1, n2, n3, -⟩ := FcCh.new_ok hfc
  have one : ∀ (c : ClockLink) (fa fb : FcCh), c.l.ba = {} → c.l.a = { fc := fa } → c.l.b = { fc := fb } → fa.cap = (fun _ => false) → fa.fi1 = false → fa.fi2 = false → IInv cfg c.l.now d (iobs cfg c) := by
    intro c fa fb h2 hp' hp m1 m2 m3
    refine ⟨?_, ?_, ?_, ?_, ?_, ?_, ?_, ?_, ?_, ?_, ?_⟩
    · intro k e _ he; rw [show (iobs cfg c).sent = c.l.ba.sent from rfl, h2] at he; cases he
    · intro _
      show c.l.b.fcInitType = tyOf c.l.ba.sent.length
      rw [h2, hp]; rfl
    · intro _
      show (c.l.ba.ser.map (·.2)).getD c.l.now = c.l.now + c.l.ba.sent.length * d
      rw [h2]; exact (Nat.zero_mul d).symm ▸ rfl
    · intro k _
      show c.l.a.fc.cap (tyOf k) = decide (k < c.l.ba.got.length)
      rw [h2, hp']
      show fa.cap _ = decide (k < 0)
      rw [m1]; simp
    · show c.l.a.fc.fi1 = (c.l.a.fc.cap .P && c.l.a.fc.cap .NP && c.l.a.fc.cap .CPL)
      rw [hp']
      show fa.fi1 = (fa.cap .P && fa.cap .NP && fa.cap .CPL)
      rw [m1, m2]; rfl
    · show c.l.ba.got.length ≤ c.l.ba.sent.length
      rw [h2]
    · intro p s hs; rw [show (iobs cfg c).ser = c.l.ba.ser from rfl, h2] at hs; cases hs
    · intro e s hs; rw [show (iobs cfg c).wl = wl cfg.delay c.l.ba from rfl, h2] at hs; cases hs
    · intro hf
      have hf : c.l.a.fc.fi2 = true := hf
      rw [hp'] at hf
      have hf : fa.fi2 = true := hf
      rw [m3] at hf; cases hf
    · intro hf
      have hf : c.l.a.fc.fi1 = true := hf
      rw [hp'] at hf
      have hf : fa.fi1 = true := hf
      rw [m2] at hf; cases hf
    · intro t s hs; rw [show (iobs cfg c).ser = c.l.ba.ser from rfl, h2] at hs; cases hs
  refine ⟨hok, one c fc' fc h2 hp' hp m1 m2 m3, one c.swap fc fc' h1 hp hp' n1 n2 n3, ?_, ?_⟩
  · unfold Got; rw [hp]; rintro (h | h) <;> cases h
  · unfold Got; rw [hp']; rintro (h | h) <;> cases h

theorem Start.late {cfg : ClockCfg} {t0 d : Nat} {c : ClockLink} (h : Start cfg t0 d c) (hd : ∀ e, cfg.dur (.dllp e) = d) (ha : c.l.a.fc.fi1 = false) :
    c.l.now ≤ t0 + exchangeTime cfg d := by
  refine h.ia.late hd (fun k e he hk => ?_) (wl_ge h.ok.t.2) ha
  have hist := h.ok.t.2.hist
  rw [List.append_assoc] at hist
  have hist : c.l.ba.sent.map (fun e => (e.1, e.2 + cfg.dur e.1 + cfg.delay)) = c.l.ba.got ++ wl cfg.delay c.l.ba := hist
  have he : c.l.ba.sent[k]? = some e := he
  have hk : c.l.ba.got.length ≤ k := hk
  have hx := congrArg (·[k]?) hist
  simp only [List.getElem?_map, he, Option.map_some] at hx
  rw [List.getElem?_append_right hk] at hx
  exact List.mem_of_getElem? hx.symm

theorem Start.both {cfg : ClockCfg} {t0 d : Nat} {c : ClockLink} (h : Start cfg t0 d c) (hd : ∀ e, cfg.dur (.dllp e) = d)
    (ha : ((iobs cfg c).af1 && (iobs cfg c).bf1) = false) : (iobs cfg c).now ≤ t0 + exchangeTime cfg d := by
  have ha : (c.l.a.fc.fi1 && c.l.b.fc.fi1) = false := ha
  rw [Bool.and_eq_false_iff] at ha
  rcases ha with ha | ha
  · exact h.late hd ha
  · exact h.swap.late hd ha

theorem Start.step {cfg : ClockCfg} {t0 d : Nat} {c c' : ClockLink} {e : ClockEv} (hdur : ∀ p, 0 < cfg.dur p) (hdel : 0 < cfg.delay) (h : Start cfg t0 d c)
    (hd : ∀ e, cfg.dur (.dllp e) = d) (hs : c.step cfg e = some (.ok c')) : Start cfg t0 d c' ∧ ITr cfg (iobs cfg c) (iobs cfg c') := by
  obtain ⟨e', he⟩ := step_timed hs
  obtain ⟨⟨es, h1, h3⟩, h2⟩ := TimedLink.step_ok hdur hdel h.ok.t he
  have h1 : Link.run cfg.steps (untimed c.l) es = .ok (untimed c'.l) := h1
  obtain ⟨l', f1, f2⟩ := h.ok.l.run cfg.steps es
  rw [h1] at f1
  injection f1 with f1
  obtain ⟨t1, t2⟩ := step_itr h.ok h.ga hs
  obtain ⟨t3, t4⟩ := step_itr (AckTime.Ok.swap h.ok) h.gb (step_swap hs)
  exact ⟨⟨⟨h2 _ rfl, by rw [f1]; exact f2⟩, h.ia.step t1 hd h.ok.l.da.fi21 h.ib.s10 h.ib.s9, h.ib.step t3 hd h.ok.l.db.fi21 h.ia.s10 h.ia.s9, t2, t4⟩, t1⟩

theorem Start.run {cfg : ClockCfg} {t0 d : Nat} (hdur : ∀ p, 0 < cfg.dur p) (hdel : 0 < cfg.delay) (hd : ∀ e, cfg.dur (.dllp e) = d) :
    ∀ (es : List ClockEv) {c c' : ClockLink}, Start cfg t0 d c → c.run cfg es = some (.ok c') → Start cfg t0 d c'
  | [], c, c', h, hr => by cases hr; exact h
  | e :: es, c, c', h, hr => by
    obtain ⟨c1, h1, h2⟩ := run_cons hr
    exact Start.run hdur hdel hd es (h.step hdur hdel hd h1).1 h2

theorem way {cfg : ClockCfg} {t0 d : Nat} (hdur : ∀ p, 0 < cfg.dur p) (hdel : 0 < cfg.delay) (hd : ∀ e, cfg.dur (.dllp e) = d) :
    ∀ (es : List ClockEv) {c c' : ClockLink}, Start cfg t0 d c → Way cfg t0 d (iobs cfg c) → c.run cfg es = some (.ok c') → Way cfg t0 d (iobs cfg c')
  | [], c, c', h, hy, hr => by cases hr; exact hy
  | e :: es, c, c', h, hy, hr => by
    obtain ⟨c1, h1, h2⟩ := run_cons hr
    obtain ⟨g1, g2⟩ := h.step hdur hdel hd h1
    exact way hdur hdel hd es g1 (hy.step h.ia g2 hdel (h.both hd) hd h.ib.s9) h2

/-- One direction. -/
theorem finish {cfg : ClockCfg} {d : Nat} (hdur : ∀ p, 0 < cfg.dur p) (hdel : 0 < cfg.delay) (hd : ∀ e, cfg.dur (.dllp e) = d)
    {es : List ClockEv} {c0 c : ClockLink} (h0 : FreshClock c0) (h : c0.run cfg es = some (.ok c)) (ht : c0.l.now + initLatest cfg d < c.l.now) : c.l.a.fc.fi2 = true := by
  have hs := Start.fresh (cfg := cfg) (d := d) h0
  have hf : c0.l.a.fc.fi1 = false := by
    obtain ⟨⟨-, -, h3⟩, -⟩ := h0
    obtain ⟨-, -, ⟨a', b', c', d', e', f', fc', hfc', hp'⟩, -⟩ := h3
    have hp' : c0.l.a = { fc := fc' } := hp'
    obtain ⟨-, -, m1, m2, m3, -⟩ := FcCh.new_ok hfc'
    rw [hp']
    exact m2
  have hw := way hdur hdel hd es hs (.zero (by show (c0.l.a.fc.fi1 && _) = false; rw [hf]; rfl)) h
  have hr := hs.run hdur hdel hd es h
  exact hw.over hr.ia (wl_ge hr.ok.t.2) (hr.both hd) ht

/-- A history of the clocked link is one of the link without time. -/
theorem untime {cfg : ClockCfg} {t0 d : Nat} (hdur : ∀ p, 0 < cfg.dur p) (hdel : 0 < cfg.delay) (hd : ∀ e, cfg.dur (.dllp e) = d) :
    ∀ (es : List ClockEv) {c c' : ClockLink}, Start cfg t0 d c → c.run cfg es = some (.ok c') → ∃ fs, Link.run cfg.steps (untimed c.l) fs = .ok (untimed c'.l)
  | [], c, c', h, hr => by cases hr; exact ⟨[], rfl⟩
  | e :: es, c, c', h, hr => by
    obtain ⟨c1, h1, h2⟩ := run_cons hr
    obtain ⟨e', he⟩ := step_timed h1
    obtain ⟨⟨fs, k1, -⟩, -⟩ := TimedLink.step_ok hdur hdel h.ok.t he
    obtain ⟨gs, k2⟩ := untime hdur hdel hd es (h.step hdur hdel hd h1).1 h2
    exact ⟨fs ++ gs, by rw [Link.run_append k1]; exact k2⟩

theorem fresh_swap {c : ClockLink} (h : FreshClock c) : FreshClock c.swap := by
  obtain ⟨⟨h1, h2, k1, k2, k3, k4⟩, h4, h5, h6, h7, h8, h9⟩ := h
  exact ⟨⟨h2, h1, k2, k1, k4, k3⟩, h6, h7, h4, h5, h9, h8⟩

theorem clock_append {cfg : ClockCfg} : ∀ {es fs : List ClockEv} {c c' : ClockLink}, c.run cfg es = some (.ok c') → c.run cfg (es ++ fs) = c'.run cfg fs
  | [], fs, c, c', h => by cases h; rfl
  | e :: es, fs, c, c', h => by
    obtain ⟨c1, h1, h2⟩ := run_cons h
    have k := clock_append (fs := fs) h2
    rw [← k, List.cons_append]
    show ClockLink.run cfg c (e :: (es ++ fs)) = _
    conv => lhs; unfold ClockLink.run
    rw [h1]

theorem clock_swap {cfg : ClockCfg} : ∀ (es : List ClockEv) {c c' : ClockLink}, c.run cfg es = some (.ok c') → c.swap.run cfg (es.map ClockEv.swap) = some (.ok c'.swap)
  | [], c, c', h => by cases h; rfl
  | e :: es, c, c', h => by
    obtain ⟨c1, h1, h2⟩ := run_cons h
    have k := clock_swap es h2
    rw [List.map_cons]
    unfold ClockLink.run
    rw [step_swap h1]
    exact k

end InitTime
end Pcie
