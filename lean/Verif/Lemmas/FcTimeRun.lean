import Verif.Lemmas.FcTimeStep
import Verif.Spec.FcTime
/-
Histories of a clocked link, and the credits of the receiver on their way to the sender.
-/
namespace Pcie
open Spec
namespace FcTime

/-- An event of the clocked link is one of the timed link. -/
theorem stepA_timed {cfg : ClockCfg} {c : ClockLink} {e : ClockAct} {r : Py ClockLink} (hs : c.stepA cfg e = some r) :
    ∃ e', c.l.stepA cfg.dur cfg.delay cfg.steps e' = some (r.map ClockLink.l) := by
  cases e with
  | idle =>
    simp only [ClockLink.stepA] at hs
    split at hs
    · cases hs; exact ⟨.act .fcTimeout, rfl⟩
    · cases hs
  | timed e =>
    have gen : ∀ e' (f : TimedLink → ClockLink), (∀ l, (f l).l = l) → ((c.l.stepA cfg.dur cfg.delay cfg.steps e').map fun r => match r with
        | .ok l => Except.ok (f l)
        | .error e => .error e) = some r → ∃ e', c.l.stepA cfg.dur cfg.delay cfg.steps e' = some (r.map ClockLink.l) := by
      intro e' f hf h
      rw [Option.map_eq_some_iff] at h
      obtain ⟨x, h1, h2⟩ := h
      refine ⟨e', ?_⟩
      rw [h1, ← h2]
      cases x with
      | error _ => rfl
      | ok l => show _ = some (Except.ok (f l).l); rw [hf]
    cases e with
    | act e =>
      cases e with
      | send t => exact gen _ (fun l => { c with l := l }) (fun _ => rfl) hs
      | release token => cases hs; exact ⟨.act (.release token), rfl⟩
      | ackTimeout =>
        simp only [ClockLink.stepA] at hs
        split at hs
        · cases hs; exact ⟨.act .ackTimeout, rfl⟩
        · cases hs
      | fcTimeout =>
        simp only [ClockLink.stepA] at hs
        split at hs
        · cases hs; exact ⟨.act .fcTimeout, rfl⟩
        · cases hs
      | take => exact gen (.act .take) (fun l => { c with l := l }) (fun _ => rfl) hs
      | transmit n => exact gen (.act (.transmit n)) (fun l => { c with l := l }) (fun _ => rfl) hs
      | recv => exact gen (.act .recv) (fun l => { c with l := l }) (fun _ => rfl) hs
    | transmit => exact gen _ (fun l => { c with l := l }) (fun _ => rfl) hs
    | pass => exact gen _ (fun l => { c with l := l }) (fun _ => rfl) hs
    | arrive i => exact gen _ (fun l => { c with l := l, tb := c.tb.ack cfg c.l.now c.l.b l.b }) (fun _ => rfl) hs

theorem step_timed {cfg : ClockCfg} {c : ClockLink} {e : ClockEv} {r : Py ClockLink} (hs : c.step cfg e = some r) :
    ∃ e', c.l.step cfg.dur cfg.delay cfg.steps e' = some (r.map ClockLink.l) := by
  cases e with
  | port b e =>
    cases b with
    | true => obtain ⟨e', h⟩ := stepA_timed hs; exact ⟨.port true e', h⟩
    | false =>
      simp only [ClockLink.step, Option.map_eq_some_iff] at hs
      obtain ⟨x, h1, h2⟩ := hs
      obtain ⟨e', h⟩ := stepA_timed h1
      refine ⟨.port false e', ?_⟩
      simp only [TimedLink.step]
      rw [show c.l.swap = c.swap.l from rfl, h, ← h2]
      cases x <;> rfl
  | advance t =>
    simp only [ClockLink.step] at hs
    split at hs
    · next h => cases hs; exact ⟨.advance t, by simp only [TimedLink.step]; rw [if_pos ⟨h.1, h.2.1, h.2.2.1⟩]; rfl⟩
    · cases hs

/-- Seen from the other end. -/
theorem step_swap {cfg : ClockCfg} {c c1 : ClockLink} {e : ClockEv} (h1 : c.step cfg e = some (.ok c1)) : c.swap.step cfg e.swap = some (.ok c1.swap) := by
  cases e with
  | port b e =>
    cases b with
    | true =>
      show (c.swap.swap.stepA cfg e).map _ = _
      rw [show c.swap.swap = c from rfl, show c.stepA cfg e = _ from h1]; rfl
    | false =>
      simp only [ClockLink.step, Option.map_eq_some_iff] at h1
      obtain ⟨r, hr, h1⟩ := h1
      cases r with
      | error x => cases h1
      | ok c2 => cases h1; exact hr
  | advance t =>
    simp only [ClockLink.step] at h1
    split at h1
    · next hc =>
      cases h1
      obtain ⟨g1, g2, g3, g4, g5, g6⟩ := hc
      simp only [ClockEv.swap, ClockLink.step]
      rw [if_pos ⟨g1, g3, g2, g5, g4, fun h => ⟨(g6 h).2, (g6 h).1⟩⟩]; rfl
    · cases h1

/-- The wire from `b` keeps its history. -/
theorem timed_sent {dur : Pkt → Nat} {delay steps : Nat} {l l' : TimedLink} {e : TimedEv} (hs : l.step dur delay steps e = some (.ok l')) :
    l.now ≤ l'.now ∧ (∀ x ∈ l.ba.sent, x ∈ l'.ba.sent) ∧ ∀ x ∈ l'.ba.sent, x ∈ l.ba.sent ∨ x.2 = l.now := by
  have same : ∀ {l'' : TimedLink}, l''.now = l.now → l''.ba.sent = l.ba.sent →
      l.now ≤ l''.now ∧ (∀ x ∈ l.ba.sent, x ∈ l''.ba.sent) ∧ ∀ x ∈ l''.ba.sent, x ∈ l.ba.sent ∨ x.2 = l.now :=
    fun h1 h2 => ⟨by omega, by rw [h2]; exact fun _ h => h, by rw [h2]; exact fun _ h => .inl h⟩
  cases e with
  | advance t =>
    simp only [TimedLink.step] at hs
    split at hs
    · next h => cases hs; exact ⟨h.1, fun _ h => h, fun _ h => .inl h⟩
    · cases hs
  | port b e =>
    cases b with
    | true =>
      simp only [TimedLink.step] at hs
      cases e with
      | act e =>
        cases e with
        | send t =>
          simp only [TimedLink.stepA] at hs
          split at hs <;> (cases hs; exact same rfl rfl)
        | release token => cases hs; exact same rfl rfl
        | ackTimeout => cases hs; exact same rfl rfl
        | fcTimeout => cases hs; exact same rfl rfl
        | take => cases hs; exact same rfl rfl
        | transmit n => cases hs
        | recv => cases hs
      | transmit =>
        simp only [TimedLink.stepA] at hs
        split at hs
        · cases hs
        · split at hs
          · cases hs; exact same rfl rfl
          · rw [Option.map_eq_some_iff] at hs
            obtain ⟨w, hw, hs⟩ := hs
            cases hs; exact same rfl rfl
      | pass =>
        simp only [TimedLink.stepA, Option.map_eq_some_iff] at hs
        obtain ⟨w, hw, hs⟩ := hs
        cases hs; exact same rfl rfl
      | arrive i =>
        simp only [TimedLink.stepA, Option.map_eq_some_iff] at hs
        obtain ⟨⟨p, w⟩, hw, hs⟩ := hs
        cases hb : l.b.recv p with
        | error x => simp only [hb] at hs; cases hs
        | ok q => simp only [hb] at hs; cases hs; exact same rfl rfl
    | false =>
      simp only [TimedLink.step, Option.map_eq_some_iff] at hs
      obtain ⟨r, hr, hs⟩ := hs
      cases r with
      | error x => cases hs
      | ok l2 =>
        cases hs
        cases e with
        | act e =>
          cases e with
          | send t =>
            simp only [TimedLink.stepA] at hr
            split at hr <;> (cases hr; exact same rfl rfl)
          | release token => cases hr; exact same rfl rfl
          | ackTimeout => cases hr; exact same rfl rfl
          | fcTimeout => cases hr; exact same rfl rfl
          | take => cases hr; exact same rfl rfl
          | transmit n => cases hr
          | recv => cases hr
        | transmit =>
          simp only [TimedLink.stepA] at hr
          split at hr
          · cases hr
          · split at hr
            · cases hr; exact same rfl rfl
            · rw [Option.map_eq_some_iff] at hr
              obtain ⟨w, hw, hr⟩ := hr
              cases hr
              have e1 := (wl_start (delay := delay) hw).2.2.2
              refine ⟨Nat.le_refl _, fun x hx => ?_, fun x hx => ?_⟩
              · show x ∈ w.sent
                rw [e1]; exact List.mem_append_left _ hx
              · have hx : x ∈ w.sent := hx
                rw [e1] at hx
                rcases List.mem_append.mp hx with hx | hx
                · exact .inl hx
                · rw [List.mem_singleton] at hx; subst hx; exact .inr rfl
        | pass =>
          simp only [TimedLink.stepA, Option.map_eq_some_iff] at hr
          obtain ⟨w, hw, hr⟩ := hr
          cases hr; exact same rfl (wl_pass hw).2.2.2
        | arrive i =>
          simp only [TimedLink.stepA, Option.map_eq_some_iff] at hr
          obtain ⟨⟨p, w⟩, hw, hr⟩ := hr
          cases hb : l.swap.b.recv p with
          | error x => simp only [hb] at hr; cases hr
          | ok q =>
            simp only [hb] at hr
            cases hr
            refine same rfl ?_
            show w.sent = l.ba.sent
            unfold Wire.arrive at hw
            split at hw
            · split at hw
              · cases hw; rfl
              · cases hw
            · cases hw

/-- What holds at all times. -/
structure All (cfg : ClockCfg) (c : ClockLink) : Prop where
  ok : Ok cfg c
  dict : c.l.b.fc.dict.length ≤ c.l.b.delivered.length
  base : Base cfg (obs cfg c)
  past : ∀ e ∈ c.l.ba.sent, e.2 ≤ c.l.now

/-- What the links before and after an event have in common. -/
structure Next (cfg : ClockCfg) (c c' : ClockLink) : Prop where
  all : All cfg c'
  tr : Tr cfg c.l.b.adv (Ready c) (obs cfg c) (obs cfg c')
  adv : c'.l.b.adv = c.l.b.adv
  ready : Ready c → Ready c'
  sent : ∀ e ∈ c.l.ba.sent, e ∈ c'.l.ba.sent

theorem All.step {cfg : ClockCfg} {c c' : ClockLink} {e : ClockEv} (hdur : ∀ p, 0 < cfg.dur p) (hdel : 0 < cfg.delay) (hst : 0 < cfg.steps)
    (h : All cfg c) (hs : c.step cfg e = some (.ok c')) : Next cfg c c' := by
  obtain ⟨tr, hd⟩ := step_tr h.ok h.dict hs
  obtain ⟨e', he⟩ := step_timed hs
  obtain ⟨⟨es, h1, -⟩, h2⟩ := TimedLink.step_ok hdur hdel h.ok.t he
  have h1 : Link.run cfg.steps (untimed c.l) es = .ok (untimed c'.l) := h1
  obtain ⟨f1, f2, f3⟩ := h.ok.l.run_flags h1
  obtain ⟨s1, s2, s3⟩ := timed_sent he
  refine ⟨⟨⟨h2 _ rfl, f3⟩, hd, h.base.step tr hst (phi_le _), ?_⟩, tr, (Link.run_adv h1).2, fun hr => ⟨f1.fi2 hr.1, f2.fi2 hr.2⟩, s2⟩
  intro x hx
  rcases s3 x hx with hx | hx
  · have := h.past x hx; omega
  · omega

theorem All.fresh {cfg : ClockCfg} {c : ClockLink} (h : FreshClock c) : All cfg c := by
  obtain ⟨⟨h1, h2, h3⟩, h4, h5, h6, h7, h8, h9⟩ := h
  obtain ⟨k1, k2, k3, ⟨a, b, c', d, e, f, fc, hfc, hp⟩⟩ := h3
  have hp : c.l.b = { fc := fc } := hp
  obtain ⟨iv, n1, n2, n3, n4, n5, n6⟩ := FcCh.new_ok hfc
  refine ⟨⟨?_, LinkInv.init ⟨k1, k2, k3, ⟨a, b, c', d, e, f, fc, hfc, hp⟩⟩⟩, ?_, ⟨?_, ?_, phi_le _⟩, ?_⟩
  · rw [TimedLink.Inv, h1, h2]; exact ⟨Wire.inv_init _ _ _, Wire.inv_init _ _ _⟩
  · rw [hp]; simp [n5]
  · intro x hx
    refine .inr (.inr fun b => ?_)
    simp [obs, rel, hp, units]
  · intro s hs
    rw [show (obs cfg c).fcAt = c.tb.fcAt from rfl, h7] at hs
    cases hs
  · rw [h2]; nofun

theorem run_cons {cfg : ClockCfg} {c c' : ClockLink} {e : ClockEv} {es : List ClockEv} (h : c.run cfg (e :: es) = some (.ok c')) :
    ∃ c1, c.step cfg e = some (.ok c1) ∧ c1.run cfg es = some (.ok c') := by
  unfold ClockLink.run at h
  split at h
  · cases h
  · cases h
  · next c1 h1 => exact ⟨c1, h1, h⟩

theorem All.run {cfg : ClockCfg} (hdur : ∀ p, 0 < cfg.dur p) (hdel : 0 < cfg.delay) (hst : 0 < cfg.steps) : ∀ (es : List ClockEv) {c c' : ClockLink},
    All cfg c → c.run cfg es = some (.ok c') →
    All cfg c' ∧ c'.l.b.adv = c.l.b.adv ∧ (Ready c → Ready c') ∧ (∀ e ∈ c.l.ba.sent, e ∈ c'.l.ba.sent) ∧ used c.l.b ≤ used c'.l.b
  | [], c, c', h, hr => by cases hr; exact ⟨h, rfl, id, fun _ h => h, Nat.le_refl _⟩
  | e :: es, c, c', h, hr => by
    obtain ⟨c1, h1, h2⟩ := run_cons hr
    have hn := h.step hdur hdel hst h1
    obtain ⟨g1, g2, g3, g4, g5⟩ := All.run hdur hdel hst es hn.all h2
    exact ⟨g1, g2.trans hn.adv, fun hr => g3 (hn.ready hr), fun x hx => g4 x (hn.sent x hx), Nat.le_trans hn.tr.used_le g5⟩

/-- The time that a packet still takes on the wire. -/
theorem All.ser {cfg : ClockCfg} {c : ClockLink} {D : Nat} (h : All cfg c) (hD : ∀ e ∈ c.l.ba.sent, cfg.dur e.1 ≤ D) :
    ∀ s, (obs cfg c).ser = some s → c.l.now ≤ s ∧ s ≤ c.l.now + D := by
  intro s hs
  have hs : c.l.ba.ser.map (·.2) = some s := hs
  rw [Option.map_eq_some_iff] at hs
  obtain ⟨⟨p, t⟩, h1, rfl⟩ := hs
  refine ⟨(h.ok.t.2.ser p t h1).1, ?_⟩
  have hh := h.ok.t.2.hist
  rw [h1] at hh
  have hm : (p, t + cfg.delay) ∈ c.l.ba.sent.map (fun e => (e.1, e.2 + cfg.dur e.1 + cfg.delay)) := by rw [hh]; simp
  rw [List.mem_map] at hm
  obtain ⟨⟨q, s'⟩, hm1, hm2⟩ := hm
  have hp := h.past _ hm1
  have hd := hD _ hm1
  have := (Prod.mk.inj hm2).2
  simp only at this hp hd
  omega

/-! ### The way of the credits -/

theorem chain_last {f : Nat → Nat} {ex : Prop} {lo hi v : Nat} {vs : List Nat} (h : Chain f ex lo (vs ++ [v]) hi) (he : ex) : v = f hi := by
  induction vs generalizing lo with
  | nil => obtain ⟨V, h1, h2, h3⟩ := h; rw [h1, h3.2 he]
  | cons x vs ih => obtain ⟨V, h1, h2, h3⟩ := h; exact ih h3

theorem chain_mem {f : Nat → Nat} {ex : Prop} {lo hi v : Nat} {vs : List Nat} (h : Chain f ex lo vs hi) (hv : v ∈ vs) : ∃ V, v = f V ∧ lo ≤ V ∧ V ≤ hi := by
  induction vs generalizing lo with
  | nil => cases hv
  | cons x vs ih =>
    obtain ⟨V, h1, h2, h3⟩ := h
    rcases List.mem_cons.mp hv with rfl | hv
    · exact ⟨V, h1, h2, h3.le⟩
    · obtain ⟨U, g1, g2, g3⟩ := ih h3 hv
      exact ⟨U, g1, by omega, g3⟩

/-- Is there an update for `w` in a list of packets? The last one, if so. -/
theorem last_upd (w : Credit) : ∀ l : List (Pkt × Nat), (∀ x ∈ l, ∀ d, x.1 = .dllp d → d.type ≠ updType w.1) ∨
    ∃ pre post e t, l = pre ++ (.dllp e, t) :: post ∧ e.type = updType w.1 ∧ ∀ x ∈ post, ∀ d, x.1 = .dllp d → d.type ≠ updType w.1
  | [] => .inl nofun
  | x :: l => by
    rcases last_upd w l with h | ⟨pre, post, e, t, h1, h2, h3⟩
    · by_cases hx : ∃ d, x.1 = .dllp d ∧ d.type = updType w.1
      · obtain ⟨d, h1, h2⟩ := hx
        exact .inr ⟨[], l, d, x.2, by rw [← h1]; rfl, h2, h⟩
      · refine .inl fun y hy => ?_
        rcases List.mem_cons.mp hy with rfl | hy
        · exact fun d h1 h2 => hx ⟨d, h1, h2⟩
        · exact h y hy
    · exact .inr ⟨x :: pre, post, e, t, by rw [h1]; rfl, h2, h3⟩

theorem upds_none {w : Credit} : ∀ {l : List (Pkt × Nat)}, (∀ x ∈ l, ∀ d, x.1 = .dllp d → d.type ≠ updType w.1) → upds w (dllps (l.map (·.1))) = []
  | [], _ => rfl
  | x :: l, h => by
    have ih := upds_none (w := w) (l := l) (fun y hy => h y (List.mem_cons_of_mem _ hy))
    obtain ⟨p, t⟩ := x
    cases p with
    | tlp _ => rw [List.map_cons, dllps_tlp]; exact ih
    | dllp d => rw [List.map_cons, dllps_dllp, upds_cons_ne (h _ (List.mem_cons_self ..) d rfl)]; exact ih

theorem mem_upds {w : Credit} {l : List (Pkt × Nat)} {x : Pkt × Nat} {d : Dllp} (hx : x ∈ l) (hd : x.1 = .dllp d) (ht : d.type = updType w.1) :
    fld w d ∈ upds w (dllps (l.map (·.1))) := by
  unfold upds dllps
  refine List.mem_map_of_mem (List.mem_filter.mpr ⟨List.mem_filterMap.mpr ⟨.dllp d, ?_, rfl⟩, by simp [ht]⟩)
  rw [← hd]; exact List.mem_map_of_mem hx

theorem wl_pkts (cfg : ClockCfg) (c : ClockLink) : (obs cfg c).wl.map (·.1) = (untimed c.l).ba := by
  simp only [obs, wl, untimed, List.map_append]
  cases c.l.ba.ser <;> rfl

/-- Wherever the credits are, they are on their way. -/
theorem Back.start {cfg : ClockCfg} {c : ClockLink} (h : All cfg c) (hr : Ready c) {w : Credit} (hi : c.l.b.adv w ≠ 0) {D : Nat} (d B : Nat)
    (hD : ∀ e ∈ c.l.ba.sent, cfg.dur e.1 ≤ D) :
    Back cfg c.l.b.adv w (c.l.b.adv w + rel c.l.b w) c.l.now D d (used c.l.b) B (obs cfg c) := by
  have hser := h.ser hD
  refine ⟨h.base, Nat.le_refl _, Nat.le_refl _, Nat.le_refl _, hser, ?_⟩
  have hw := h.ok.l.da.fc w
  have hcap := h.ok.l.da.fi1c (h.ok.l.da.fi21 hr.1) w.1
  obtain ⟨L, g1, g2, g3, g4⟩ := hw.ch hi
  have g1 : (obs cfg c).lim w = L % 2 ^ bitsOf w := g1 hcap
  have g4 : Chain (· % 2 ^ bitsOf w) (nextUpdate c.l.b.fc w.1 ≠ 0) L (upds w (dllps (untimed c.l).ba)) (c.l.b.adv w + rel c.l.b w) := g4
  rw [← wl_pkts cfg c] at g4
  have g3 : c.l.b.adv w ≤ L := g3
  by_cases hn : nextUpdate c.l.b.fc w.1 = 0
  · by_cases hsf : c.l.b.sendFc = true
    · refine .wait hn hsf ?_
      have e2 : (obs cfg c).ser.getD (obs cfg c).now ≤ c.l.now + D := by
        cases hs' : (obs cfg c).ser with
        | none => exact Nat.le_add_right _ _
        | some v => exact (hser v hs').2
      have e3 := psi_le (obs cfg c).nx B w.1
      have e5 : (obs cfg c).phi ≤ 2 := phi_le _
      have e4 : ((obs cfg c).phi + psi (obs cfg c).nx B w.1) * d ≤ ((obs cfg c).used - used c.l.b + 4) * d := mul_mono (by omega)
      omega
    · rcases h.base.due w.1 hn with h1 | h1 | h1
      · exact absurd h1 hsf
      · obtain ⟨s, hs⟩ := Option.isSome_iff_exists.mp h1
        exact .timer hn (Bool.eq_false_iff.mpr hsf) s hs (h.base.timer s hs).2
      · have h1 : rel c.l.b w = 0 := h1 w.2
        have hle := g4.le
        refine .done ⟨L, g1, by omega, by show L ≤ c.l.b.adv w + rel c.l.b w; omega⟩ ?_
        intro x hx e he ht
        obtain ⟨V, v1, v2, v3⟩ := chain_mem g4 (mem_upds hx he ht)
        exact ⟨V, v1, by omega, v3⟩
  · rcases last_upd w (obs cfg c).wl with h1 | ⟨pre, post, e, t, h1, h2, h3⟩
    · rw [upds_none h1] at g4
      refine .done ⟨L, g1, Nat.le_of_eq (g4.2 hn).symm, g4.1⟩ ?_
      exact fun x hx e he ht => absurd ht (h1 x hx e he)
    · refine .wire pre post e t h1 h2 ?_ (fun x hx e he ht => absurd ht (h3 x hx e he)) ?_
      · rw [h1, List.map_append, List.map_cons, dllps_append, dllps_dllp, upds_append, upds_cons_eq h2, upds_none h3] at g4
        have k := chain_last g4 hn
        exact ⟨c.l.b.adv w + rel c.l.b w, k, Nat.le_refl _, Nat.le_refl _⟩
      · have hm : (.dllp e, t) ∈ (obs cfg c).wl := by rw [h1]; simp
        have : t ≤ c.l.now + D + cfg.delay := by
          rcases List.mem_append.mp hm with hm | hm
          · have := (h.ok.t.2.later _ hm).2; simp only at this; omega
          · rw [Option.mem_toList, Option.map_eq_some_iff] at hm
            obtain ⟨⟨q, t'⟩, k1, k2⟩ := hm
            have := (hser t' (by show c.l.ba.ser.map (·.2) = _; rw [k1]; rfl)).2
            have := (Prod.mk.inj k2).2
            simp only at this
            omega
        show t ≤ c.l.now + _ + _ + _ + _
        omega

theorem Back.run {cfg : ClockCfg} {w : Credit} {R t1 D d u B : Nat} (hdur : ∀ p, 0 < cfg.dur p) (hdel : 0 < cfg.delay) (hst : 0 < cfg.steps) (hd : ∀ x, cfg.dur (.dllp x) ≤ d) :
    ∀ (es : List ClockEv) {c c' : ClockLink}, All cfg c → Ready c → c.l.b.adv w ≠ 0 → Back cfg c.l.b.adv w R t1 D d u B (obs cfg c) → c.run cfg es = some (.ok c') →
    (∀ e ∈ c'.l.ba.sent, cfg.dur e.1 ≤ D) → t1 + max cfg.latency 1 + D + (used c'.l.b - u + 4) * d ≤ B → B < t1 + cfg.steps →
    Back cfg c.l.b.adv w R t1 D d u B (obs cfg c')
  | [], c, c', _, _, _, hb, hr, _, _, _ => by cases hr; exact hb
  | e :: es, c, c', h, hrd, hi, hb, hr, hD, hB, hlt => by
    obtain ⟨c1, h1, h2⟩ := run_cons hr
    have hn := h.step hdur hdel hst h1
    obtain ⟨_, _, _, g4, g5⟩ := All.run hdur hdel hst es hn.all h2
    have hser := hn.all.ser (fun e he => hD e (g4 e he))
    have hus : used c.l.b ≤ used c'.l.b := Nat.le_trans hn.tr.used_le g5
    have tr : Tr cfg c.l.b.adv True (obs cfg c) (obs cfg c1) := by
      have := hn.tr
      rwa [show Ready c = True from propext ⟨fun _ => trivial, fun _ => hrd⟩] at this
    have hb1 := hb.step tr hi (phi_le _) hd hser (Nat.le_trans (Nat.add_le_add_left (mul_mono (show used c.l.b - u + 4 ≤ used c'.l.b - u + 4 by omega)) _) hB) hlt hst
    rw [← hn.adv] at hb1 hi ⊢
    exact Back.run hdur hdel hst hd es hn.all (hn.ready hrd) hi hb1 h2 hD hB hlt

/-- When the time is over the credits have arrived. -/
theorem Back.over {cfg : ClockCfg} {c : ClockLink} {w : Credit} {R t1 D d u B : Nat} (h : All cfg c) (hrd : Ready c) (hi : c.l.b.adv w ≠ 0)
    (hb : Back cfg c.l.b.adv w R t1 D d u B (obs cfg c)) (ht : t1 + max cfg.latency 1 + D + (used c.l.b - u + 5) * d + cfg.delay < c.l.now) :
    R ≤ units w c.l.a.accepted + (counters c.l.a.fc w).txAvail := by
  have hmul : (used c.l.b - u + 4) * d ≤ (used c.l.b - u + 5) * d := mul_mono (by omega)
  have hw := h.ok.l.da.fc w
  have hdu := h.ok.l.da.del_units w
  have hcap := h.ok.l.da.fi1c (h.ok.l.da.fi21 hrd.1) w.1
  obtain ⟨L, l1, l2, l3, l4⟩ := hw.avail hi hcap (by omega)
  have hti : (counters c.l.a.fc w).txInfinite = false := by
    unfold FcState.txInfinite
    have e : (counters c.l.a.fc w).txInit = c.l.b.adv w := hw.cp hcap
    rw [e]; simpa using hi
  have hav : (counters c.l.a.fc w).txAvail = FcState.subMask (counters c.l.a.fc w).bits (counters c.l.a.fc w).txLimit (counters c.l.a.fc w).txConsumed := by
    unfold FcState.txAvail; rw [hti]; rfl
  have l1 : units w c.l.a.accepted + (counters c.l.a.fc w).txAvail = L := by rw [hav]; exact l1
  cases hb.way with
  | timer h0 h1 s h2 h3 =>
    have := (h.base.timer s h2).1
    have : c.l.now ≤ s := this
    omega
  | wait h0 h1 h2 =>
    have : c.l.now ≤ (obs cfg c).ser.getD (obs cfg c).now := by
      cases hs : (obs cfg c).ser with
      | none => exact Nat.le_refl _
      | some s => exact (hb.ser s hs).1
    have h2 : _ ≤ t1 + max cfg.latency 1 + D + (used c.l.b - u + 4) * d := h2
    omega
  | wire pre post e t h0 h1 h2 h3 h4 =>
    have := wl_ge h.ok.t.2 (.dllp e, t) (by show _ ∈ (obs cfg c).wl; rw [h0]; simp)
    have h4 : t ≤ t1 + max cfg.latency 1 + D + (used c.l.b - u + 5) * d + cfg.delay := h4
    simp only at this
    omega
  | done h0 h1 =>
    obtain ⟨X, x1, x2, x3⟩ := h0
    rw [l1]
    have hri : c.l.b.adv w < 2 ^ (bitsOf w - 1) := hw.ri
    have hbb : 2 ^ (bitsOf w - 1) ≤ 2 ^ bitsOf w := Nat.pow_le_pow_right (by decide) (Nat.sub_le _ _)
    have l2 : (counters c.l.a.fc w).txLimit = L % 2 ^ bitsOf w := l2
    have x1 : (counters c.l.a.fc w).txLimit = X % 2 ^ bitsOf w := x1
    have x3 : X ≤ c.l.b.adv w + (units w c.l.b.delivered - held w c.l.b.fc.dict) := x3
    have hdu : units w c.l.a.accepted = units w c.l.b.delivered + _ + _ := hdu
    rcases Nat.lt_or_ge L X with hlt | hge
    · exfalso
      have e1 : X % 2 ^ bitsOf w = L % 2 ^ bitsOf w := by rw [← x1, l2]
      have e2 : (X - L) % 2 ^ bitsOf w = 0 := Nat.sub_mod_eq_zero_of_mod_eq e1
      rw [Nat.mod_eq_of_lt (by omega)] at e2
      omega
    · omega

end FcTime
end Pcie
