import Verif.Lemmas.AckTimeStep
/-
Histories of a clocked link: every TLP is acknowledged in time, so that there are never too many.
-/
namespace Pcie
open Spec
namespace AckTime
open FcTime

theorem Ok.swap {cfg : ClockCfg} {c : ClockLink} (h : Ok cfg c) : Ok cfg c.swap := ⟨h.t.swap, h.l.swap⟩

/-- What holds at all times, in both directions. -/
structure Both (cfg : ClockCfg) (D d : Nat) (c : ClockLink) : Prop where
  ok : Ok cfg c
  ia : AInv cfg D d (aobs cfg c)
  ib : AInv cfg D d (aobs cfg c.swap)
  ya : Sync c.l.b c.tb
  yb : Sync c.l.a c.ta
  past : ∀ e ∈ c.l.ab.sent ++ c.l.ba.sent, e.2 ≤ c.l.now

theorem Both.swap {cfg : ClockCfg} {D d : Nat} {c : ClockLink} (h : Both cfg D d c) : Both cfg D d c.swap :=
  ⟨Ok.swap h.ok, h.ib, h.ia, h.yb, h.ya, fun e he => h.past e (by
    rcases List.mem_append.mp he with he | he
    · exact List.mem_append_right _ he
    · exact List.mem_append_left _ he)⟩

theorem Sizes.swap {cfg : ClockCfg} {D m : Nat} {c : ClockLink} (h : Sizes cfg D m c) : Sizes cfg D m c.swap := fun e he => h e (by
  rcases List.mem_append.mp he with he | he
  · exact List.mem_append_right _ he
  · exact List.mem_append_left _ he)

/-! ### How many TLPs are on their way -/

def isTlp (e : Pkt × Nat) : Bool := match e.1 with
  | .tlp _ => true
  | .dllp _ => false

theorem isTlp_iff {e : Pkt × Nat} : isTlp e = true ↔ ∃ t, e.1 = .tlp t := by
  unfold isTlp
  cases e.1 with
  | tlp t => simp
  | dllp d => simp

theorem tlpTimes_eq (l : List (Pkt × Nat)) : tlpTimes l = (l.filter isTlp).map (·.2) := by
  induction l with
  | nil => rfl
  | cons e l ih =>
    obtain ⟨p, t⟩ := e
    cases p with
    | tlp x =>
      show t :: tlpTimes l = _
      rw [List.filter_cons_of_pos (by rfl), List.map_cons, ih]
    | dllp x =>
      show tlpTimes l = _
      rw [List.filter_cons_of_neg (by simp [isTlp]), ih]

theorem tlps_eq (l : List (Pkt × Nat)) : (tlps (l.map (·.1))).length = (l.filter isTlp).length := by
  induction l with
  | nil => rfl
  | cons e l ih =>
    obtain ⟨p, t⟩ := e
    cases p with
    | tlp x => rw [List.filter_cons_of_pos (by rfl), List.map_cons, tlps_tlp, List.length_cons, List.length_cons, ih]
    | dllp x => rw [List.filter_cons_of_neg (by simp [isTlp]), List.map_cons, tlps_dllp, ih]

theorem wl_pkts (delay : Nat) (w : Wire Pkt) : (wl delay w).map (·.1) = w.fly.map (·.1) ++ (w.ser.map (·.1)).toList := by
  unfold wl
  rw [List.map_append]
  congr 1
  cases w.ser <;> rfl

theorem gap {m : Nat} {l : List Nat} (h : l.Pairwise (fun x y => x + m ≤ y)) (k : Nat) : ∀ (n : Nat) (hn : k + n < l.length), l[k] + m * n ≤ l[k + n]
  | 0, hn => by simp
  | n + 1, hn => by
    have ih := gap h k n (by omega)
    have hp := List.pairwise_iff_getElem.mp h (k + n) (k + (n + 1)) (by omega) hn (by omega)
    have e : m * (n + 1) = m * n + m := Nat.mul_succ _ _
    omega

/-- The sender has sent `n` TLPs, and those that are not acknowledged have been sent recently. -/
theorem Both.info {cfg : ClockCfg} {D d m : Nat} {c : ClockLink} (h : Both cfg D d c) (hz : Sizes cfg D m c) :
    acked c.l.a ≤ (tlpTimes c.l.ab.sent).length ∧ c.l.a.retry.length = (tlpTimes c.l.ab.sent).length - acked c.l.a ∧
      ∀ j t, (tlpTimes c.l.ab.sent)[j]? = some t → acked c.l.a ≤ j → c.l.now ≤ t + roundTrip cfg D d := by
  obtain ⟨S, i, k, hq⟩ := h.ok.l.da.seq
  have hil := hq.il
  have hki := hq.ch.le
  have hrt : c.l.a.retry = (numbered S).drop k := hq.rt
  have hacc : c.l.a.accepted = S ++ c.l.a.txq := hq.acc
  have hrl : c.l.a.retry.length = S.length - k := by rw [hrt, List.length_drop, numbered_length]
  have hak : acked c.l.a = k := by
    unfold acked
    rw [hacc, hrl, List.length_append]; omega
  have hdel : c.l.b.delivered.length = i := by
    have h2 := hq.de
    simp only [Port.rxv] at h2
    rw [show c.l.b.delivered = _ from h2, List.length_map, List.length_take, numbered_length]; omega
  have hcnt : (tlpTimes c.l.ab.got).length = i := by rw [show (tlpTimes c.l.ab.got).length = _ from h.ia.cnt]; exact hdel
  -- the TLPs sent, received and on the wire
  have hist := congrArg (List.filter isTlp) h.ok.t.1.hist
  rw [List.append_assoc] at hist
  have hist : (c.l.ab.sent.map fun e => (e.1, e.2 + cfg.dur e.1 + cfg.delay)).filter isTlp = (c.l.ab.got ++ wl cfg.delay c.l.ab).filter isTlp := hist
  rw [List.filter_append, List.filter_map, show (isTlp ∘ fun e : Pkt × Nat => (e.1, e.2 + cfg.dur e.1 + cfg.delay)) = isTlp from rfl] at hist
  have hgl : (c.l.ab.got.filter isTlp).length = i := by
    rw [tlpTimes_eq, List.length_map] at hcnt; exact hcnt
  have hwl : ((wl cfg.delay c.l.ab).filter isTlp).length = S.length - i := by
    rw [← tlps_eq, wl_pkts]
    have hf := hq.fl
    rw [show tlps (c.l.ab.fly.map (·.1) ++ (c.l.ab.ser.map (·.1)).toList) = _ from hf, List.length_drop, numbered_length]
  have hn : (c.l.ab.sent.filter isTlp).length = S.length := by
    have := congrArg List.length hist
    rw [List.length_map, List.length_append, hgl, hwl] at this
    omega
  have hlt : (tlpTimes c.l.ab.sent).length = S.length := by rw [tlpTimes_eq, List.length_map, hn]
  refine ⟨by omega, by omega, fun j t hj hkj => ?_⟩
  have hjl : j < S.length := by
    have := (List.getElem?_eq_some_iff.mp hj).1; omega
  rw [tlpTimes_eq, List.getElem?_map, List.getElem?_eq_getElem (by omega), Option.map_some] at hj
  injection hj with hj
  have hmem : (c.l.ab.sent.filter isTlp)[j]'(by omega) ∈ c.l.ab.sent ++ c.l.ba.sent :=
    List.mem_append_left _ (List.mem_of_mem_filter (List.getElem_mem (by omega)))
  have hD := (hz _ hmem).1
  have hx := congrArg (·[j]?) hist
  simp only [List.getElem?_map] at hx
  rw [List.getElem?_eq_getElem (by omega), Option.map_some] at hx
  unfold roundTrip
  rcases Nat.lt_or_ge j i with hlt | hge
  · rw [List.getElem?_append_left (by omega)] at hx
    refine Nat.le_of_not_lt fun hover => ?_
    have hj' : (aobs cfg c).got[j]? = some (((c.l.ab.sent.filter isTlp)[j]'(by omega)).2 + cfg.dur ((c.l.ab.sent.filter isTlp)[j]'(by omega)).1 + cfg.delay) := by
      show (tlpTimes c.l.ab.got)[j]? = _
      rw [tlpTimes_eq, List.getElem?_map, ← hx]; rfl
    have := h.ia.over (wl_ge h.ok.t.2) hj' (by show _ < c.l.now; omega)
    have : j < acked c.l.a := this
    omega
  · rw [List.getElem?_append_right (by omega)] at hx
    have hm := List.mem_of_mem_filter (List.mem_of_getElem? hx.symm)
    have := wl_ge h.ok.t.1 _ hm
    simp only at this
    omega

theorem tlpTimes_mem {l : List (Pkt × Nat)} {t : Nat} (h : t ∈ tlpTimes l) : ∃ p, (p, t) ∈ l := by
  rw [tlpTimes_eq, List.mem_map] at h
  obtain ⟨⟨p, t'⟩, h1, rfl⟩ := h
  exact ⟨p, List.mem_of_mem_filter h1⟩

/-- TLPs are sent at times at least `m` apart. -/
theorem Both.bound {cfg : ClockCfg} {D d m : Nat} {c : ClockLink} (h : Both cfg D d c) (hz : Sizes cfg D m c) (hm : 0 < m) :
    c.l.a.retry.length ≤ roundTrip cfg D d / m + 1 := by
  obtain ⟨h1, h2, h3⟩ := h.info hz
  rcases Nat.lt_or_ge (acked c.l.a) (tlpTimes c.l.ab.sent).length with hk | hk
  swap
  · exact Nat.le_trans (by omega : _ ≤ 0) (Nat.zero_le _)
  generalize hn : (tlpTimes c.l.ab.sent).length = n at *
  have hfirst := h3 _ _ (List.getElem?_eq_getElem (by omega)) (Nat.le_refl _)
  have hlast : (tlpTimes c.l.ab.sent)[acked c.l.a + (n - 1 - acked c.l.a)]'(by omega) ≤ c.l.now := by
    obtain ⟨p, hp⟩ := tlpTimes_mem (List.getElem_mem (l := tlpTimes c.l.ab.sent) (n := acked c.l.a + (n - 1 - acked c.l.a)) (by omega))
    exact h.past _ (List.mem_append_left _ hp)
  have hpw : (tlpTimes c.l.ab.sent).Pairwise (fun x y => x + m ≤ y) := by
    rw [tlpTimes_eq, List.pairwise_map]
    have hp := h.ok.t.1.serial.filter isTlp
    refine List.Pairwise.imp_of_mem ?_ hp
    intro x y hx hy hxy
    obtain ⟨hx1, hx2⟩ := List.mem_filter.mp hx
    obtain ⟨t, ht⟩ := isTlp_iff.mp hx2
    have := (hz x (List.mem_append_left _ hx1)).2 t ht
    omega
  have hg := gap hpw (acked c.l.a) (n - 1 - acked c.l.a) (by omega)
  have : n - 1 - acked c.l.a ≤ roundTrip cfg D d / m := by
    rw [Nat.le_div_iff_mul_le hm, Nat.mul_comm]
    omega
  omega

/-! ### Histories -/

theorem step_sent {cfg : ClockCfg} {c c' : ClockLink} {e : ClockEv} (hs : c.step cfg e = some (.ok c')) :
    c.l.now ≤ c'.l.now ∧ (∀ x ∈ c.l.ab.sent ++ c.l.ba.sent, x ∈ c'.l.ab.sent ++ c'.l.ba.sent) ∧
      ∀ x ∈ c'.l.ab.sent ++ c'.l.ba.sent, x ∈ c.l.ab.sent ++ c.l.ba.sent ∨ x.2 = c.l.now := by
  obtain ⟨e1, h1⟩ := step_timed hs
  obtain ⟨e2, h2⟩ := step_timed (step_swap hs)
  obtain ⟨a1, a2, a3⟩ := timed_sent h1
  obtain ⟨b1, b2, b3⟩ := timed_sent (l := c.l.swap) (l' := c'.l.swap) h2
  refine ⟨a1, fun x hx => ?_, fun x hx => ?_⟩
  · rcases List.mem_append.mp hx with hx | hx
    · exact List.mem_append_left _ (b2 x hx)
    · exact List.mem_append_right _ (a2 x hx)
  · rcases List.mem_append.mp hx with hx | hx
    · exact (b3 x hx).imp_left (List.mem_append_left _)
    · exact (a3 x hx).imp_left (List.mem_append_right _)

theorem run_sent {cfg : ClockCfg} : ∀ (es : List ClockEv) {c c' : ClockLink}, c.run cfg es = some (.ok c') →
    ∀ x ∈ c.l.ab.sent ++ c.l.ba.sent, x ∈ c'.l.ab.sent ++ c'.l.ba.sent
  | [], c, c', h => by cases h; exact fun _ h => h
  | e :: es, c, c', h => by
    obtain ⟨c1, h1, h2⟩ := run_cons h
    exact fun x hx => run_sent es h2 x ((step_sent h1).2.1 x hx)

theorem ser_sent {dur : Pkt → Nat} {delay now : Nat} {w : Wire Pkt} (h : Wire.Inv dur delay now w) {p : Pkt} {s : Nat} (hs : w.ser = some (p, s)) :
    ∃ t, (p, t) ∈ w.sent := by
  have hh := h.hist
  rw [hs] at hh
  have hm : (p, s + delay) ∈ w.sent.map (fun e => (e.1, e.2 + dur e.1 + delay)) := by rw [hh]; simp
  rw [List.mem_map] at hm
  obtain ⟨⟨q, t⟩, hm1, hm2⟩ := hm
  obtain ⟨rfl, -⟩ := Prod.mk.inj hm2
  exact ⟨t, hm1⟩

theorem Both.step {cfg : ClockCfg} {D d m : Nat} {c c' : ClockLink} {e : ClockEv} (hdur : ∀ p, 0 < cfg.dur p) (hdel : 0 < cfg.delay) (h : Both cfg D d c)
    (hz : Sizes cfg D m c) (hd : ∀ e, cfg.dur (.dllp e) ≤ d) (ha : c.l.a.retry.length ≤ 2048) (hb : c.l.b.retry.length ≤ 2048) (hs : c.step cfg e = some (.ok c')) :
    Both cfg D d c' ∧ ∃ fs, Link.run cfg.steps (untimed c.l) fs = .ok (untimed c'.l) ∧ fs.length ≤ 1 := by
  obtain ⟨e', he⟩ := step_timed hs
  obtain ⟨⟨es, h1, h3⟩, h2⟩ := TimedLink.step_ok hdur hdel h.ok.t he
  have h1 : Link.run cfg.steps (untimed c.l) es = .ok (untimed c'.l) := h1
  obtain ⟨l', f1, f2⟩ := h.ok.l.run cfg.steps es
  rw [h1] at f1
  injection f1 with f1
  obtain ⟨s1, s2, s3⟩ := step_sent hs
  obtain ⟨t1, t2⟩ := step_atr h.ok h.ya ha hs
  obtain ⟨t3, t4⟩ := step_atr (Ok.swap h.ok) h.yb hb (step_swap hs)
  refine ⟨⟨⟨h2 _ rfl, by rw [f1]; exact f2⟩, h.ia.step t1 ?_ hd, h.ib.step t3 ?_ hd, t2, t4, fun x hx => ?_⟩, es, h1, h3⟩
  · intro p s hs
    obtain ⟨t, ht⟩ := ser_sent h.ok.t.2 hs
    exact (hz _ (List.mem_append_right _ ht)).1
  · intro p s hs
    obtain ⟨t, ht⟩ := ser_sent h.ok.t.1 hs
    exact (hz _ (List.mem_append_left _ ht)).1
  · rcases s3 x hx with hx | hx
    · have := h.past x hx; omega
    · omega

theorem Both.fresh {cfg : ClockCfg} {D d : Nat} {c : ClockLink} (h : FreshClock c) : Both cfg D d c := by
  have hok := (All.fresh (cfg := cfg) h).ok
  obtain ⟨⟨h1, h2, h3⟩, h4, h5, h6, h7, h8, h9⟩ := h
  obtain ⟨k1, k2, ⟨a', b', c', d', e', f', fc', hfc', hp'⟩, ⟨a, b, c'', d, e, f, fc, hfc, hp⟩⟩ := h3
  have hp : c.l.b = { fc := fc } := hp
  have hp' : c.l.a = { fc := fc' } := hp'
  refine ⟨hok, ⟨?_, ?_, ?_, ?_⟩, ⟨?_, ?_, ?_, ?_⟩, ?_, ?_, ?_⟩
  · intro s hs; rw [show (aobs cfg c).at_ = c.tb.ackAt from rfl, h6] at hs; cases hs
  · intro p s hs; rw [show (aobs cfg c).ser = c.l.ba.ser from rfl, h2] at hs; cases hs
  · show (tlpTimes c.l.ab.got).length = c.l.b.delivered.length; rw [h1, hp]; rfl
  · intro j t hj; rw [show (aobs cfg c).got = tlpTimes c.l.ab.got from rfl, h1] at hj; cases hj
  · intro s hs; rw [show (aobs cfg c.swap).at_ = c.ta.ackAt from rfl, h4] at hs; cases hs
  · intro p s hs; rw [show (aobs cfg c.swap).ser = c.l.ab.ser from rfl, h1] at hs; cases hs
  · show (tlpTimes c.l.ba.got).length = c.l.a.delivered.length; rw [h2, hp']; rfl
  · intro j t hj; rw [show (aobs cfg c.swap).got = tlpTimes c.l.ba.got from rfl, h2] at hj; cases hj
  · unfold Sync; rw [h6, hp]; rfl
  · unfold Sync; rw [h4, hp']; rfl
  · rw [h1, h2]; nofun

/-- A history of the link without time, with at most 2048 TLPs unacknowledged throughout. -/
def BRun (steps : Nat) (l l' : Link) : Prop :=
  ∃ fs, Link.run steps l fs = .ok l' ∧ ∀ n l'', Link.run steps l (fs.take n) = .ok l'' → l''.a.retry.length ≤ 2048 ∧ l''.b.retry.length ≤ 2048

theorem BRun.trans {steps : Nat} {l l1 l2 : Link} (h1 : BRun steps l l1) (h2 : BRun steps l1 l2) : BRun steps l l2 := by
  obtain ⟨fs, f1, f2⟩ := h1
  obtain ⟨gs, g1, g2⟩ := h2
  refine ⟨fs ++ gs, by rw [Link.run_append f1]; exact g1, fun n l'' h => ?_⟩
  rcases Nat.lt_or_ge fs.length n with hn | hn
  · rw [List.take_append, List.take_of_length_le (by omega), Link.run_append f1] at h
    exact g2 _ _ h
  · rw [List.take_append_of_le_length hn] at h
    exact f2 _ _ h

theorem BRun.single {steps : Nat} {l l' : Link} {fs : List (Bool × PortAct)} (h : Link.run steps l fs = .ok l') (hl : fs.length ≤ 1)
    (h1 : l.a.retry.length ≤ 2048 ∧ l.b.retry.length ≤ 2048) (h2 : l'.a.retry.length ≤ 2048 ∧ l'.b.retry.length ≤ 2048) : BRun steps l l' := by
  refine ⟨fs, h, fun n l'' hn => ?_⟩
  cases n with
  | zero => rw [List.take_zero] at hn; cases hn; exact h1
  | succ n =>
    rw [List.take_of_length_le (by omega), h] at hn
    cases hn; exact h2

theorem Both.run {cfg : ClockCfg} {D d m : Nat} (hdur : ∀ p, 0 < cfg.dur p) (hdel : 0 < cfg.delay) (hd : ∀ e, cfg.dur (.dllp e) ≤ d) (hm : 0 < m)
    (hu : roundTrip cfg D d / m + 1 ≤ 2048) : ∀ (es : List ClockEv) {c c' : ClockLink}, Both cfg D d c → c.run cfg es = some (.ok c') → Sizes cfg D m c' →
    Both cfg D d c' ∧ BRun cfg.steps (untimed c.l) (untimed c'.l)
  | [], c, c', h, hr, hz => by
    cases hr
    have b1 := h.bound hz hm
    have b2 := h.swap.bound (Sizes.swap hz) hm
    have b2 : c.l.b.retry.length ≤ _ := b2
    exact ⟨h, [], rfl, fun n l'' hl => by rw [List.take_nil] at hl; cases hl; exact ⟨by show c.l.a.retry.length ≤ _; omega, by show c.l.b.retry.length ≤ _; omega⟩⟩
  | e :: es, c, c', h, hr, hz => by
    obtain ⟨c1, h1, h2⟩ := run_cons hr
    have hz1 : Sizes cfg D m c1 := fun x hx => hz x (run_sent es h2 x hx)
    have hz0 : Sizes cfg D m c := fun x hx => hz x (run_sent (e :: es) hr x hx)
    have b1 := h.bound hz0 hm
    have b2 : c.l.b.retry.length ≤ _ := h.swap.bound (Sizes.swap hz0) hm
    obtain ⟨g1, fs, g2, g3⟩ := h.step hdur hdel hz0 hd (by omega) (by omega) h1
    have b3 := g1.bound hz1 hm
    have b4 : c1.l.b.retry.length ≤ _ := g1.swap.bound (Sizes.swap hz1) hm
    obtain ⟨k1, k2⟩ := Both.run hdur hdel hd hm hu es g1 h2 hz
    refine ⟨k1, BRun.trans (.single g2 g3 ?_ ?_) k2⟩
    · exact ⟨by show c.l.a.retry.length ≤ _; omega, by show c.l.b.retry.length ≤ _; omega⟩
    · exact ⟨by show c1.l.a.retry.length ≤ _; omega, by show c1.l.b.retry.length ≤ _; omega⟩

end AckTime
end Pcie
