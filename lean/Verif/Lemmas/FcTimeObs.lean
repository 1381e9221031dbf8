import Verif.Lemmas.FcTime
/-
Credits come back: the argument, on the part of the state that matters.
-/
namespace Pcie
open Spec
namespace FcTime

/-- A DLLP that is not an UpdateFC, or a TLP. -/
def NotUpd (p : Pkt) : Prop := ∀ d, p = .dllp d → ∀ ty, d.type ≠ updType ty

/-- What one event changes. `T1` is the latency of the update timer, `init` the credits that `b` advertised; `fi` tells that both ports are initialised. -/
inductive Tr (cfg : ClockCfg) (init : Credit → Nat) (fi : Prop) (o o' : Obs) : Prop
  | quiet (h1 : o'.now = o.now) (h2 : o'.wl = o.wl) (h3 : o'.ser.getD o.now = o.ser.getD o.now) (h4 : o'.sf = o.sf) (h5 : o'.nx = o.nx) (h6 : o'.rel = o.rel)
      (h7 : o'.phi + o.used ≤ o.phi + o'.used) (h8 : o.used ≤ o'.used) (h9 : o'.fcAt = o.fcAt) (h10 : o'.lim = o.lim)
  | release (x : FcType) (h1 : o'.now = o.now) (h2 : o'.wl = o.wl) (h3 : o'.ser = o.ser) (h4 : o'.sf = o.sf) (h5 : o'.nx = fun y => if x = y then 0 else o.nx y)
      (h6 : ∀ w, o.rel w ≤ o'.rel w) (h7 : o'.phi = o.phi) (h8 : o'.used = o.used + 1) (h9 : o'.fcAt = some (o.fcAt.getD (o.now + max cfg.latency 1))) (h10 : o'.lim = o.lim)
  | fire (h1 : o'.now = o.now) (h2 : o'.wl = o.wl) (h3 : o'.ser = o.ser) (h4 : o'.sf = true) (h5 : o'.nx = o.nx) (h6 : o'.rel = o.rel)
      (h7 : o'.phi = o.phi) (h8 : o'.used = o.used) (h9 : o'.fcAt = o.fcAt ∨ (o'.fcAt = none ∧ o.fcAt = some o.now)) (h10 : o'.lim = o.lim)
  | ack (d : Dllp) (hd : NotUpd (.dllp d)) (h0 : o.ser = none) (h1 : o'.now = o.now) (h2 : o'.wl = o.wl ++ [(.dllp d, o.now + cfg.dur (.dllp d) + cfg.delay)])
      (h3 : o'.ser = some (o.now + cfg.dur (.dllp d))) (h4 : o'.sf = o.sf) (h5 : o'.nx = o.nx) (h6 : o'.rel = o.rel)
      (h7 : o'.phi + 1 = o.phi) (h8 : o'.used = o.used) (h9 : o'.fcAt = o.fcAt) (h10 : o'.lim = o.lim)
  | upd (x : FcType) (d : Dllp) (hs : o.sf = true) (hx : o.nx x ≤ o.now) (hr : ∀ y, rank y < rank x → o.now < o.nx y) (hd : d.type = updType x)
      (hf : ∀ b, init (x, b) ≠ 0 → fld (x, b) d = (init (x, b) + o.rel (x, b)) % 2 ^ bitsOf (x, b)) (h0 : o.ser = none) (h1 : o'.now = o.now)
      (h2 : o'.wl = o.wl ++ [(.dllp d, o.now + cfg.dur (.dllp d) + cfg.delay)])
      (h3 : o'.ser = some (o.now + cfg.dur (.dllp d))) (h4 : o'.sf = o.sf) (h5 : o'.nx = fun y => if y = x then o.now + cfg.steps else o.nx y) (h6 : o'.rel = o.rel)
      (h7 : o'.phi = o.phi) (h8 : o'.used = o.used) (h9 : o'.fcAt = o.fcAt) (h10 : o'.lim = o.lim)
  | other (p : Option Pkt) (hp : ∀ q, p = some q → NotUpd q) (hn : fi → o.sf = true → ∀ y, o.now < o.nx y) (h0 : o.ser = none) (h1 : o'.now = o.now)
      (h2 : o'.wl = o.wl ++ (p.map fun q => (q, o.now + cfg.dur q + cfg.delay)).toList) (h3 : o'.ser = p.map fun q => o.now + cfg.dur q)
      (h4 : o'.sf = o.sf ∨ (o'.sf = false ∧ ∀ y, o.now < o.nx y)) (h5 : o'.nx = o.nx) (h6 : o'.rel = o.rel)
      (h7 : o'.phi = o.phi) (h8 : o'.used = o.used) (h9 : o'.fcAt = o.fcAt) (h10 : o'.lim = o.lim)
  | recv (p : Pkt) (h1 : o'.now = o.now) (h2 : o.wl = (p, o.now) :: o'.wl) (h3 : o'.ser = o.ser) (h4 : o'.sf = o.sf) (h5 : o'.nx = o.nx) (h6 : o'.rel = o.rel)
      (h7 : o'.phi = o.phi) (h8 : o'.used = o.used) (h9 : o'.fcAt = o.fcAt)
      (h10 : fi → ∀ w, o'.lim w = match p with | .dllp d => if d.type = updType w.1 then fld w d else o.lim w | .tlp _ => o.lim w)
  | adv (ht : o.now ≤ o'.now) (hr : o.now < o'.now → o.ser = none → o.sf = false) (hw : ∀ e ∈ o.wl, o'.now ≤ e.2) (hser : ∀ s, o.ser = some s → o'.now ≤ s)
      (hfc : ∀ s, o.fcAt = some s → o'.now ≤ s) (h2 : o'.wl = o.wl) (h3 : o'.ser = o.ser) (h4 : o'.sf = o.sf) (h5 : o'.nx = o.nx) (h6 : o'.rel = o.rel)
      (h7 : o'.phi = o.phi) (h8 : o'.used = o.used) (h9 : o'.fcAt = o.fcAt) (h10 : o'.lim = o.lim)

theorem Tr.used_le {cfg : ClockCfg} {init : Credit → Nat} {fi : Prop} {o o' : Obs} (h : Tr cfg init fi o o') : o.used ≤ o'.used := by
  cases h <;> omega

theorem Tr.now_le {cfg : ClockCfg} {init : Credit → Nat} {fi : Prop} {o o' : Obs} (h : Tr cfg init fi o o') : o.now ≤ o'.now := by
  cases h <;> omega

/-- What holds at all times: an update that is due has been asked for. -/
structure Base (cfg : ClockCfg) (o : Obs) : Prop where
  due : ∀ x, o.nx x = 0 → o.sf = true ∨ o.fcAt.isSome = true ∨ ∀ b, o.rel (x, b) = 0
  timer : ∀ s, o.fcAt = some s → o.now ≤ s ∧ s ≤ o.now + max cfg.latency 1
  phi : o.phi ≤ 2

theorem Base.step {cfg : ClockCfg} {init : Credit → Nat} {fi : Prop} {o o' : Obs} (h : Base cfg o) (ht : Tr cfg init fi o o') (hs : 0 < cfg.steps) (hp : o'.phi ≤ 2) :
    Base cfg o' := by
  cases ht with
  | quiet h1 h2 h3 h4 h5 h6 h7 h8 h9 h10 => exact ⟨by rw [h4, h5, h6, h9]; exact h.due, by rw [h1, h9]; exact h.timer, hp⟩
  | release x h1 h2 h3 h4 h5 h6 h7 h8 h9 h10 =>
    refine ⟨fun y _ => .inr (.inl (by rw [h9]; rfl)), ?_, hp⟩
    rw [h1, h9]
    intro s hs
    cases hf : o.fcAt with
    | none => rw [hf] at hs; simp at hs; omega
    | some s' => rw [hf] at hs; simp at hs; subst hs; exact h.timer _ hf
  | fire h1 h2 h3 h4 h5 h6 h7 h8 h9 h10 =>
    refine ⟨fun y _ => .inl h4, ?_, hp⟩
    rcases h9 with h9 | ⟨h9, _⟩
    · rw [h1, h9]; exact h.timer
    · rw [h9]; nofun
  | ack d hd h0 h1 h2 h3 h4 h5 h6 h7 h8 h9 h10 => exact ⟨by rw [h4, h5, h6, h9]; exact h.due, by rw [h1, h9]; exact h.timer, hp⟩
  | upd x d hs' hx hr hd hf h0 h1 h2 h3 h4 h5 h6 h7 h8 h9 h10 =>
    exact ⟨fun _ _ => .inl (by rw [h4]; exact hs'), by rw [h1, h9]; exact h.timer, hp⟩
  | other p hp' hn h0 h1 h2 h3 h4 h5 h6 h7 h8 h9 h10 =>
    refine ⟨?_, by rw [h1, h9]; exact h.timer, hp⟩
    rcases h4 with h4 | ⟨h4, h4'⟩
    · rw [h4, h5, h6, h9]; exact h.due
    · rw [h5]; intro x hx; have := h4' x; omega
  | recv p h1 h2 h3 h4 h5 h6 h7 h8 h9 h10 => exact ⟨by rw [h4, h5, h6, h9]; exact h.due, by rw [h1, h9]; exact h.timer, hp⟩
  | adv ht hr hw hser hfc h2 h3 h4 h5 h6 h7 h8 h9 h10 =>
    refine ⟨by rw [h4, h5, h6, h9]; exact h.due, ?_, hp⟩
    rw [h9]
    intro s hs
    have h1 := hfc s hs
    have h2 := h.timer s hs
    omega

/-- The number of updates that may go before the one for `ty` until time `B`. -/
def psi (nx : FcType → Nat) (B : Nat) : FcType → Nat
  | .P => 0
  | .NP => if nx .P ≤ B then 1 else 0
  | .CPL => (if nx .P ≤ B then 1 else 0) + (if nx .NP ≤ B then 1 else 0)

theorem psi_le (nx : FcType → Nat) (B : Nat) (ty : FcType) : psi nx B ty ≤ 2 := by
  cases ty <;> simp only [psi] <;> (repeat' split) <;> omega

theorem psi_release (nx : FcType → Nat) (B : Nat) (ty x : FcType) : psi (fun y => if x = y then 0 else nx y) B ty ≤ psi nx B ty + 1 := by
  cases ty <;> cases x <;> simp [psi] <;> (repeat' split) <;> omega

theorem psi_send (nx : FcType → Nat) (B now steps : Nat) (ty x : FcType) (hx : nx x ≤ now) (hn : now ≤ B) (hs : B < now + steps) (hr : rank x < rank ty) :
    psi (fun y => if y = x then now + steps else nx y) B ty + 1 = psi nx B ty := by
  cases ty <;> cases x <;> first | exact absurd hr (by decide) | skip
  all_goals
    simp only [psi, reduceCtorEq, if_true, if_false]
    simp only [if_neg (show ¬ (now + steps ≤ B) by omega), if_pos (show _ ≤ B from Nat.le_trans hx hn)]
    try ((repeat' split) <;> omega)

section
variable (cfg : ClockCfg) (init : Credit → Nat) (w : Credit) (R : Nat)

/-- A value that stands for at least `R` credits. -/
def Good (hi v : Nat) : Prop := ∃ X, v = X % 2 ^ bitsOf w ∧ R ≤ X ∧ X ≤ hi

variable {w R} in
theorem Good.mono {hi hi' v : Nat} (h : Good w R hi v) (hh : hi ≤ hi') : Good w R hi' v := by
  obtain ⟨X, h1, h2, h3⟩ := h
  exact ⟨X, h1, h2, Nat.le_trans h3 hh⟩

/-- An UpdateFC for `w` with such a value, or another packet. -/
def GoodPkt (hi : Nat) (e : Pkt × Nat) : Prop := ∀ d, e.1 = .dllp d → d.type = updType w.1 → Good w R hi (fld w d)

/-- On the way of `R` credits to the sender, having been released before `t1`: they wait for the timer or for the transmitter, are on the wire, or have arrived. `D` bounds
the time that a packet takes on the wire, `d` that of a DLLP; `u` is `used` at `t1`, `B` the time by which everything has to be over. -/
inductive Way (t1 D d u B : Nat) (o : Obs) : Prop
  | timer (h0 : o.nx w.1 = 0) (h1 : o.sf = false) (s : Nat) (h2 : o.fcAt = some s) (h3 : s ≤ t1 + max cfg.latency 1)
  | wait (h0 : o.nx w.1 = 0) (h1 : o.sf = true) (h2 : o.ser.getD o.now + (o.phi + psi o.nx B w.1) * d ≤ t1 + max cfg.latency 1 + D + (o.used - u + 4) * d)
  | wire (pre post : List (Pkt × Nat)) (e : Dllp) (t : Nat) (h0 : o.wl = pre ++ (.dllp e, t) :: post) (h1 : e.type = updType w.1)
      (h2 : Good w R (init w + o.rel w) (fld w e)) (h3 : ∀ x ∈ post, GoodPkt w R (init w + o.rel w) x)
      (h4 : t ≤ t1 + max cfg.latency 1 + D + (o.used - u + 5) * d + cfg.delay)
  | done (h0 : Good w R (init w + o.rel w) (o.lim w)) (h1 : ∀ x ∈ o.wl, GoodPkt w R (init w + o.rel w) x)

end

/-- What holds from `t1` on. -/
structure Back (cfg : ClockCfg) (init : Credit → Nat) (w : Credit) (R t1 D d u B : Nat) (o : Obs) : Prop where
  base : Base cfg o
  since : t1 ≤ o.now
  hi : R ≤ init w + o.rel w
  us : u ≤ o.used
  ser : ∀ s, o.ser = some s → o.now ≤ s ∧ s ≤ o.now + D
  way : Way cfg init w R t1 D d u B o

theorem mul_mono {a b d : Nat} (h : a ≤ b) : a * d ≤ b * d := Nat.mul_le_mul_right d h

theorem Back.step {cfg : ClockCfg} {init : Credit → Nat} {w : Credit} {R t1 D d u B : Nat} {o o' : Obs} (h : Back cfg init w R t1 D d u B o) (ht : Tr cfg init True o o')
    (hi : init w ≠ 0) (hp : o'.phi ≤ 2) (hdur : ∀ x, cfg.dur (.dllp x) ≤ d) (hser : ∀ s, o'.ser = some s → o'.now ≤ s ∧ s ≤ o'.now + D)
    (hB : t1 + max cfg.latency 1 + D + (o.used - u + 4) * d ≤ B) (hst : B < t1 + cfg.steps) (hs : 0 < cfg.steps) : Back cfg init w R t1 D d u B o' := by
  have hbase := h.base.step ht hs hp
  have hnow := ht.now_le
  have hus := ht.used_le
  have hu := h.us
  have h1 := h.since
  refine ⟨hbase, by omega, ?_, by omega, hser, ?_⟩
  · cases ht with
    | release x _ _ _ _ _ h6 => have := h.hi; have := h6 w; omega
    | quiet _ _ _ _ _ h6 => rw [h6]; exact h.hi
    | fire _ _ _ _ _ h6 => rw [h6]; exact h.hi
    | ack _ _ _ _ _ _ _ _ h6 => rw [h6]; exact h.hi
    | upd _ _ _ _ _ _ _ _ _ _ _ _ _ h6 => rw [h6]; exact h.hi
    | other _ _ _ _ _ _ _ _ _ h6 => rw [h6]; exact h.hi
    | recv _ _ _ _ _ _ h6 => rw [h6]; exact h.hi
    | adv _ _ _ _ _ _ _ _ _ h6 => rw [h6]; exact h.hi
  · have hrel : o.rel w ≤ o'.rel w := by
      cases ht with
      | release x _ _ _ _ _ h6 => exact h6 w
      | quiet _ _ _ _ _ h6 => rw [h6]
      | fire _ _ _ _ _ h6 => rw [h6]
      | ack _ _ _ _ _ _ _ _ h6 => rw [h6]
      | upd _ _ _ _ _ _ _ _ _ _ _ _ _ h6 => rw [h6]
      | other _ _ _ _ _ _ _ _ _ h6 => rw [h6]
      | recv _ _ _ _ _ _ h6 => rw [h6]
      | adv _ _ _ _ _ _ _ _ _ h6 => rw [h6]
    have gm : ∀ {x}, GoodPkt w R (init w + o.rel w) x → GoodPkt w R (init w + o'.rel w) x := fun hx e he hy => (hx e he hy).mono (by omega)
    have hmul : (o.used - u + 5) * d ≤ (o'.used - u + 5) * d := mul_mono (by omega)
    have notupd : ∀ {p : Pkt} {t : Nat} {hi : Nat}, NotUpd p → GoodPkt w R hi (p, t) := fun hp e he hy => absurd hy (hp e he w.1)
    -- an update sent now is good
    have newupd : ∀ {x : FcType} {e : Dllp} {t : Nat}, e.type = updType x → (∀ b, init (x, b) ≠ 0 → fld (x, b) e = (init (x, b) + o.rel (x, b)) % 2 ^ bitsOf (x, b)) →
        GoodPkt w R (init w + o'.rel w) (.dllp e, t) := by
      intro x e t hx hf e' he hy
      cases he
      have : x = w.1 := updType_inj.mp (hx.symm.trans hy)
      subst this
      exact ⟨_, hf w.2 hi, h.hi, by show init w + o.rel w ≤ _; omega⟩
    cases h.way with
    | done g0 g1 =>
      cases ht with
      | quiet h1 h2 h3 h4 h5 h6 h7 h8 h9 h10 => exact .done (by rw [h10]; exact g0.mono (by omega)) (by rw [h2]; exact fun x hx => gm (g1 x hx))
      | release x h1 h2 h3 h4 h5 h6 h7 h8 h9 h10 => exact .done (by rw [h10]; exact g0.mono (by omega)) (by rw [h2]; exact fun x hx => gm (g1 x hx))
      | fire h1 h2 h3 h4 h5 h6 h7 h8 h9 h10 => exact .done (by rw [h10]; exact g0.mono (by omega)) (by rw [h2]; exact fun x hx => gm (g1 x hx))
      | ack e hd h0 h1 h2 h3 h4 h5 h6 h7 h8 h9 h10 =>
        refine .done (by rw [h10]; exact g0.mono (by omega)) ?_
        rw [h2]; intro x hx
        rcases List.mem_append.mp hx with hx | hx
        · exact gm (g1 x hx)
        · rw [List.mem_singleton] at hx; subst hx; exact notupd hd
      | upd x e hs' hx hr hd hf h0 h1 h2 h3 h4 h5 h6 h7 h8 h9 h10 =>
        refine .done (by rw [h10]; exact g0.mono (by omega)) ?_
        rw [h2]; intro y hy
        rcases List.mem_append.mp hy with hy | hy
        · exact gm (g1 y hy)
        · rw [List.mem_singleton] at hy; subst hy; exact newupd hd hf
      | other p hp' hn h0 h1 h2 h3 h4 h5 h6 h7 h8 h9 h10 =>
        refine .done (by rw [h10]; exact g0.mono (by omega)) ?_
        rw [h2]; intro y hy
        rcases List.mem_append.mp hy with hy | hy
        · exact gm (g1 y hy)
        · rw [Option.mem_toList, Option.map_eq_some_iff] at hy
          obtain ⟨q, hq, rfl⟩ := hy
          exact notupd (hp' q hq)
      | recv p h1 h2 h3 h4 h5 h6 h7 h8 h9 h10 =>
        rw [h2] at g1
        refine .done ?_ (fun x hx => gm (g1 x (List.mem_cons_of_mem _ hx)))
        rw [h10 trivial]
        cases p with
        | tlp t => exact g0.mono (by omega)
        | dllp e =>
          simp only
          split
          · next he => exact gm (g1 _ (List.mem_cons_self ..)) e rfl he
          · exact g0.mono (by omega)
      | adv ht hr hw hser hfc h2 h3 h4 h5 h6 h7 h8 h9 h10 => exact .done (by rw [h10]; exact g0.mono (by omega)) (by rw [h2]; exact fun x hx => gm (g1 x hx))
    | wire pre post e t g0 g1 g2 g3 g4 =>
      have g2' : Good w R (init w + o'.rel w) (fld w e) := g2.mono (by omega)
      have g4' : t ≤ t1 + max cfg.latency 1 + D + (o'.used - u + 5) * d + cfg.delay := by omega
      cases ht with
      | quiet h1 h2 h3 h4 h5 h6 h7 h8 h9 h10 => exact .wire pre post e t (by rw [h2, g0]) g1 g2' (fun x hx => gm (g3 x hx)) g4'
      | release x h1 h2 h3 h4 h5 h6 h7 h8 h9 h10 => exact .wire pre post e t (by rw [h2, g0]) g1 g2' (fun x hx => gm (g3 x hx)) g4'
      | fire h1 h2 h3 h4 h5 h6 h7 h8 h9 h10 => exact .wire pre post e t (by rw [h2, g0]) g1 g2' (fun x hx => gm (g3 x hx)) g4'
      | ack e' hd h0 h1 h2 h3 h4 h5 h6 h7 h8 h9 h10 =>
        refine .wire pre _ e t (by rw [h2, g0, List.append_assoc, List.cons_append]) g1 g2' ?_ g4'
        intro x hx
        rcases List.mem_append.mp hx with hx | hx
        · exact gm (g3 x hx)
        · rw [List.mem_singleton] at hx; subst hx; exact notupd hd
      | upd x e' hs' hx hr hd hf h0 h1 h2 h3 h4 h5 h6 h7 h8 h9 h10 =>
        refine .wire pre _ e t (by rw [h2, g0, List.append_assoc, List.cons_append]) g1 g2' ?_ g4'
        intro y hy
        rcases List.mem_append.mp hy with hy | hy
        · exact gm (g3 y hy)
        · rw [List.mem_singleton] at hy; subst hy; exact newupd hd hf
      | other p hp' hn h0 h1 h2 h3 h4 h5 h6 h7 h8 h9 h10 =>
        refine .wire pre _ e t (by rw [h2, g0, List.append_assoc, List.cons_append]) g1 g2' ?_ g4'
        intro y hy
        rcases List.mem_append.mp hy with hy | hy
        · exact gm (g3 y hy)
        · rw [Option.mem_toList, Option.map_eq_some_iff] at hy
          obtain ⟨q, hq, rfl⟩ := hy
          exact notupd (hp' q hq)
      | recv p h1 h2 h3 h4 h5 h6 h7 h8 h9 h10 =>
        cases pre with
        | nil =>
          rw [g0] at h2
          simp only [List.nil_append, List.cons.injEq] at h2
          obtain ⟨h2a, h2b⟩ := h2
          obtain ⟨h2c, h2d⟩ := Prod.mk.inj h2a
          subst h2c
          refine .done ?_ (by rw [← h2b]; exact fun x hx => gm (g3 x hx))
          rw [h10 trivial]
          simp only
          rw [if_pos g1]
          exact g2'
        | cons y pre =>
          rw [g0] at h2
          simp only [List.cons_append, List.cons.injEq] at h2
          exact .wire pre post e t h2.2.symm g1 g2' (fun x hx => gm (g3 x hx)) g4'
      | adv ht hr hw hser hfc h2 h3 h4 h5 h6 h7 h8 h9 h10 => exact .wire pre post e t (by rw [h2, g0]) g1 g2' (fun x hx => gm (g3 x hx)) g4'
    | timer g0 g1 s g2 g3 =>
      cases ht with
      | quiet h1 h2 h3 h4 h5 h6 h7 h8 h9 h10 => exact .timer (by rw [h5]; exact g0) (by rw [h4]; exact g1) s (by rw [h9]; exact g2) g3
      | release x h1 h2 h3 h4 h5 h6 h7 h8 h9 h10 =>
        refine .timer (by rw [h5]; simp only; split; rfl; exact g0) (by rw [h4]; exact g1) s (by rw [h9, g2]; rfl) g3
      | fire h1 h2 h3 h4 h5 h6 h7 h8 h9 h10 =>
        refine .wait (by rw [h5]; exact g0) h4 ?_
        have e1 := (h.base.timer s g2).1
        have e2 : o'.ser.getD o'.now ≤ o'.now + D := by
          cases hs' : o'.ser with
          | none => simp
          | some v => exact (hser v hs').2
        have e3 := psi_le o'.nx B w.1
        have e4 : (o'.phi + psi o'.nx B w.1) * d ≤ (o'.used - u + 4) * d := mul_mono (by omega)
        omega
      | ack e' hd h0 h1 h2 h3 h4 h5 h6 h7 h8 h9 h10 => exact .timer (by rw [h5]; exact g0) (by rw [h4]; exact g1) s (by rw [h9]; exact g2) g3
      | upd x e' hs' hx hr hd hf h0 h1 h2 h3 h4 h5 h6 h7 h8 h9 h10 => rw [g1] at hs'; cases hs'
      | other p hp' hn h0 h1 h2 h3 h4 h5 h6 h7 h8 h9 h10 =>
        refine .timer (by rw [h5]; exact g0) ?_ s (by rw [h9]; exact g2) g3
        rcases h4 with h4 | h4
        · rw [h4]; exact g1
        · exact h4.1
      | recv p h1 h2 h3 h4 h5 h6 h7 h8 h9 h10 => exact .timer (by rw [h5]; exact g0) (by rw [h4]; exact g1) s (by rw [h9]; exact g2) g3
      | adv ht hr hw hser hfc h2 h3 h4 h5 h6 h7 h8 h9 h10 => exact .timer (by rw [h5]; exact g0) (by rw [h4]; exact g1) s (by rw [h9]; exact g2) g3
    | wait g0 g1 g2 =>
      cases ht with
      | quiet h1 h2 h3 h4 h5 h6 h7 h8 h9 h10 =>
        refine .wait (by rw [h5]; exact g0) (by rw [h4]; exact g1) ?_
        rw [h1, h3, h5]
        have e1 : (o'.phi + psi o.nx B w.1) * d + (o.used - u + 4) * d ≤ (o.phi + psi o.nx B w.1) * d + (o'.used - u + 4) * d := by
          rw [← Nat.add_mul, ← Nat.add_mul]; exact mul_mono (by omega)
        omega
      | release x h1 h2 h3 h4 h5 h6 h7 h8 h9 h10 =>
        refine .wait (by rw [h5]; simp only; split; rfl; exact g0) (by rw [h4]; exact g1) ?_
        rw [h1, h3, h5, h7, h8]
        have e0 := psi_release o.nx B w.1 x
        have e1 : (o.phi + psi (fun y => if x = y then 0 else o.nx y) B w.1) * d + (o.used - u + 4) * d ≤ (o.phi + psi o.nx B w.1) * d + (o.used + 1 - u + 4) * d := by
          rw [← Nat.add_mul, ← Nat.add_mul]; exact mul_mono (by omega)
        omega
      | fire h1 h2 h3 h4 h5 h6 h7 h8 h9 h10 =>
        exact .wait (by rw [h5]; exact g0) h4 (by rw [h1, h3, h5, h7, h8]; exact g2)
      | ack e' hd h0 h1 h2 h3 h4 h5 h6 h7 h8 h9 h10 =>
        refine .wait (by rw [h5]; exact g0) (by rw [h4]; exact g1) ?_
        rw [h3, h5, h8]
        rw [h0] at g2
        have e0 := hdur e'
        have e1 : (o.phi + psi o.nx B w.1) * d = (o'.phi + psi o.nx B w.1) * d + d := by
          rw [← h7, show o'.phi + 1 + psi o.nx B w.1 = (o'.phi + psi o.nx B w.1) + 1 by omega, Nat.add_mul, Nat.one_mul]
        simp only [Option.getD_some, Option.getD_none] at g2 ⊢
        omega
      | upd x e' hs' hx hr hd hf h0 h1 h2 h3 h4 h5 h6 h7 h8 h9 h10 =>
        rw [h0] at g2
        simp only [Option.getD_none] at g2
        have e0 := hdur e'
        by_cases hxw : x = w.1
        · subst hxw
          refine .wire o.wl [] e' _ h2 hd (newupd (t := 0) hd hf e' rfl hd) nofun ?_
          rw [h8]
          have e1 : (o.used - u + 5) * d = (o.used - u + 4) * d + d := by
            rw [show o.used - u + 5 = (o.used - u + 4) + 1 by omega, Nat.add_mul, Nat.one_mul]
          omega
        · have hrk : rank x < rank w.1 := by
            have h9 : ¬ rank w.1 < rank x := fun hh => by have := hr w.1 hh; omega
            have h10 : rank x ≠ rank w.1 := by
              intro hh; apply hxw
              revert hh
              generalize w.1 = y
              cases x <;> cases y <;> simp [rank]
            omega
          have hnB : o.now ≤ B := by omega
          have e1 := psi_send o.nx B o.now cfg.steps w.1 x hx hnB (by omega) hrk
          refine .wait ?_ (by rw [h4]; exact g1) ?_
          · rw [h5]; simp only; rw [if_neg (fun hh => hxw hh.symm)]; exact g0
          · rw [h3, h5, h7, h8]
            simp only [Option.getD_some]
            have e2 : (o.phi + psi o.nx B w.1) * d = (o.phi + psi (fun y => if y = x then o.now + cfg.steps else o.nx y) B w.1) * d + d := by
              rw [← e1, ← Nat.add_assoc, Nat.add_mul _ 1, Nat.one_mul]
            omega
      | other p hp' hn h0 h1 h2 h3 h4 h5 h6 h7 h8 h9 h10 =>
        have := hn trivial g1 w.1
        omega
      | recv p h1 h2 h3 h4 h5 h6 h7 h8 h9 h10 => exact .wait (by rw [h5]; exact g0) (by rw [h4]; exact g1) (by rw [h1, h3, h5, h7, h8]; exact g2)
      | adv ht hr hw hser hfc h2 h3 h4 h5 h6 h7 h8 h9 h10 =>
        refine .wait (by rw [h5]; exact g0) (by rw [h4]; exact g1) ?_
        rw [h3, h5, h7, h8]
        cases hs' : o.ser with
        | some v => rw [hs'] at g2; exact g2
        | none =>
          have : ¬ o.now < o'.now := fun hh => by have := hr hh hs'; rw [g1] at this; cases this
          have : o'.now = o.now := by omega
          rw [hs'] at g2; rw [this]; exact g2

end FcTime
end Pcie
