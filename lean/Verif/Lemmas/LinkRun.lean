/-
Runs of a link: the invariant, the advertised credits, and how initialisation completes.
-/
import Verif.Lemmas.Link
namespace Pcie
open Spec

theorem LinkInv.run {l : Link} (h : LinkInv False l) (steps : Nat) (es : List (Bool × PortAct)) :
    ∃ l', Link.run steps l es = .ok l' ∧ LinkInv False l' := by
  induction es generalizing l with
  | nil => exact ⟨l, rfl, h⟩
  | cons e es ih =>
    obtain ⟨l1, e1, h1⟩ := h.step (fun b => b.elim) steps e
    obtain ⟨l2, e2, h2⟩ := ih h1
    exact ⟨l2, by unfold Link.run; rw [e1]; exact e2, h2⟩

theorem Spec.Reach.inv {steps : Nat} {l : Link} (h : Reach steps l) : LinkInv False l := by
  obtain ⟨l0, es, h0, e⟩ := h
  obtain ⟨l', e', h'⟩ := (LinkInv.init (bnd := False) h0).run steps es
  rw [e] at e'; injection e' with e'; subst e'; exact h'

theorem LinkInv.runB {l : Link} (h : LinkInv True l) (steps : Nat) (es : List (Bool × PortAct))
    (hb : ∀ n l', Link.run steps l (es.take n) = .ok l' → l'.a.retry.length ≤ 2048 ∧ l'.b.retry.length ≤ 2048) :
    ∃ l', Link.run steps l es = .ok l' ∧ LinkInv True l' ∧ l'.a.retry.length ≤ 2048 ∧ l'.b.retry.length ≤ 2048 := by
  induction es generalizing l with
  | nil => exact ⟨l, rfl, h, hb 0 l rfl⟩
  | cons e es ih =>
    obtain ⟨l1, e1, h1⟩ := h.step (fun _ => hb 0 l rfl) steps e
    obtain ⟨l2, e2, h2⟩ := ih h1 (fun n l' hn => hb (n + 1) l' (by
      rw [List.take_succ_cons]; unfold Link.run; rw [e1]; exact hn))
    exact ⟨l2, by unfold Link.run; rw [e1]; exact e2, h2⟩

theorem Spec.ReachBounded.inv {steps : Nat} {l : Link} (h : ReachBounded steps l) :
    LinkInv True l ∧ l.a.retry.length ≤ 2048 ∧ l.b.retry.length ≤ 2048 := by
  obtain ⟨l0, es, h0, e, hb⟩ := h
  obtain ⟨l', e', h'⟩ := (LinkInv.init (bnd := True) h0).runB steps es hb
  rw [e] at e'; injection e' with e'; subst e'; exact h'

theorem Link.run_append {steps : Nat} {l l1 : Link} {es fs : List (Bool × PortAct)} (h : Link.run steps l es = .ok l1) :
    Link.run steps l (es ++ fs) = Link.run steps l1 fs := by
  induction es generalizing l with
  | nil => injection h with h; rw [h]; rfl
  | cons e es ih =>
    unfold Link.run at h
    rw [List.cons_append]
    conv_lhs => unfold Link.run
    split at h
    · next l2 h2 => exact ih h
    · cases h

theorem Spec.Reach.run {steps : Nat} {l l1 : Link} {es : List (Bool × PortAct)} (h : Reach steps l)
    (e : Link.run steps l es = .ok l1) : Reach steps l1 := by
  obtain ⟨l0, fs, h0, e0⟩ := h
  exact ⟨l0, fs ++ es, h0, by rw [Link.run_append e0]; exact e⟩

theorem Link.swap_swap (l : Link) : l.swap.swap = l := rfl

theorem Link.step_swap (steps : Nat) (l l1 : Link) (e : Bool × PortAct) (h : l.step steps e = .ok l1) :
    l.swap.step steps (!e.1, e.2) = .ok l1.swap := by
  obtain ⟨b, a⟩ := e
  cases b with
  | true =>
    unfold Link.step at h ⊢
    simp only [if_true, Bool.not_true, Bool.false_eq_true, if_false, Link.swap_swap] at h ⊢
    rw [h]
  | false =>
    unfold Link.step at h ⊢
    simp only [Bool.false_eq_true, if_false, Bool.not_false, if_true] at h ⊢
    split at h
    · next l2 h2 => injection h with h; rw [h2, ← h]; rfl
    · cases h

theorem Link.run_swap (steps : Nat) (l l1 : Link) (es : List (Bool × PortAct)) (h : Link.run steps l es = .ok l1) :
    Link.run steps l.swap (es.map fun e => (!e.1, e.2)) = .ok l1.swap := by
  induction es generalizing l with
  | nil => injection h with h; rw [h]; rfl
  | cons e es ih =>
    unfold Link.run at h
    rw [List.map_cons]
    unfold Link.run
    split at h
    · next l2 h2 => rw [Link.step_swap _ _ _ _ h2]; exact ih _ h
    · cases h

theorem Spec.Reach.swap {steps : Nat} {l : Link} (h : Reach steps l) : Reach steps l.swap := by
  obtain ⟨l0, es, ⟨h1, h2, h3, h4⟩, e⟩ := h
  exact ⟨l0.swap, _, ⟨h2, h1, h4, h3⟩, Link.run_swap _ _ _ _ e⟩

/-! ### The advertised credits do not change -/

def Port.adv (p : Port) (w : Credit) : Nat := (counters p.fc w).rxInit

theorem Port.adv_of_rxv {p q : Port} (h : p.fc.rxv = q.fc.rxv) : p.adv = q.adv := by
  funext w
  exact congrArg RxF.init (congrFun (congrArg RxC.rx h) w)

theorem Port.purge_fc {seq n : Nat} {p p' : Port} (h : Port.purge seq n p = .ok p') : p'.fc = p.fc := by
  induction n generalizing p with
  | zero => injection h with h; rw [h]
  | succ n ih =>
    unfold Port.purge at h
    split at h
    · split at h
      · cases h
      · rw [ih h]
    · injection h with h; rw [h]

theorem Port.recv_adv {p p' : Port} {pkt : Pkt} (h : p.recv pkt = .ok p') : p'.adv = p.adv := by
  cases pkt with
  | dllp d =>
    unfold Port.recv Port.handleDllp at h
    simp only at h
    split at h
    · injection h with h; rw [h]
    · split at h
      · split at h
        · injection h with h; rw [h]
        · split at h
          · injection h with h; rw [h]
          · split at h
            · cases h
            · next p2 h2 =>
              split at h
              · cases h
              · injection h with h; subst h
                funext w; unfold Port.adv; rw [Port.purge_fc h2]
      · split at h
        · split at h
          · next fc hf => injection h with h; subst h; exact Port.adv_of_rxv (FcCh.handleFc_rxv hf)
          · cases h
        · cases h
  | tlp t =>
    unfold Port.recv Port.recvTlp at h
    simp only at h
    split at h
    · unfold FcCh.process at h
      split at h
      · cases h
      · next fc tok hp =>
        split at hp
        · cases hp
        · next ty hty =>
          injection hp with hp
          injection hp with hp1 hp2
          subst hp1
          injection h with h; subst h
          funext ⟨a, b⟩
          have := FcCh.counters_rxConsume p.fc ty t.copy.dataCredits (a, b)
          have e : ∀ dd nn, counters { p.fc.rxConsume ty t.copy.dataCredits with dict := dd, nextToken := nn } (a, b) =
            counters (p.fc.rxConsume ty t.copy.dataCredits) (a, b) := by intro dd nn; cases a <;> cases b <;> rfl
          unfold Port.adv
          simp only
          rw [e, this]
          split
          · have := FcState.rxConsume_rx (counters p.fc (a, b)) (if b then t.copy.dataCredits else 1)
            exact congrArg RxF.init this
          · rfl
    · split at h
      · injection h with h; subst h; rfl
      · split at h
        · injection h with h; subst h; rfl
        · injection h with h; subst h; rfl

theorem Port.release_adv (p : Port) (token : Nat) : (p.release token).adv = p.adv := by
  unfold Port.release
  split
  · unfold FcCh.releaseToken
    split
    · next tok ty dc hf =>
      funext ⟨a, b⟩
      unfold Port.adv
      simp only
      rw [FcCh.counters_rxRelease]
      split
      · have := FcState.rxRelease_rx (counters { p.fc with dict := p.fc.dict.erase (tok, ty, dc) } (a, b)) (if b then dc else 1)
        refine (congrArg RxF.init this).trans ?_
        cases a <;> cases b <;> rfl
      · cases a <;> cases b <;> rfl
    · rfl
  · rfl

theorem Port.transmit_adv (p : Port) (now steps : Nat) : (p.transmit now steps).1.adv = p.adv := by
  rcases Port.transmit_cases p now steps with ⟨hs, he⟩ | ⟨fc, d, hf, hu, he⟩ | ⟨hn, he⟩ | ⟨sf, x, rest, hq, he⟩ | ⟨sf, he⟩
  · rw [he]; rfl
  · obtain ⟨ty, u0, u1, u2, u3, u4, u5, u6, u7⟩ := FcCh.update_some hu
    rw [he]; funext w; unfold Port.adv; simp only; rw [u4]
  · rw [he]; rfl
  · rw [he]; rfl
  · rw [he]; rfl

theorem Link.stepA_adv {steps : Nat} {l l1 : Link} {e : PortAct} (h : l.stepA steps e = .ok l1) :
    l1.a.adv = l.a.adv ∧ l1.b.adv = l.b.adv := by
  cases e with
  | send t =>
    unfold Link.stepA at h
    simp only at h
    split at h
    · next p hp =>
      injection h with h; subst h
      refine ⟨?_, rfl⟩
      have := (Port.send_frame hp).1
      exact Port.adv_of_rxv (congrArg RxView.fc this)
    · injection h with h; subst h; exact ⟨rfl, rfl⟩
  | transmit now => injection h with h; subst h; exact ⟨Port.transmit_adv _ _ _, rfl⟩
  | recv =>
    unfold Link.stepA at h
    simp only at h
    split at h
    · injection h with h; subst h; exact ⟨rfl, rfl⟩
    · split at h
      · next p hp => injection h with h; subst h; exact ⟨Port.recv_adv hp, rfl⟩
      · cases h
  | release token => injection h with h; subst h; exact ⟨Port.release_adv _ _, rfl⟩
  | ackTimeout =>
    injection h with h; subst h
    refine ⟨?_, rfl⟩
    simp only; unfold Port.ackTimeout; split <;> rfl
  | fcTimeout => injection h with h; subst h; exact ⟨rfl, rfl⟩
  | take => injection h with h; subst h; exact ⟨rfl, rfl⟩

theorem Link.step_adv {steps : Nat} {l l1 : Link} {e : Bool × PortAct} (h : l.step steps e = .ok l1) :
    l1.a.adv = l.a.adv ∧ l1.b.adv = l.b.adv := by
  unfold Link.step at h
  split at h
  · exact Link.stepA_adv h
  · split at h
    · next l2 h2 =>
      injection h with h; subst h
      obtain ⟨x, y⟩ := Link.stepA_adv h2
      exact ⟨y, x⟩
    · cases h

theorem Link.run_adv {steps : Nat} {l l1 : Link} {es : List (Bool × PortAct)} (h : Link.run steps l es = .ok l1) :
    l1.a.adv = l.a.adv ∧ l1.b.adv = l.b.adv := by
  induction es generalizing l with
  | nil => injection h with h; rw [h]; exact ⟨rfl, rfl⟩
  | cons e es ih =>
    unfold Link.run at h
    split at h
    · next l2 h2 =>
      obtain ⟨a, b⟩ := ih h
      obtain ⟨c, d⟩ := Link.step_adv h2
      exact ⟨a.trans c, b.trans d⟩
    · cases h

/-! ### Initialisation completes -/

/-- `recv` at `b`, `n` times. -/
def drainB (n : Nat) : List (Bool × PortAct) := List.replicate n (false, .recv)

theorem Port.recv_flags {p p' : Port} {pkt : Pkt} (h : p.recv pkt = .ok p') (hc : p.fc.fi2 = true → p.fc.fi1 = true)
    (h1c : p.fc.fi1 = true → ∀ ty, p.fc.cap ty = true) :
    (p.fc.fi1 = true → p'.fc.fi1 = true) ∧ (p.fc.fi2 = true → p'.fc.fi2 = true) ∧
    (∀ ty, p.fc.cap ty = true → p'.fc.cap ty = true) ∧
    (∀ d, pkt = .dllp d → p.fc.fi1 = true → isFi2 d → p'.fc.fi2 = true) ∧
    (∀ d ty, pkt = .dllp d → d.type = init1Type ty ∨ d.type = init2Type ty → p'.fc.cap ty = true) ∧
    ((∀ ty, p'.fc.cap ty = true) → (p.fc.fi1 = true ∨ ¬ ∀ ty, p.fc.cap ty = true) → p'.fc.fi1 = true) := by
  have keep : p'.fc.txv = p.fc.txv → (∀ d, pkt = .dllp d → ∀ ty, d.type ≠ init1Type ty ∧ d.type ≠ init2Type ty ∧ d.type ≠ updType ty) →
    (p.fc.fi1 = true → p'.fc.fi1 = true) ∧ (p.fc.fi2 = true → p'.fc.fi2 = true) ∧
    (∀ ty, p.fc.cap ty = true → p'.fc.cap ty = true) ∧
    (∀ d, pkt = .dllp d → p.fc.fi1 = true → isFi2 d → p'.fc.fi2 = true) ∧
    (∀ d ty, pkt = .dllp d → d.type = init1Type ty ∨ d.type = init2Type ty → p'.fc.cap ty = true) ∧
    ((∀ ty, p'.fc.cap ty = true) → (p.fc.fi1 = true ∨ ¬ ∀ ty, p.fc.cap ty = true) → p'.fc.fi1 = true) := by
    intro ht hn
    have e1 : p'.fc.fi1 = p.fc.fi1 := congrArg TxC.fi1 ht
    have e2 : p'.fc.fi2 = p.fc.fi2 := congrArg TxC.fi2 ht
    have e3 : p'.fc.cap = p.fc.cap := congrArg TxC.cap ht
    rw [e1, e2, e3]
    refine ⟨id, id, fun _ => id, fun d hd _ ⟨ty, hq⟩ => ?_, fun d ty hd hq => ?_, fun x y => ?_⟩
    · rcases hq with hq | hq
      · exact ((hn d hd ty).2.1 hq).elim
      · exact ((hn d hd ty).2.2 hq).elim
    · rcases hq with hq | hq
      · exact ((hn d hd ty).1 hq).elim
      · exact ((hn d hd ty).2.1 hq).elim
    · rcases y with y | y
      · exact y
      · exact (y x).elim
  cases pkt with
  | tlp t =>
    refine keep ?_ (fun d hd => by cases hd)
    unfold Port.recv Port.recvTlp at h
    simp only at h
    split at h
    · unfold FcCh.process at h
      split at h
      · cases h
      · next fc tok hp =>
        split at hp
        · cases hp
        · next ty hty =>
          injection hp with hp
          injection hp with hp1 hp2
          subst hp1
          injection h with h; subst h
          exact FcCh.rxConsume_txv p.fc ty t.copy.dataCredits
    · split at h
      · injection h with h; subst h; rfl
      · split at h
        · injection h with h; subst h; rfl
        · injection h with h; subst h; rfl
  | dllp d =>
    by_cases hfc : ∃ ty, d.type = init1Type ty ∨ d.type = init2Type ty ∨ d.type = updType ty
    · obtain ⟨ty, hty⟩ := hfc
      have hnop : d.type ≠ Dllp.NOP := by rcases hty with q | q | q <;> rw [q] <;> cases ty <;> decide
      have hnak : d.type ≠ Dllp.NAK := by rcases hty with q | q | q <;> rw [q] <;> cases ty <;> decide
      have hack : d.type ≠ Dllp.ACK := by rcases hty with q | q | q <;> rw [q] <;> cases ty <;> decide
      have hmem : d.type ∈ Dllp.fcTypes := by rcases hty with q | q | q <;> rw [q] <;> cases ty <;> decide
      unfold Port.recv Port.handleDllp at h
      simp only at h
      rw [if_neg hnop, if_neg (by rintro (q | q); exacts [hack q, hnak q]), if_pos hmem] at h
      split at h
      · next fc hf =>
        injection h with h; subst h
        simp only
        obtain ⟨m1, m2, m3, m4⟩ := FcCh.handleFc_mono hf hc
        by_cases h1 : p.fc.fi1 = true
        · -- credits already taken over
          have hcap : fc.cap = p.fc.cap := by
            cases h2 : p.fc.fi2 with
            | false =>
              obtain ⟨g1, g2⟩ := FcCh.handleFc_fi2 p.fc d h1 h2 ty
              rcases hty with q | q
              · rw [g1 q] at hf; injection hf with hf; rw [hf]
              · rw [g2 q] at hf; injection hf with hf; rw [← hf]; funext x; cases x <;> rfl
            | true =>
              unfold FcCh.handleFc at hf
              rw [if_neg (by simp [h1]), if_neg (by simp [h2])] at hf
              split at hf
              · split at hf
                · injection hf with hf; rw [← hf]; funext x; cases x <;> rfl
                · cases hf
              · split at hf
                · split at hf
                  · injection hf with hf; rw [← hf]; funext x; cases x <;> rfl
                  · cases hf
                · split at hf
                  · split at hf
                    · injection hf with hf; rw [← hf]; funext x; cases x <;> rfl
                    · cases hf
                  · injection hf with hf; rw [← hf]
          rw [hcap]
          refine ⟨m1, m2, fun _ => id, fun d' hd' _ hq => ?_, fun d' ty' _ _ => h1c h1 ty', fun _ _ => m1 h1⟩
          injection hd' with hd'; subst hd'; exact m3 h1 hq
        · have h1f : p.fc.fi1 = false := by simpa using h1
          rw [FcCh.handleFc_fi1 _ _ h1f] at hf
          injection hf with hf
          rcases or_assoc.2 hty with q | q
          · obtain ⟨k1, k2, k3, k4, k5, k6, k7⟩ := FcCh.init1_init p.fc d ty q
            rw [hf] at k2 k3 k4
            refine ⟨m1, m2, fun x hx => ?_, fun d' _ hx => (h1 hx).elim, fun d' ty' hd' hq => ?_, fun hx _ => ?_⟩
            · rw [k2, hx, Bool.or_true]
            · injection hd' with hd'; subst hd'
              have : ty' = ty := by
                rcases q with q | q <;> rw [q] at hq <;> rcases hq with hq | hq
                · exact (init_inj.1.1 hq).symm
                · exact (init_inj.2.2 hq).elim
                · exact (init_inj.2.2 hq.symm).elim
                · exact (init_inj.2.1.1 hq).symm
              rw [k2, this]; simp
            · rw [k3, hx, hx, hx]; rfl
          · rw [FcCh.init1_update _ _ ty q] at hf
            subst hf
            refine ⟨id, id, fun _ => id, fun d' _ hx => (h1 hx).elim, fun d' ty' hd' hq => ?_, fun hx hy => ?_⟩
            · injection hd' with hd'; subst hd'
              rw [q] at hq
              rcases hq with hq | hq
              · exact ((init_ne_upd _ _).1 hq.symm).elim
              · exact ((init_ne_upd _ _).2 hq.symm).elim
            · rcases hy with hy | hy
              · exact hy
              · exact (hy hx).elim
      · cases h
    · refine keep ?_ (fun d' hd' ty => ?_)
      · unfold Port.recv Port.handleDllp at h
        simp only at h
        split at h
        · injection h with h; rw [h]
        · split at h
          · split at h
            · injection h with h; rw [h]
            · split at h
              · injection h with h; rw [h]
              · split at h
                · cases h
                · next p2 h2 =>
                  split at h
                  · cases h
                  · injection h with h; subst h
                    rw [Port.purge_fc h2]
          · split at h
            · next hm =>
              exfalso; apply hfc
              simp only [Dllp.fcTypes, List.mem_cons, List.not_mem_nil, or_false] at hm
              rcases hm with q | q | q | q | q | q | q | q | q
              · exact ⟨.P, .inl q⟩
              · exact ⟨.NP, .inl q⟩
              · exact ⟨.CPL, .inl q⟩
              · exact ⟨.P, .inr (.inl q)⟩
              · exact ⟨.NP, .inr (.inl q)⟩
              · exact ⟨.CPL, .inr (.inl q)⟩
              · exact ⟨.P, .inr (.inr q)⟩
              · exact ⟨.NP, .inr (.inr q)⟩
              · exact ⟨.CPL, .inr (.inr q)⟩
            · cases h
      · injection hd' with hd'; subst hd'
        exact ⟨fun q => hfc ⟨ty, .inl q⟩, fun q => hfc ⟨ty, .inr (.inl q)⟩, fun q => hfc ⟨ty, .inr (.inr q)⟩⟩

/-- The credits of all types taken over means that FC_INIT1 is left. -/
def Port.J (p : Port) : Prop := (∀ ty, p.fc.cap ty = true) → p.fc.fi1 = true

/-- Flags are never taken back. -/
structure FlagsLe (p q : Port) : Prop where
  fi1 : p.fc.fi1 = true → q.fc.fi1 = true
  fi2 : p.fc.fi2 = true → q.fc.fi2 = true
  j : p.J → q.J

theorem FlagsLe.refl (p : Port) : FlagsLe p p := ⟨id, id, id⟩
theorem FlagsLe.trans {p q r : Port} (h : FlagsLe p q) (g : FlagsLe q r) : FlagsLe p r :=
  ⟨fun x => g.fi1 (h.fi1 x), fun x => g.fi2 (h.fi2 x), fun x => g.j (h.j x)⟩
theorem FlagsLe.of_eq {p q : Port} (h1 : q.fc.fi1 = p.fc.fi1) (h2 : q.fc.fi2 = p.fc.fi2) (h3 : q.fc.cap = p.fc.cap) : FlagsLe p q :=
  ⟨fun x => h1 ▸ x, fun x => h2 ▸ x, fun x y => by rw [h1]; exact x (by rw [← h3]; exact y)⟩
theorem FlagsLe.of_txv {p q : Port} (h : q.txv = p.txv) : FlagsLe p q :=
  .of_eq (congrArg (fun v => v.fc.fi1) h) (congrArg (fun v => v.fc.fi2) h) (congrArg (fun v => v.fc.cap) h)

theorem Port.transmit_flags (p : Port) (now steps : Nat) : FlagsLe p (p.transmit now steps).1 := by
  rcases Port.transmit_cases p now steps with ⟨hs, he⟩ | ⟨fc, d, hf, hu, he⟩ | ⟨hn, he⟩ | ⟨sf, x, rest, hq, he⟩ | ⟨sf, he⟩
  · rw [he]; exact .of_eq rfl rfl rfl
  · obtain ⟨ty, u0, u1, u2, u3, u4, u5, u6, u7⟩ := FcCh.update_some hu
    rw [he]
    exact .of_eq (congrArg TxC.fi1 u3) (congrArg TxC.fi2 u3) (congrArg TxC.cap u3)
  · rw [he]; exact .of_eq rfl rfl rfl
  · rw [he]; exact .of_eq rfl rfl rfl
  · rw [he]; exact .of_eq rfl rfl rfl

theorem LinkInv.stepA_flags {l l1 : Link} (h : LinkInv False l) {steps : Nat} {e : PortAct} (he : l.stepA steps e = .ok l1) :
    FlagsLe l.a l1.a ∧ l1.b = l.b := by
  cases e with
  | send t =>
    unfold Link.stepA at he
    simp only at he
    split at he
    · next p hp =>
      injection he with he; subst he
      refine ⟨?_, rfl⟩
      unfold Port.send at hp
      split at hp
      · cases hp
      · next ty hty =>
        split at hp
        · injection hp with hp; subst hp
          obtain ⟨f1, f2, f3⟩ := FcCh.txConsume_flags l.a.fc ty t.dataCredits
          exact .of_eq f2 f3 f1
        · cases hp
    · injection he with he; subst he; exact ⟨.refl _, rfl⟩
  | transmit now => injection he with he; subst he; exact ⟨Port.transmit_flags _ _ _, rfl⟩
  | recv =>
    unfold Link.stepA at he
    simp only at he
    split at he
    · injection he with he; subst he; exact ⟨.refl _, rfl⟩
    · split at he
      · next p hp =>
        injection he with he; subst he
        obtain ⟨r1, r2, r3, r4, r5, r6⟩ := Port.recv_flags hp h.da.fi21 h.da.fi1c
        refine ⟨⟨r1, r2, fun j x => r6 x ?_⟩, rfl⟩
        by_cases hh : ∀ ty, l.a.fc.cap ty = true
        · exact .inl (j hh)
        · exact .inr hh
      · cases he
  | release token =>
    injection he with he; subst he
    exact ⟨.of_txv (Port.release_txv _ _).1, rfl⟩
  | ackTimeout =>
    injection he with he; subst he
    refine ⟨.of_eq ?_ ?_ ?_, rfl⟩ <;> (simp only; unfold Port.ackTimeout; split <;> rfl)
  | fcTimeout => injection he with he; subst he; exact ⟨.of_eq rfl rfl rfl, rfl⟩
  | take => injection he with he; subst he; exact ⟨.of_eq rfl rfl rfl, rfl⟩

theorem LinkInv.step_flags {l l1 : Link} (h : LinkInv False l) {steps : Nat} {e : Bool × PortAct} (he : l.step steps e = .ok l1) :
    FlagsLe l.a l1.a ∧ FlagsLe l.b l1.b := by
  unfold Link.step at he
  split at he
  · obtain ⟨x, y⟩ := h.stepA_flags he
    exact ⟨x, by rw [y]; exact .refl _⟩
  · split at he
    · next l2 h2 =>
      injection he with he; subst he
      obtain ⟨x, y⟩ := h.swap.stepA_flags h2
      exact ⟨by show FlagsLe l.a l2.b; rw [y]; exact .refl _, x⟩
    · cases he

theorem LinkInv.run_flags {l l1 : Link} (h : LinkInv False l) {steps : Nat} {es : List (Bool × PortAct)}
    (he : Link.run steps l es = .ok l1) : FlagsLe l.a l1.a ∧ FlagsLe l.b l1.b ∧ LinkInv False l1 := by
  induction es generalizing l with
  | nil => injection he with he; subst he; exact ⟨.refl _, .refl _, h⟩
  | cons e es ih =>
    unfold Link.run at he
    obtain ⟨l2, e2, h2⟩ := h.step (fun b => b.elim) steps e
    rw [e2] at he
    obtain ⟨a, b⟩ := h.step_flags e2
    obtain ⟨c, d, i⟩ := ih h2 he
    exact ⟨a.trans c, b.trans d, i⟩

theorem Spec.Reach.j {steps : Nat} {l : Link} (h : Reach steps l) : l.a.J ∧ l.b.J := by
  obtain ⟨l0, es, h0, e⟩ := h
  obtain ⟨a, b, -⟩ := (LinkInv.init (bnd := False) h0).run_flags e
  have key : ∀ p : Port, (∃ a b c d e f, freshPort a b c d e f p) → p.J := by
    rintro p ⟨a, b, c, d, e, f, fc, e1, rfl⟩ hc
    obtain ⟨iv, k1, k2, -⟩ := FcCh.new_ok e1
    have := hc .P
    simp only at this
    rw [k2] at this; cases this
  exact ⟨a.j (key _ h0.2.2.1), b.j (key _ h0.2.2.2)⟩

theorem drain {steps : Nat} (ab : List Pkt) (l : Link) (hab : l.ab = ab) (h : LinkInv False l) :
    ∃ l', Link.run steps l (drainB ab.length) = .ok l' ∧ FlagsLe l.b l'.b ∧
      (∀ ty, (l.b.fc.cap ty = true ∨ ∃ d ∈ dllps ab, d.type = init1Type ty ∨ d.type = init2Type ty) → l'.b.fc.cap ty = true) ∧
      (l.b.fc.fi1 = true → (l.b.fc.fi2 = true ∨ ∃ d ∈ dllps ab, isFi2 d) → l'.b.fc.fi2 = true) := by
  induction ab generalizing l with
  | nil =>
    refine ⟨l, rfl, .refl _, fun ty hx => ?_, fun _ hx => ?_⟩
    · rcases hx with hx | ⟨d, hd, _⟩
      · exact hx
      · cases hd
    · rcases hx with hx | ⟨d, hd, _⟩
      · exact hx
      · cases hd
  | cons pkt rest ih =>
    obtain ⟨p, e, hp⟩ := h.swap.recv (fun b => b.elim) pkt rest hab
    have e' : l.b.recv pkt = .ok p := e
    have hs : l.step steps (false, .recv) = .ok { l with b := p, ab := rest } := by
      unfold Link.step Link.stepA
      simp only [Bool.false_eq_true, if_false]
      have : l.swap.ba = pkt :: rest := hab
      rw [this]; simp only
      rw [show l.swap.a.recv pkt = .ok p from e']
      rfl
    obtain ⟨r1, r2, r3, r4, r5, r6⟩ := Port.recv_flags e' h.db.fi21 h.db.fi1c
    have hfl := (h.step_flags hs).2
    obtain ⟨l', e2, g1, g2, g3⟩ := ih { l with b := p, ab := rest } rfl hp.swap
    refine ⟨l', ?_, hfl.trans g1, fun ty hx => g2 ty ?_, fun hf hx => g3 (r1 hf) ?_⟩
    · show Link.run steps l (drainB (rest.length + 1)) = _
      unfold drainB at e2 ⊢
      rw [List.replicate_succ]
      unfold Link.run
      rw [hs]; exact e2
    · rcases hx with hx | ⟨d, hd, hq⟩
      · exact .inl (r3 ty hx)
      · cases pkt with
        | tlp t => rw [dllps_tlp] at hd; exact .inr ⟨d, hd, hq⟩
        | dllp d' =>
          rw [dllps_dllp] at hd
          rcases List.mem_cons.1 hd with hd | hd
          · subst hd; exact .inl (r5 d ty rfl hq)
          · exact .inr ⟨d, hd, hq⟩
    · rcases hx with hx | ⟨d, hd, hq⟩
      · exact .inl (r2 hx)
      · cases pkt with
        | tlp t => rw [dllps_tlp] at hd; exact .inr ⟨d, hd, hq⟩
        | dllp d' =>
          rw [dllps_dllp] at hd
          rcases List.mem_cons.1 hd with hd | hd
          · subst hd; exact .inl (r4 d rfl hf hq)
          · exact .inr ⟨d, hd, hq⟩

/-- A port in FC_INIT1 or FC_INIT2 that has been asked for flow-control DLLPs sends an InitFC. -/
theorem Port.transmit_init (p : Port) (now steps : Nat) (h1 : p.sendAck = false) (h2 : p.sendFc = true) (h3 : p.fc.fi2 = false)
    (h4 : p.fcInitialized = false) :
    p.transmit now steps = ({ p with fcInitType := Port.nextType p.fcInitType, fcInitialized := p.fc.fi2 },
      some (.dllp (p.fc.initDllp p.fcInitType))) := by
  unfold Port.transmit
  rw [if_neg (by simp [h1]), if_pos (.inl h2), if_neg (by simp [h3])]
  simp only
  rw [if_pos (by simp [h4])]

theorem initDllp_is (c : FcCh) (ty : FcType) : (c.initDllp ty).type = init1Type ty ∨ (c.initDllp ty).type = init2Type ty := by
  rw [(FcCh.initDllp_type c ty).1]; split
  · exact .inr rfl
  · exact .inl rfl

theorem Link.step_transmit (steps : Nat) (l : Link) (now : Nat) :
    l.step steps (true, .transmit now) = .ok { l with a := (l.a.transmit now steps).1, ab := l.ab ++ (l.a.transmit now steps).2.toList } := rfl

theorem Link.run_cons {steps : Nat} {l l1 : Link} {e : Bool × PortAct} {es : List (Bool × PortAct)} (h : l.step steps e = .ok l1) :
    Link.run steps l (e :: es) = Link.run steps l1 es := by
  conv_lhs => unfold Link.run
  rw [h]

/-- Ready to send an InitFC: nothing else is to be sent first. -/
structure InitReady (p : Port) : Prop where
  ack : p.sendAck = false
  fc : p.sendFc = true
  fi2 : p.fc.fi2 = false
  ini : p.fcInitialized = false

theorem emit1 (steps : Nat) (l : Link) (h : InitReady l.a) :
    ∃ l', l.step steps (true, .transmit 0) = .ok l' ∧ l'.b = l.b ∧ InitReady l'.a ∧
      l'.a.fcInitType = Port.nextType l.a.fcInitType ∧
      ∃ d, dllps l'.ab = dllps l.ab ++ [d] ∧ (d.type = init1Type l.a.fcInitType ∨ d.type = init2Type l.a.fcInitType) := by
  have e := Port.transmit_init l.a 0 steps h.ack h.fc h.fi2 h.ini
  refine ⟨_, Link.step_transmit steps l 0, rfl, ?_, ?_, l.a.fc.initDllp l.a.fcInitType, ?_, initDllp_is _ _⟩
  · simp only; rw [e]; exact ⟨h.ack, h.fc, h.fi2, h.fi2⟩
  · simp only; rw [e]
  · simp only; rw [e, Option.toList_some, dllps_push_dllp]

/-- Three InitFC in a row cover all types. -/
theorem emit3 (steps : Nat) (l : Link) (h : InitReady l.a) :
    ∃ l', Link.run steps l (List.replicate 3 (true, .transmit 0)) = .ok l' ∧ l'.b = l.b ∧
      ∀ ty, ∃ d ∈ dllps l'.ab, d.type = init1Type ty ∨ d.type = init2Type ty := by
  obtain ⟨l1, s1, b1, r1, t1, d1, e1, k1⟩ := emit1 steps l h
  obtain ⟨l2, s2, b2, r2, t2, d2, e2, k2⟩ := emit1 steps l1 r1
  obtain ⟨l3, s3, b3, r3, t3, d3, e3, k3⟩ := emit1 steps l2 r2
  refine ⟨l3, ?_, by rw [b3, b2, b1], fun ty => ?_⟩
  · show Link.run steps l [_, _, _] = _
    rw [Link.run_cons s1, Link.run_cons s2, Link.run_cons s3]; rfl
  · have hm : ∀ t, t = l.a.fcInitType ∨ t = Port.nextType l.a.fcInitType ∨ t = Port.nextType (Port.nextType l.a.fcInitType) := by
      intro t; cases l.a.fcInitType <;> cases t <;> simp [Port.nextType]
    rw [t1] at k2 t2
    rw [t2] at k3
    rw [e3, e2, e1]
    rcases hm ty with q | q | q
    · exact ⟨d1, by simp, q ▸ k1⟩
    · exact ⟨d2, by simp, q ▸ k2⟩
    · exact ⟨d3, by simp, q ▸ k3⟩

/-- From every reachable state `b` can leave FC_INIT1. -/
theorem reach_fi1 {steps : Nat} {l : Link} (h : Reach steps l) : ∃ es l', Link.run steps l es = .ok l' ∧ l'.b.fc.fi1 = true := by
  by_cases hb : l.b.fc.fi1 = true
  · exact ⟨[], l, rfl, hb⟩
  have hi := h.inv
  have ha2 : l.a.fc.fi2 = false := by
    cases e : l.a.fc.fi2 with
    | false => rfl
    | true => exact (hb (hi.fa.f2 e)).elim
  have hai : l.a.fcInitialized = false := by
    cases e : l.a.fcInitialized with
    | false => rfl
    | true => rw [hi.fa.f3 e] at ha2; cases ha2
  -- request flow-control DLLPs and get a pending ACK out of the way
  have s0 : l.step steps (true, .fcTimeout) = .ok { l with a := l.a.fcTimeout } := rfl
  have hpre : ∃ l1, Link.run steps l [(true, .fcTimeout), (true, .transmit 0)] = .ok l1 ∧ InitReady l1.a := by
    refine ⟨{ l with a := (l.a.fcTimeout.transmit 0 steps).1, ab := l.ab ++ (l.a.fcTimeout.transmit 0 steps).2.toList }, ?_, ?_⟩
    · rw [Link.run_cons s0, Link.run_cons (Link.step_transmit _ _ _)]; rfl
    · simp only
      cases hs : l.a.sendAck with
      | true =>
        have : (l.a.fcTimeout.transmit 0 steps).1 = { l.a.fcTimeout with sendAck := false } := by
          unfold Port.transmit; rw [if_pos (by exact hs)]
        rw [this]
        exact ⟨rfl, rfl, ha2, hai⟩
      | false =>
        have := Port.transmit_init l.a.fcTimeout 0 steps hs rfl ha2 hai
        rw [this]
        exact ⟨hs, rfl, ha2, ha2⟩
  obtain ⟨l1, e1, q1⟩ := hpre
  obtain ⟨l2, e2, -, hty⟩ := emit3 steps l1 q1
  have hr1 := h.run e1
  have hr2 := hr1.run e2
  obtain ⟨l3, e3, g1, g2, g3⟩ := drain (steps := steps) l2.ab l2 rfl hr2.inv
  have hr3 := hr2.run e3
  refine ⟨[(true, .fcTimeout), (true, .transmit 0)] ++ (List.replicate 3 (true, .transmit 0) ++ drainB l2.ab.length), l3, ?_,
    hr3.j.2 fun ty => g2 ty (.inr (hty ty))⟩
  rw [Link.run_append e1, Link.run_append e2]; exact e3

/-- A port that has left FC_INIT1 and has been asked for flow-control DLLPs tells its partner so. -/
theorem Port.transmit_fi2 (p : Port) (now steps : Nat) (h1 : p.sendAck = false) (h2 : p.sendFc = true) (h3 : p.fc.fi1 = true)
    (h4 : p.fcInitialized = false) : ∃ d, (p.transmit now steps).2 = some (.dllp d) ∧ isFi2 d := by
  unfold Port.transmit
  rw [if_neg (by simp [h1]), if_pos (.inl h2)]
  split
  · next fc d he =>
    split at he
    · obtain ⟨ty, u0, u1, -⟩ := FcCh.update_some he
      exact ⟨d, rfl, ty, .inr u1⟩
    · cases he
  · rw [if_pos (by simp [h4])]
    exact ⟨_, rfl, p.fcInitType, .inl (by rw [(FcCh.initDllp_type _ _).1, if_pos h3])⟩

/-- Once both ports have left FC_INIT1, `b` can complete its initialisation. -/
theorem reach_fi2 {steps : Nat} {l : Link} (h : Reach steps l) (ha : l.a.fc.fi1 = true) (hb : l.b.fc.fi1 = true) :
    ∃ es l', Link.run steps l es = .ok l' ∧ l'.b.fc.fi2 = true := by
  have hi := h.inv
  -- a DLLP that completes the initialisation is, or can be brought, on its way
  have key : ∃ es l1, Link.run steps l es = .ok l1 ∧ (l1.b.fc.fi2 = true ∨ ∃ d ∈ dllps l1.ab, isFi2 d) := by
    cases hai : l.a.fcInitialized with
    | true => exact ⟨[], l, rfl, hi.fa.f4 hai⟩
    | false =>
      have s0 : l.step steps (true, .fcTimeout) = .ok { l with a := l.a.fcTimeout } := rfl
      have r1 : Link.run steps l [(true, .fcTimeout), (true, .transmit 0)] = .ok
          { l with a := (l.a.fcTimeout.transmit 0 steps).1, ab := l.ab ++ (l.a.fcTimeout.transmit 0 steps).2.toList } := by
        rw [Link.run_cons s0, Link.run_cons (Link.step_transmit _ _ _)]; rfl
      cases hs : l.a.sendAck with
      | false =>
        obtain ⟨d, hd, hq⟩ := Port.transmit_fi2 l.a.fcTimeout 0 steps hs rfl ha hai
        refine ⟨_, _, r1, .inr ⟨d, ?_, hq⟩⟩
        simp only; rw [hd, Option.toList_some, dllps_push_dllp]; simp
      | true =>
        have e : (l.a.fcTimeout.transmit 0 steps).1 = { l.a.fcTimeout with sendAck := false } := by
          unfold Port.transmit; rw [if_pos (by exact hs)]
        obtain ⟨l1, e1, ha1⟩ : ∃ l1, Link.run steps l [(true, .fcTimeout), (true, .transmit 0)] = .ok l1 ∧
            l1.a = { l.a.fcTimeout with sendAck := false } := ⟨_, r1, e⟩
        obtain ⟨d, hd, hq⟩ := Port.transmit_fi2 l1.a 0 steps (by rw [ha1]) (by rw [ha1]; rfl) (by rw [ha1]; exact ha)
          (by rw [ha1]; exact hai)
        refine ⟨[(true, .fcTimeout), (true, .transmit 0)] ++ [(true, .transmit 0)], _,
          (Link.run_append e1).trans (Link.run_cons (es := []) (Link.step_transmit steps l1 0)), .inr ⟨d, ?_, hq⟩⟩
        simp only; rw [hd, Option.toList_some, dllps_push_dllp]; simp
  obtain ⟨es, l1, e1, hq⟩ := key
  have hr1 := h.run e1
  have hm := hi.run_flags e1
  obtain ⟨l2, e2, g1, g2, g3⟩ := drain (steps := steps) l1.ab l1 rfl hr1.inv
  exact ⟨es ++ drainB l1.ab.length, l2, by rw [Link.run_append e1]; exact e2, g3 (hm.2.1.fi1 hb) hq⟩

/-- `reach_fi1` and `reach_fi2` from the other side. -/
theorem reach_swap {steps : Nat} {l : Link} {P : Port → Prop} (h : ∃ es l', Link.run steps l.swap es = .ok l' ∧ P l'.b) :
    ∃ es l', Link.run steps l es = .ok l' ∧ P l'.a := by
  obtain ⟨es, l', e, hp⟩ := h
  exact ⟨_, l'.swap, Link.run_swap _ _ _ _ e, hp⟩

end Pcie
