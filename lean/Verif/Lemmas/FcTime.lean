import Verif.Lemmas.SimPort
import Verif.Lemmas.LinkRun
import Verif.Model.FcTime
/-
What an event of a clocked link changes, seen from the receiver `b` whose credits the sender `a` waits for.
-/
namespace Pcie
open Spec
namespace FcTime

/-- Credits `w` released so far. -/
def rel (p : Port) (w : Credit) : Nat := units w p.delivered - held w p.fc.dict
/-- ACKs that are going to be sent. -/
def phi (p : Port) : Nat := (if p.sendAck then 1 else 0) + (if p.ackTimer then 1 else 0)
/-- TLPs received and TLPs released. -/
def used (p : Port) : Nat := p.delivered.length + (p.delivered.length - p.fc.dict.length)

theorem phi_le (p : Port) : phi p ≤ 2 := by unfold phi; split <;> split <;> omega

/-- The packets on a wire with the times at which they arrive. -/
def wl (delay : Nat) (w : Wire Pkt) : List (Pkt × Nat) := w.fly ++ (w.ser.map fun e => (e.1, e.2 + delay)).toList

/-- The part of the state that matters. -/
structure Obs where
  now : Nat
  wl : List (Pkt × Nat)
  ser : Option Nat
  sf : Bool
  nx : FcType → Nat
  rel : Credit → Nat
  phi : Nat
  used : Nat
  fcAt : Option Nat
  lim : Credit → Nat

def obs (cfg : ClockCfg) (c : ClockLink) : Obs :=
  { now := c.l.now, wl := wl cfg.delay c.l.ba, ser := c.l.ba.ser.map (·.2), sf := c.l.b.sendFc, nx := nextUpdate c.l.b.fc, rel := rel c.l.b, phi := phi c.l.b,
    used := used c.l.b, fcAt := c.tb.fcAt, lim := fun w => (counters c.l.a.fc w).txLimit }

/-! ### Wires -/

theorem wl_start {dur : Pkt → Nat} {delay now : Nat} {w w' : Wire Pkt} {p : Pkt} (hs : w.start dur now p = some w') :
    w.ser = none ∧ wl delay w' = wl delay w ++ [(p, now + dur p + delay)] ∧ w'.ser = some (p, now + dur p) ∧ w'.sent = w.sent ++ [(p, now)] := by
  unfold Wire.start at hs
  cases hser : w.ser with
  | some e => rw [hser] at hs; cases hs
  | none => rw [hser] at hs; cases hs; exact ⟨rfl, by simp [wl, hser], rfl, rfl⟩

theorem wl_pass {delay now : Nat} {w w' : Wire Pkt} (hs : w.pass delay now = some w') :
    wl delay w' = wl delay w ∧ w.ser.map (·.2) = some now ∧ w'.ser = none ∧ w'.sent = w.sent := by
  unfold Wire.pass at hs
  cases hser : w.ser with
  | none => rw [hser] at hs; cases hs
  | some e =>
    obtain ⟨p, t⟩ := e
    rw [hser] at hs
    simp only at hs
    split at hs
    · rename_i ht; subst ht; cases hs; exact ⟨by simp [wl, hser], rfl, rfl, rfl⟩
    · cases hs

theorem wl_arrive {dur : Pkt → Nat} {delay now i : Nat} {w w' : Wire Pkt} {p : Pkt} (h : Wire.Inv dur delay now w) (hs : w.arrive now i = some (p, w')) :
    wl delay w = (p, now) :: wl delay w' ∧ w'.ser = w.ser ∧ w'.sent = w.sent := by
  obtain ⟨h1, _, h3, h4⟩ := Wire.arrive_ok h hs
  have e1 := h.hist
  have e2 := h1.hist
  rw [h3, h4] at e2
  rw [e1] at e2
  have hser : w'.ser = w.ser := by
    unfold Wire.arrive at hs
    split at hs
    · split at hs
      · cases hs; rfl
      · cases hs
    · cases hs
  refine ⟨?_, hser, h3⟩
  rw [List.append_assoc, List.append_assoc, List.append_assoc] at e2
  exact List.append_cancel_left e2

theorem wl_ge {dur : Pkt → Nat} {delay now : Nat} {w : Wire Pkt} (h : Wire.Inv dur delay now w) : ∀ e ∈ wl delay w, now ≤ e.2 := by
  intro e he
  unfold wl at he
  rcases List.mem_append.mp he with he | he
  · exact (h.later e he).1
  · rw [Option.mem_toList, Option.map_eq_some_iff] at he
    obtain ⟨⟨q, t⟩, h1, rfl⟩ := he
    have := (h.ser q t h1).1
    simp only; omega

/-! ### Ports -/

theorem units_len (w : Credit) (a b : List Tlp) : units w (a ++ b) = units w a + units w b := units_append w a b

/-- Receiving a packet; a TLP has the expected sequence number. -/
theorem recv_b {p q : Port} {pkt : Pkt} (h : p.recv pkt = .ok q) (hs : ∀ t, pkt = .tlp t → t.seq = p.nextRx) :
    q.sendFc = p.sendFc ∧ nextUpdate q.fc = nextUpdate p.fc ∧ rel q = rel p ∧ phi q + used p ≤ phi p + used q ∧ used p ≤ used q ∧
      (p.fc.dict.length ≤ p.delivered.length → q.fc.dict.length ≤ q.delivered.length) := by
  cases pkt with
  | dllp d =>
    have key : q.sendFc = p.sendFc ∧ nextUpdate q.fc = nextUpdate p.fc ∧ q.fc.dict = p.fc.dict ∧ q.delivered = p.delivered ∧ q.sendAck = p.sendAck ∧ q.ackTimer = p.ackTimer := by
      have hp : ∀ n seq (a b : Port), Port.purge seq n a = .ok b → b.sendFc = a.sendFc ∧ nextUpdate b.fc = nextUpdate a.fc ∧ b.fc.dict = a.fc.dict ∧
          b.delivered = a.delivered ∧ b.sendAck = a.sendAck ∧ b.ackTimer = a.ackTimer := by
        intro n
        induction n with
        | zero => intro seq a b e; cases e; exact ⟨rfl, rfl, rfl, rfl, rfl, rfl⟩
        | succ n ih =>
          intro seq a b e
          unfold Port.purge at e
          split at e
          · split at e
            · cases e
            · have k := ih _ _ _ e
              exact k
          · cases e; exact ⟨rfl, rfl, rfl, rfl, rfl, rfl⟩
      unfold Port.recv Port.handleDllp at h
      simp only at h
      split at h
      · cases h; exact ⟨rfl, rfl, rfl, rfl, rfl, rfl⟩
      · split at h
        · split at h
          · cases h; exact ⟨rfl, rfl, rfl, rfl, rfl, rfl⟩
          · split at h
            · cases h; exact ⟨rfl, rfl, rfl, rfl, rfl, rfl⟩
            · split at h
              · cases h
              · next p2 h2 =>
                split at h
                · cases h
                · cases h; exact hp _ _ _ _ h2
        · split at h
          · split at h
            · next fc hf =>
              cases h
              have := FcCh.handleFc_rxv hf
              exact ⟨rfl, congrArg RxC.next this, congrArg RxC.dict this, rfl, rfl, rfl⟩
            · cases h
          · cases h
    obtain ⟨k1, k2, k3, k4, k5, k6⟩ := key
    have hu : used q = used p := by unfold used; rw [k3, k4]
    refine ⟨k1, k2, by funext w; unfold rel; rw [k3, k4], ?_, by omega, by rw [k3, k4]; exact id⟩
    unfold phi; rw [k5, k6]; omega
  | tlp t =>
    unfold Port.recv Port.recvTlp at h
    simp only at h
    rw [if_pos (hs t rfl)] at h
    unfold FcCh.process at h
    split at h
    · cases h
    · next fc tok hp =>
      split at hp
      · cases hp
      · next ty hty =>
        injection hp with hp
        injection hp with hp1 hp2
        subst hp1
        injection h with h; subst h
        obtain ⟨d1, d2, d3⟩ := FcCh.rxConsume_dict p.fc ty t.copy.dataCredits
        have hu : p.delivered.length + 1 + (p.delivered.length + 1 - (p.fc.dict.length + 1)) = used p + 1 := by unfold used; omega
        refine ⟨rfl, ?_, ?_, ?_, ?_, ?_⟩
        · show nextUpdate (p.fc.rxConsume ty t.copy.dataCredits) = _
          exact d3
        · funext w
          unfold rel
          simp only [d1, units_append, held_append, units_single]
          have hc : cost w t.copy = costOf w ty t.copy.dataCredits := cost_of_fc hty w
          have hh : ∀ n : Nat, held w [(n, ty, t.copy.dataCredits)] = costOf w ty t.copy.dataCredits := fun n => by simp [held]
          rw [hc, hh]
          omega
        · have : used { p with nextRx := (p.nextRx + 1) % 4096, nak := false, ackTimer := true, fc := { p.fc.rxConsume ty t.copy.dataCredits with dict := (p.fc.rxConsume ty t.copy.dataCredits).dict ++ [((p.fc.rxConsume ty t.copy.dataCredits).nextToken, ty, t.copy.dataCredits)], nextToken := (p.fc.rxConsume ty t.copy.dataCredits).nextToken + 1 }, rxq := p.rxq ++ [(t.copy, tok)], delivered := p.delivered ++ [t.copy] } = used p + 1 := by
            unfold used
            simp only [d1, List.length_append, List.length_singleton]
            unfold used at hu
            exact hu
          rw [this]
          unfold phi
          simp only [if_true]
          split <;> split <;> omega
        · unfold used
          simp only [d1, List.length_append, List.length_singleton]
          omega
        · simp only [d1, List.length_append, List.length_singleton]
          omega

/-- Releasing. -/
theorem release_b (p : Port) (token : Nat) : (p.fc.dict.any (·.1 = token) = false ∧ p.release token = p) ∨
    (p.fc.dict.any (·.1 = token) = true ∧ ∃ ty, (p.release token).sendFc = p.sendFc ∧ nextUpdate (p.release token).fc = (fun x => if ty = x then 0 else nextUpdate p.fc x) ∧
      (∀ w, rel p w ≤ rel (p.release token) w) ∧ phi (p.release token) = phi p ∧ (p.release token).delivered = p.delivered ∧
      (p.release token).fc.dict.length + 1 = p.fc.dict.length) := by
  cases ha : p.fc.dict.any (·.1 = token) with
  | false => left; exact ⟨rfl, by unfold Port.release; rw [if_neg (by rw [ha]; decide)]⟩
  | true =>
    right
    refine ⟨rfl, ?_⟩
    have hr : p.release token = { p with fc := p.fc.releaseToken token, fcTimer := true } := by unfold Port.release; rw [if_pos ha]
    have hf : ∃ e, p.fc.dict.find? (·.1 = token) = some e := by
      cases hfd : p.fc.dict.find? (·.1 = token) with
      | some e => exact ⟨e, rfl⟩
      | none =>
        rw [List.find?_eq_none] at hfd
        rw [List.any_eq_true] at ha
        obtain ⟨x, hx, hx2⟩ := ha
        exact absurd hx2 (hfd x hx)
    obtain ⟨⟨tok, ty, dc⟩, hf⟩ := hf
    have hm := List.mem_of_find?_eq_some hf
    have hrt : p.fc.releaseToken token = { p.fc with dict := p.fc.dict.erase (tok, ty, dc) }.rxRelease ty dc := by unfold FcCh.releaseToken; rw [hf]
    obtain ⟨d1, d2, d3⟩ := FcCh.rxRelease_dict { p.fc with dict := p.fc.dict.erase (tok, ty, dc) } ty dc
    have hd : (p.release token).fc.dict = p.fc.dict.erase (tok, ty, dc) := by rw [hr]; simp only [hrt, d1]
    refine ⟨ty, by rw [hr], ?_, ?_, by rw [hr]; rfl, by rw [hr], ?_⟩
    · rw [hr]; simp only [hrt, d3]
      funext x; split <;> [rfl; (cases x <;> rfl)]
    · intro w
      have h1 := held_erase w p.fc.dict _ hm
      unfold rel
      rw [hd, hr]
      simp only
      omega
    · rw [hd, List.length_erase_of_mem hm]
      have := List.length_pos_of_mem hm
      omega

/-- Order of precedence of the updates. -/
def rank : FcType → Nat
  | .P => 0
  | .NP => 1
  | .CPL => 2

theorem update_first {c c' : FcCh} {now steps : Nat} {d : Dllp} (h : c.update now steps = some (c', d)) :
    ∃ ty, nextUpdate c ty ≤ now ∧ d.type = updType ty ∧ (∀ b, fld (ty, b) d = (counters c (ty, b)).rxAlloc) ∧ (∀ y, rank y < rank ty → now < nextUpdate c y) ∧
      c'.dict = c.dict ∧ nextUpdate c' = fun x => if x = ty then now + steps else nextUpdate c x := by
  unfold FcCh.update at h
  split at h
  · rename_i hle
    injection h with h; injection h with h1 h2; subst h1 h2
    exact ⟨.P, hle, rfl, fun b => by cases b <;> rfl, fun y hy => absurd hy (by cases y <;> decide), rfl, funext fun x => by cases x <;> rfl⟩
  · split at h
    · rename_i h0 hle
      injection h with h; injection h with h1 h2; subst h1 h2
      refine ⟨.NP, hle, rfl, fun b => by cases b <;> rfl, fun y hy => ?_, rfl, funext fun x => by cases x <;> rfl⟩
      cases y
      · show now < c.nextP; omega
      · exact absurd hy (by decide)
      · exact absurd hy (by decide)
    · split at h
      · rename_i h0 h00 hle
        injection h with h; injection h with h1 h2; subst h1 h2
        refine ⟨.CPL, hle, rfl, fun b => by cases b <;> rfl, fun y hy => ?_, rfl, funext fun x => by cases x <;> rfl⟩
        cases y
        · show now < c.nextP; omega
        · show now < c.nextNp; omega
        · exact absurd hy (by decide)
      · cases h

theorem update_none {c : FcCh} {now steps : Nat} (h : c.update now steps = none) (y : FcType) : now < nextUpdate c y := by
  unfold FcCh.update at h
  split at h
  · cases h
  · split at h
    · cases h
    · split at h
      · cases h
      · rename_i h1 h2 h3
        cases y <;> simp only [nextUpdate] <;> omega

/-- One iteration of the transmitter. -/
theorem transmit_b (p : Port) (now steps : Nat) (hfi : p.fcInitialized = true → p.fc.fi2 = true) :
    (∃ n, p.sendAck = true ∧ p.transmit now steps = ({ p with sendAck := false }, some (.dllp (if p.nak then Dllp.createNak n else Dllp.createAck n)))) ∨
    (∃ fc d, p.sendFc = true ∧ p.fc.fi2 = true ∧ p.fc.update now steps = some (fc, d) ∧ p.transmit now steps = ({ p with fc := fc }, some (.dllp d))) ∨
    (∃ q pkt, p.transmit now steps = (q, pkt) ∧ (p.fc.fi2 = true → p.sendFc = true → ∀ y, now < nextUpdate p.fc y) ∧
      (q.sendFc = p.sendFc ∨ (q.sendFc = false ∧ p.sendFc = true ∧ p.fc.fi2 = true)) ∧ q.fc = p.fc ∧ q.delivered = p.delivered ∧ q.sendAck = p.sendAck ∧ q.ackTimer = p.ackTimer ∧
      (∀ d, pkt = some (.dllp d) → ∃ x, d = p.fc.initDllp x)) := by
  unfold Port.transmit
  by_cases ha : p.sendAck = true
  · left; exact ⟨(p.nextRx + 4095) % 4096, ha, by rw [if_pos ha]⟩
  · right
    rw [if_neg ha]
    have tq : ∀ sf : Bool, ∃ q pkt, Port.transmitTlp { p with sendFc := sf } = (q, pkt) ∧ q.sendFc = sf ∧ q.fc = p.fc ∧ q.delivered = p.delivered ∧ q.sendAck = p.sendAck ∧
        q.ackTimer = p.ackTimer ∧ ∀ d, pkt = some (.dllp d) → ∃ x, d = p.fc.initDllp x := by
      intro sf
      unfold Port.transmitTlp
      simp only
      split
      · exact ⟨_, _, rfl, rfl, rfl, rfl, rfl, rfl, fun d h => by cases h⟩
      · exact ⟨_, _, rfl, rfl, rfl, rfl, rfl, rfl, fun d h => by cases h⟩
    by_cases hc : p.sendFc = true ∨ ¬ p.fcInitialized = true ∧ p.txq = []
    · rw [if_pos hc]
      by_cases hs : p.sendFc = true ∧ p.fc.fi2 = true
      · rw [if_pos hs]
        cases hu : p.fc.update now steps with
        | some r => left; exact ⟨r.1, r.2, hs.1, hs.2, rfl, rfl⟩
        | none =>
          right
          have hn := fun y => update_none hu y
          by_cases hi : p.fcInitialized = true
          · simp only
            rw [if_neg (by simp [hi])]
            obtain ⟨q, pkt, e, e1, e2, e3, e4, e5, e6⟩ := tq false
            exact ⟨q, pkt, e, fun _ _ => hn, .inr ⟨e1, hs.1, hs.2⟩, e2, e3, e4, e5, e6⟩
          · simp only
            rw [if_pos hi]
            exact ⟨_, _, rfl, fun _ _ => hn, .inl rfl, rfl, rfl, rfl, rfl, fun d h => by cases h; exact ⟨_, rfl⟩⟩
      · rw [if_neg hs]
        right
        have hn : p.fc.fi2 = true → p.sendFc = true → ∀ y, now < nextUpdate p.fc y := fun h1 h2 => absurd ⟨h2, h1⟩ hs
        by_cases hi : p.fcInitialized = true
        · exfalso
          rcases hc with hc | hc
          · exact hs ⟨hc, hfi hi⟩
          · exact hc.1 hi
        · simp only
          rw [if_pos hi]
          exact ⟨_, _, rfl, hn, .inl rfl, rfl, rfl, rfl, rfl, fun d h => by cases h; exact ⟨_, rfl⟩⟩
    · rw [if_neg hc]
      right
      obtain ⟨q, pkt, e, e1, e2, e3, e4, e5, e6⟩ := tq p.sendFc
      exact ⟨q, pkt, e, fun _ h => absurd (.inl h) hc, .inl e1, e2, e3, e4, e5, e6⟩

end FcTime
end Pcie
