/-
C21 - C25: flow control and the data link layer between two ports.

All theorems speak about port `a` as sender and port `b` as receiver; by `C21_symmetric` they hold in the other direction as well.
-/
import Verif.Lemmas.LinkRun
import Mathlib.Data.List.Nodup
namespace Pcie
open Spec

/-! ### Concrete links -/

/-- Port `a` advertises 32/64 posted, 16/0 (infinite) non-posted and 0/0 (infinite) completion credits, `b` 2/8, 1/4, 0/0. -/
def exFresh : Link :=
  match FcCh.new 32 64 16 0 0 0, FcCh.new 2 8 1 4 0 0 with
  | .ok a, .ok b => { a := { fc := a }, b := { fc := b } }
  | _, _ => {}

theorem exFresh_fresh : Fresh exFresh :=
  ⟨rfl, rfl, ⟨32, 64, 16, 0, 0, 0, _, rfl, rfl⟩, ⟨2, 8, 1, 4, 0, 0, _, rfl, rfl⟩⟩

/-- A posted write of 32 bytes with the `th` bit set. -/
def exTlp : Tlp := { fmt := 2, type := 0, length := 8, address := 0x1000, th := true, data := List.replicate 32 7 }

/-- InitFC1 from `a`, InitFC2 from `b`, and one more InitFC2 in each direction. -/
def exInit : List (Bool × PortAct) :=
  [(true, .transmit 0), (true, .transmit 0), (true, .transmit 0), (false, .recv), (false, .recv), (false, .recv),
   (false, .transmit 1), (false, .transmit 1), (false, .transmit 1), (true, .recv), (true, .recv), (true, .recv),
   (true, .transmit 2), (false, .recv), (false, .transmit 2), (true, .recv)]

/-- The initialisation, then two TLPs, of which `b` receives one and releases it, sends an update and an ACK. -/
def exHistory : List (Bool × PortAct) :=
  exInit ++ [(true, .send exTlp), (true, .send exTlp), (true, .send exTlp), (true, .transmit 3), (true, .transmit 3), (false, .recv),
    (false, .release 0), (false, .fcTimeout), (false, .transmit 5), (false, .ackTimeout), (false, .transmit 5)]

/-! ### C21 -/

/-- C21: no history makes a port raise an exception (a failed assertion on an update for infinite credits, an ACK that empties
the retry buffer, a NAK, an unknown TLP). -/
theorem C21_no_error (steps : Nat) (l0 : Link) (h : Fresh l0) (es : List (Bool × PortAct)) : ∃ l, Link.run steps l0 es = .ok l := by
  obtain ⟨l, e, -⟩ := (LinkInv.init (bnd := False) h).run steps es
  exact ⟨l, e⟩

/-- C21: what holds in one direction holds in the other. -/
theorem C21_symmetric (steps : Nat) (l : Link) (h : Reach steps l) : Reach steps l.swap := h.swap

/-- C21: for each of the six kinds of credit the credits of the TLPs sent and not yet released - waiting in the sender, on the
way, or received and not released - never exceed the credits that the receiver advertised at reset (unless it advertised infinite
credits). -/
theorem C21_never_overrun (steps : Nat) (l0 l : Link) (es : List (Bool × PortAct)) (h0 : Fresh l0)
    (h : Link.run steps l0 es = .ok l) (w : Credit) (hf : (counters l0.b.fc w).rxInit ≠ 0) :
    units w l.a.txq + units w (tlps l.ab) + held w l.b.fc.dict ≤ (counters l0.b.fc w).rxInit := by
  have hi := Reach.inv ⟨l0, es, h0, h⟩
  have hadv : (counters l.b.fc w).rxInit = (counters l0.b.fc w).rxInit := congrFun (Link.run_adv h).2 w
  have hw := hi.da.fc w
  have hu := hi.da.del_units w
  simp only [Port.txv, Port.rxv] at hu
  have h0' : (l.b.rxv.fc.rx w).init = (counters l0.b.fc w).rxInit := hadv
  obtain ⟨L, l1, l2, l3, l4⟩ := hw.ch (by rw [h0']; exact hf)
  have hle := l4.le
  have hhd := hw.hd
  rw [h0'] at hle
  simp only [Port.txv, Port.rxv, FcCh.rxv] at l2 hle hhd
  omega

example : Fresh exFresh ∧ (counters exFresh.b.fc (.P, true)).rxInit = 8 ∧ (counters exFresh.b.fc (.P, false)).rxInit = 2 :=
  ⟨exFresh_fresh, by decide, by decide⟩
/-- In this history the limit is reached: of three TLPs with one header and two data credits each the third is not accepted. -/
example : (Link.run 10 exFresh (exHistory.take 19)).toOption.map
    (fun l => (units (.P, false) l.a.txq, units (.P, true) l.a.txq, l.a.accepted.length)) = some (2, 4, 2) := by decide +kernel

/-! ### C22 -/

/-- C22: no credit is lost or invented. When the last release has been followed by an update and no update is on the way,
the credits available to the sender and those of the unreleased TLPs add up to what the receiver advertised. -/
theorem C22_conserved (steps : Nat) (l0 l : Link) (es : List (Bool × PortAct)) (h0 : Fresh l0)
    (h : Link.run steps l0 es = .ok l) (w : Credit) (hf : (counters l0.b.fc w).rxInit ≠ 0) (hi : l.a.fc.fi2 = true)
    (hn : nextUpdate l.b.fc w.1 ≠ 0) (hu : ∀ d ∈ dllps l.ba, d.type ≠ updType w.1) :
    (counters l.a.fc w).txAvail + (units w l.a.txq + units w (tlps l.ab) + held w l.b.fc.dict) = (counters l0.b.fc w).rxInit := by
  have hI := Reach.inv ⟨l0, es, h0, h⟩
  have hadv : (l.b.rxv.fc.rx w).init = (counters l0.b.fc w).rxInit := congrFun (Link.run_adv h).2 w
  have hw := hI.da.fc w
  have hdu := hI.da.del_units w
  have hcap := hI.da.fi1c (hI.da.fi21 hi) w.1
  obtain ⟨L, e1, e2, e3, e4⟩ := hw.avail (by rw [hadv]; exact hf) hcap (by omega)
  have hup : upds w (dllps l.ba) = [] := by
    unfold upds
    rw [List.filter_eq_nil_iff.2 (fun d hd => by simpa using hu d hd)]; rfl
  rw [hup] at e4
  have hL := e4.2 hn
  have hhd := hw.hd
  have hti : (counters l.a.fc w).txInfinite = false := by
    have := hw.cp hcap
    unfold FcState.txInfinite
    have e : (counters l.a.fc w).txInit = (l.b.rxv.fc.rx w).init := this
    rw [e, hadv]; simpa using hf
  have hav : (counters l.a.fc w).txAvail = FcState.subMask (l.a.txv.fc.tx w).bits (l.a.txv.fc.tx w).limit (l.a.txv.fc.tx w).consumed := by
    unfold FcState.txAvail; rw [hti]; rfl
  rw [hav]
  rw [hadv] at hL
  simp only [Port.txv, Port.rxv, FcCh.rxv] at e1 hL hhd hdu ⊢
  omega

/-- C22: in particular, when every TLP sent has been received and released and the updates have been processed, the sender has
all its credits back. -/
theorem C22_all_back (steps : Nat) (l0 l : Link) (es : List (Bool × PortAct)) (h0 : Fresh l0)
    (h : Link.run steps l0 es = .ok l) (w : Credit) (hf : (counters l0.b.fc w).rxInit ≠ 0) (hi : l.a.fc.fi2 = true)
    (hn : nextUpdate l.b.fc w.1 ≠ 0) (hu : ∀ d ∈ dllps l.ba, d.type ≠ updType w.1)
    (hq : l.a.txq = []) (ht : tlps l.ab = []) (hr : l.b.fc.dict = []) :
    (counters l.a.fc w).txAvail = (counters l0.b.fc w).rxInit := by
  have := C22_conserved steps l0 l es h0 h w hf hi hn hu
  rw [hq, ht, hr] at this
  simpa [units, held] using this

/-- A history at whose end the hypotheses of `C22_all_back` hold, after a TLP has been sent and released. -/
def exReleased : List (Bool × PortAct) :=
  exInit ++ [(true, .send exTlp), (true, .transmit 3), (false, .recv), (false, .release 0), (false, .release 0), (false, .fcTimeout),
    (false, .transmit 5), (true, .recv)]
example : (Link.run 10 exFresh exReleased).toOption.map (fun (l : Link) => decide (l.a.fc.fi2 = true ∧ nextUpdate l.b.fc .P ≠ 0 ∧
    (∀ d ∈ dllps l.ba, d.type ≠ updType .P) ∧ l.a.txq = [] ∧ tlps l.ab = [] ∧ l.b.fc.dict = [] ∧ l.b.delivered.length = 1 ∧
    (counters l.a.fc (.P, true)).txAvail = 8)) = some true := by decide +kernel

/-- C22: releasing a TLP a second time changes nothing. -/
theorem C22_release_once (steps : Nat) (l : Link) (h : Reach steps l) (token : Nat) :
    (l.b.release token).release token = l.b.release token := by
  have hn := h.inv.da.tokn
  simp only [Port.rxv, FcCh.rxv] at hn
  have key : (l.b.release token).fc.dict.any (·.1 = token) = false := by
    unfold Port.release
    split
    · unfold FcCh.releaseToken
      split
      · next tok ty dc hf =>
        simp only
        rw [(FcCh.rxRelease_dict _ _ _).1]
        have hm := List.mem_of_find?_eq_some hf
        have ht : tok = token := by simpa using List.find?_some hf
        have hnd : l.b.fc.dict.Nodup := List.Nodup.of_map _ hn
        rw [List.any_eq_false]
        intro e he
        have he' := (hnd.mem_erase_iff).1 he
        simp only [decide_eq_true_eq]
        intro q
        apply he'.1
        exact List.inj_on_of_nodup_map hn he'.2 hm (by rw [q, ← ht])
      · next hf =>
        simp only
        rw [List.any_eq_false]
        intro e he
        exact List.find?_eq_none.1 hf e he
    · next hf => exact Bool.eq_false_iff.2 hf
  generalize l.b.release token = q at key ⊢
  unfold Port.release
  rw [if_neg (by rw [key]; simp)]

/-- C22: releasing a TLP gives back exactly its credits: one header credit of its type, and its data credits. -/
theorem C22_release_amount (steps : Nat) (l : Link) (h : Reach steps l) (e : Nat × FcType × Nat) (he : e ∈ l.b.fc.dict)
    (w : Credit) (hf : (counters l.b.fc w).rxInit ≠ 0) :
    (counters (l.b.release e.1).fc w).rxAlloc = ((counters l.b.fc w).rxAlloc + costOf w e.2.1 e.2.2) % 2 ^ (if w.2 then 16 else 12) := by
  have hn := h.inv.da.tokn
  simp only [Port.rxv, FcCh.rxv] at hn
  have hb : (counters l.b.fc w).bits = bitsOf w := (h.inv.da.fc w).rb
  have hal := (h.inv.da.fc w).al
  rw [if_neg (by exact hf)] at hal
  have hany : l.b.fc.dict.any (·.1 = e.1) = true := by
    rw [List.any_eq_true]; exact ⟨e, he, by simp⟩
  unfold Port.release
  rw [if_pos hany]
  unfold FcCh.releaseToken
  split
  · next tok ty dc hfd =>
    have hm := List.mem_of_find?_eq_some hfd
    have ht : tok = e.1 := by simpa using List.find?_some hfd
    have hee : (tok, ty, dc) = e := List.inj_on_of_nodup_map hn hm he ht
    subst hee
    simp only
    rw [FcCh.counters_rxRelease]
    have hc : ∀ dd, counters { l.b.fc with dict := dd } w = counters l.b.fc w := by
      intro dd; obtain ⟨a, b⟩ := w; cases a <;> cases b <;> rfl
    rw [hc]
    unfold costOf
    split
    · unfold FcState.rxRelease FcState.rxInfinite
      rw [if_neg (by simpa using hf), hb]; rfl
    · have : (counters l.b.fc w).rxAlloc = _ := hal
      rw [this, Nat.add_zero]
      unfold bitsOf
      exact (Nat.mod_mod _ _).symm
  · next hfd =>
    have := List.find?_eq_none.1 hfd e he
    simp at this

example : (Link.run 10 exFresh (exReleased.take 19)).toOption.map (fun l => l.b.fc.dict) = some [(0, .P, 2)] := by decide +kernel

/-! ### C23 -/

/-- C23: a port that reports initialised has exactly the credits that its partner advertised at reset, for all six kinds. -/
theorem C23_credits (steps : Nat) (l0 l : Link) (es : List (Bool × PortAct)) (h0 : Fresh l0)
    (h : Link.run steps l0 es = .ok l) (hi : l.a.fc.fi2 = true) (w : Credit) :
    (counters l.a.fc w).txInit = (counters l0.b.fc w).rxInit := by
  have hI := Reach.inv ⟨l0, es, h0, h⟩
  have hadv : (l.b.rxv.fc.rx w).init = (counters l0.b.fc w).rxInit := congrFun (Link.run_adv h).2 w
  exact ((hI.da.fc w).cp (hI.da.fi1c (hI.da.fi21 hi) w.1)).trans hadv

/-- C23: until the first TLP is sent the credit limit is exactly what the partner advertised, with nothing consumed: updates do
not disturb it. -/
theorem C23_limit (steps : Nat) (l0 l : Link) (es : List (Bool × PortAct)) (h0 : Fresh l0)
    (h : Link.run steps l0 es = .ok l) (hi : l.a.fc.fi2 = true) (ha : l.a.accepted = []) (w : Credit)
    (hf : (counters l0.b.fc w).rxInit ≠ 0) :
    (counters l.a.fc w).txLimit = (counters l0.b.fc w).rxInit ∧ (counters l.a.fc w).txAvail = (counters l0.b.fc w).rxInit := by
  have hI := Reach.inv ⟨l0, es, h0, h⟩
  have hadv : (l.b.rxv.fc.rx w).init = (counters l0.b.fc w).rxInit := congrFun (Link.run_adv h).2 w
  have hw := hI.da.fc w
  have hdu := hI.da.del_units w
  have hcap := hI.da.fi1c (hI.da.fi21 hi) w.1
  obtain ⟨L, e1, e2, e3, e4⟩ := hw.avail (by rw [hadv]; exact hf) hcap (by omega)
  have hle := e4.le
  have hri := hw.ri
  have hb : 2 ^ (bitsOf w - 1) ≤ 2 ^ bitsOf w := Nat.pow_le_pow_right (by decide) (Nat.sub_le _ _)
  have ha' : l.a.txv.accepted = [] := ha
  rw [ha'] at e1 hdu
  simp only [units_nil] at e1 hdu
  have hde : units w l.b.rxv.delivered = 0 := by omega
  rw [hde] at hle
  have hL : L = (counters l0.b.fc w).rxInit := by omega
  have hti : (counters l.a.fc w).txInfinite = false := by
    unfold FcState.txInfinite
    rw [C23_credits steps l0 l es h0 h hi w]; simpa using hf
  constructor
  · have : (counters l.a.fc w).txLimit = L % 2 ^ bitsOf w := e2
    rw [this, Nat.mod_eq_of_lt (by omega), hL]
  · unfold FcState.txAvail
    rw [hti]
    simp only [Bool.false_eq_true, if_false]
    have e1' : 0 + FcState.subMask (counters l.a.fc w).bits (counters l.a.fc w).txLimit (counters l.a.fc w).txConsumed = L := e1
    omega

/-- C23: no port can get stuck. From every reachable state some continuation completes the initialisation of both ports
(and by `C21_no_error` no continuation can fail). -/
theorem C23_not_stuck (steps : Nat) (l : Link) (h : Reach steps l) :
    ∃ es l', Link.run steps l es = .ok l' ∧ l'.a.fc.fi2 = true ∧ l'.b.fc.fi2 = true := by
  obtain ⟨es1, l1, e1, hb1⟩ := reach_fi1 h
  have h1 := h.run e1
  obtain ⟨es2, l2, e2, ha2⟩ := reach_swap (P := fun p => p.fc.fi1 = true) (reach_fi1 h1.swap)
  have h2 := h1.run e2
  have hb2 := (h1.inv.run_flags e2).2.1.fi1 hb1
  obtain ⟨es3, l3, e3, hb3⟩ := reach_fi2 h2 ha2 hb2
  have h3 := h2.run e3
  have f3 := h2.inv.run_flags e3
  obtain ⟨es4, l4, e4, ha4⟩ := reach_swap (P := fun p => p.fc.fi2 = true) (reach_fi2 h3.swap (f3.2.1.fi1 hb2) (f3.1.fi1 ha2))
  refine ⟨es1 ++ (es2 ++ (es3 ++ es4)), l4, ?_, ha4, (h3.inv.run_flags e4).2.1.fi2 hb3⟩
  rw [Link.run_append e1, Link.run_append e2, Link.run_append e3]; exact e4

/-- C23: a port stops sending InitFC only when its partner no longer needs it: the partner is initialised, or the DLLP that
completes its initialisation is on the way and the partner is in the state to take it. -/
theorem C23_finish_together (steps : Nat) (l : Link) (h : Reach steps l) (hi : l.a.fcInitialized = true) :
    l.b.fc.fi2 = true ∨ (l.b.fc.fi1 = true ∧ ∃ d ∈ dllps l.ab, ∃ ty, d.type = init2Type ty ∨ d.type = updType ty) := by
  rcases h.inv.fa.f4 hi with q | q
  · exact .inl q
  · exact .inr ⟨h.inv.fa.f2 (h.inv.fa.f3 hi), q⟩

example : (Link.run 10 exFresh exInit).toOption.map (fun l => (l.a.fc.fi2, l.b.fc.fi2, l.a.accepted.length)) = some (true, true, 0) := by
  decide +kernel

/-! ### C24 -/

theorem content_copy (t : Tlp) (n : Nat) : content ({ t with seq := n } : Tlp).copy = content t := rfl

/-- C24: whatever the interleaving, the TLPs received are the TLPs sent, each once and in order, and none is lost: the others are
on the way or waiting in the sender. Partial: the content is compared without the `th` bit, which is lost (`C24_th_violated`). -/
theorem C24_in_order_partial (steps : Nat) (l : Link) (h : Reach steps l) :
    (l.b.delivered ++ tlps l.ab ++ l.a.txq).map content = l.a.accepted.map content := by
  obtain ⟨S, i, k, hs⟩ := h.inv.da.seq
  have h1 := hs.acc
  have h2 := hs.de
  have h3 := hs.fl
  simp only [Port.txv, Port.rxv] at h1 h2
  have hnum : (numbered S).map content = S.map content := by
    apply List.ext_getElem
    · simp [numbered]
    · intro n h1 h2
      simp only [List.getElem_map, numbered_getElem]
      rfl
  have hcc : ((numbered S).take i).map (content ∘ Tlp.copy) = ((numbered S).take i).map content := by
    apply List.map_congr_left; intro t _; rfl
  rw [h1, h2, h3, List.map_append, List.map_append, List.map_append, List.map_map, hcc, ← List.map_append,
    List.take_append_drop, hnum]

/-- C24: if no TLP sent has the `th` bit set, the TLPs received are exactly the TLPs sent (apart from the sequence number that
the sender assigns, which counts the TLPs modulo 4096). -/
theorem C24_in_order (steps : Nat) (l : Link) (h : Reach steps l) (hth : ∀ t ∈ l.a.accepted, t.th = false) :
    l.b.delivered = numbered (l.a.accepted.take l.b.delivered.length) := by
  obtain ⟨S, i, k, hs⟩ := h.inv.da.seq
  have h1 := hs.acc
  have h2 := hs.de
  have hil := hs.il
  simp only [Port.txv, Port.rxv] at h1 h2
  have hlen : l.b.delivered.length = i := by rw [h2, List.length_map, List.length_take, numbered_length]; omega
  have hta : l.a.accepted.take i = S.take i := by rw [h1, List.take_append_of_le_length hil]
  rw [hlen, hta]
  apply List.ext_getElem
  · rw [hlen, numbered_length, List.length_take]; omega
  · intro n h3 h4
    have hn : n < i := by omega
    have e : l.b.delivered[n] = ((numbered S)[n]'(by rw [numbered_length]; omega)).copy := by
      simp only [h2, List.getElem_map, List.getElem_take]
    rw [e, numbered_getElem, numbered_getElem]
    simp only [List.getElem_take]
    have hmem : S[n]'(by omega) ∈ l.a.accepted := by rw [h1]; exact List.mem_append_left _ (List.getElem_mem _)
    have := hth _ hmem
    unfold Tlp.copy
    simp only [this]

/-- C24: the sender and the receiver agree on the sequence numbers, so that no TLP is ever taken for a duplicate or for out of
sequence, and no NAK is ever sent. -/
theorem C24_no_nak (steps : Nat) (l : Link) (h : Reach steps l) :
    l.b.nak = false ∧ (∀ d ∈ dllps l.ba, d.type ≠ Dllp.NAK) ∧
    l.b.nextRx = l.b.delivered.length % 4096 ∧ (∀ t, (tlps l.ab).head? = some t → t.seq = l.b.nextRx) := by
  obtain ⟨S, i, k, hs⟩ := h.inv.da.seq
  have hil := hs.il
  have h2 := hs.de
  have h3 := hs.nrx
  simp only [Port.rxv] at h2 h3
  have hlen : l.b.delivered.length = i := by rw [h2, List.length_map, List.length_take, numbered_length]; omega
  refine ⟨hs.nak, fun d hd => ?_, by rw [hlen]; exact h3, fun t ht => ?_⟩
  · rcases h.inv.da.types d hd with q | ⟨ty, q | q | q⟩ <;> rw [q]
    · decide
    all_goals cases ty <;> decide
  · rw [hs.fl, List.head?_drop] at ht
    obtain ⟨hlt, he⟩ := List.getElem?_eq_some_iff.1 ht
    rw [← he, numbered_getElem, h3]

/-- C24 is violated for the `th` bit: a TLP with TLP processing hints is delivered without them. -/
theorem C24_th_violated : ∃ l, Reach 10 l ∧ l.a.accepted = [exTlp] ∧ exTlp.th = true ∧ l.b.delivered.map (·.th) = [false] := by
  have key : (Link.run 10 exFresh (exReleased.take 19)).toOption.map
      (fun l => decide (l.a.accepted = [exTlp] ∧ exTlp.th = true ∧ l.b.delivered.map (·.th) = [false])) = some true := by
    decide +kernel
  cases e : Link.run 10 exFresh (exReleased.take 19) with
  | error x => rw [e] at key; cases key
  | ok l =>
    rw [e] at key
    simp only [Except.toOption, Option.map_some, Option.some.injEq, decide_eq_true_eq] at key
    exact ⟨l, ⟨exFresh, _, exFresh_fresh, e⟩, key⟩

example : (Link.run 10 exFresh exHistory).toOption.map (fun l => (l.b.delivered.length, (tlps l.ab).length, l.a.txq.length)) = some (1, 1, 0) := by
  decide +kernel

/-! ### C25 -/

/-- C25: the retry buffer always holds the TLPs transmitted (with their sequence numbers) except the first `k`, and those `k` have
been received. This needs no bound on the number of TLPs outstanding. -/
theorem C25_retry_buffer (steps : Nat) (l : Link) (h : Reach steps l) :
    ∃ sent k, l.a.accepted = sent ++ l.a.txq ∧ k ≤ l.b.delivered.length ∧ l.a.retry = (numbered sent).drop k := by
  obtain ⟨S, i, k, hs⟩ := h.inv.da.seq
  have hil := hs.il
  have h2 := hs.de
  simp only [Port.rxv] at h2
  have hlen : l.b.delivered.length = i := by rw [h2, List.length_map, List.length_take, numbered_length]; omega
  exact ⟨S, k, hs.acc, by rw [hlen]; exact hs.ch.le, hs.rt⟩

/-- C25: with at most 2048 TLPs outstanding, an ACK that arrives carries the number of a TLP that has been received, and the
retry buffer then holds exactly the TLPs after it. -/
theorem C25_ack_exact (steps : Nat) (l : Link) (h : ReachBounded steps l) (d : Dllp) (rest : List Pkt)
    (hb : l.ba = .dllp d :: rest) (hd : d.type = Dllp.ACK) :
    ∃ l' sent k V, l.step steps (true, .recv) = .ok l' ∧ l.a.accepted = sent ++ l.a.txq ∧ k ≤ V ∧ V ≤ l.b.delivered.length ∧
      d.seq = (V + 4095) % 4096 ∧ l.a.retry = (numbered sent).drop k ∧ l'.a.retry = (numbered sent).drop V := by
  obtain ⟨hi, ha, -⟩ := h.inv
  have hda := hi.da
  rw [hb, dllps_dllp] at hda
  obtain ⟨p', e, -, -, hx⟩ := hda.recvAck (fun _ => ha) hd
  obtain ⟨S, k, V, x1, x2, x3, x4, x5, x6⟩ := hx ha
  refine ⟨{ l with a := p', ba := rest }, S, k, V, ?_, x1, x3, x2, x4, x5, x6⟩
  unfold Link.step Link.stepA
  simp only [if_true, hb]
  rw [show l.a.recv (.dllp d) = .ok p' from e]

/-- C25: with at most 2048 TLPs outstanding, once every TLP sent has been received and acknowledged and the ACKs have arrived the
retry buffer is empty. -/
theorem C25_all_acked (steps : Nat) (l : Link) (h : ReachBounded steps l) (h1 : tlps l.ab = []) (h2 : l.b.sendAck = false)
    (h3 : l.b.ackTimer = false) (h4 : ∀ d ∈ dllps l.ba, d.type ≠ Dllp.ACK) : l.a.retry = [] := by
  obtain ⟨hi, -, -⟩ := h.inv
  obtain ⟨S, i, k, hs⟩ := hi.da.seq
  have hac : acks (dllps l.ba) = [] := by
    unfold acks
    rw [List.filter_eq_nil_iff.2 (fun d hd => by simpa using h4 d hd)]; rfl
  have hch := hs.ch
  rw [hac] at hch
  have hk := hch.2 ⟨trivial, h2, h3⟩
  have hrt := hs.rt
  have hfl := hs.fl
  simp only [Port.txv] at hrt
  rw [hrt, hk, ← hfl, h1]

/-- C25: a duplicate or stale ACK - one whose number is not after the last acknowledged one, within half of the number space -
changes nothing, whatever the state of the port. -/
theorem C25_stale (p : Port) (d : Dllp) (hd : d.type = Dllp.ACK) (hseq : d.seq < 4096) (hackd : p.ackd < 4096)
    (hs : (p.ackd + 4096 - d.seq) % 4096 < 2048) : p.handleDllp d = .ok p := by
  unfold Port.handleDllp
  rw [if_neg (by rw [hd]; decide), if_pos (.inl hd)]
  split
  · rfl
  · by_cases he : d.seq = p.ackd
    · have h0 : FcState.subMask 12 d.seq p.ackd = 0 := by rw [he]; unfold FcState.subMask; simp
      rw [if_neg (by omega)]
      have : Port.purge d.seq 4096 p = .ok p := by
        rw [he]; unfold Port.purge; rw [if_neg (by simp)]
      rw [this]
      simp only
      rw [if_neg (by rw [hd]; decide)]
    · rw [if_pos]
      unfold FcState.subMask
      omega

/-- The retry buffer when the ACK of `exHistory` arrives: one of two TLPs is purged. -/
example : (Link.run 10 exFresh exHistory).toOption.map (fun l => ((dllps l.ba).map (·.type), l.a.retry.length)) =
    some ([Dllp.UPDATE_FC_P, Dllp.ACK], 2) := by decide +kernel
example : (Link.run 10 exFresh (exHistory ++ [(true, .recv), (true, .recv)])).toOption.map (fun l => l.a.retry.map (·.seq)) = some [1] := by
  decide +kernel

end Pcie
