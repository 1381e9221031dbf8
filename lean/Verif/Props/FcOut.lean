import Verif.Spec.FcOut
import Verif.Props.Link
/-
C65: the ports of the hard IP models that show flow control credits.
-/
namespace Pcie
open Spec

theorem mask_mod (a : Nat) : a &&& 0xff = a % 2 ^ 8 ∧ a &&& 0xfff = a % 2 ^ 12 ∧ a &&& 0xffff = a % 2 ^ 16 :=
  ⟨Nat.and_two_pow_sub_one_eq_mod a 8, Nat.and_two_pow_sub_one_eq_mod a 12, Nat.and_two_pow_sub_one_eq_mod a 16⟩

theorem shown_of (c : FcCh) (g : FcState → Nat) (w : Credit) : fcShown (.of c g) w = g (counters c w) % 2 ^ outBits w := by
  obtain ⟨ty, d⟩ := w
  cases ty <;> cases d <;> simp [fcShown, FcOut.of, counters, outBits, (mask_mod _).1, (mask_mod _).2.1]

/-- The credits available to the sender, and what it has consumed. -/
theorem link_avail {steps : Nat} {l0 l : Link} {es : List (Bool × PortAct)} (h0 : Fresh l0) (h : Link.run steps l0 es = .ok l) (w : Credit)
    (hf : (counters l0.b.fc w).rxInit ≠ 0) (hi : l.a.fc.fi2 = true) :
    (counters l.a.fc w).txAvail ≤ (counters l0.b.fc w).rxInit ∧ (counters l.a.fc w).txLimit = (units w l.a.accepted + (counters l.a.fc w).txAvail) % 2 ^ linkBits w ∧
      (counters l.a.fc w).txConsumed = units w l.a.accepted % 2 ^ linkBits w := by
  have hI := Reach.inv ⟨l0, es, h0, h⟩
  have hadv : (l.b.rxv.fc.rx w).init = (counters l0.b.fc w).rxInit := congrFun (Link.run_adv h).2 w
  have hw := hI.da.fc w
  have hdu := hI.da.del_units w
  have hcap := hI.da.fi1c (hI.da.fi21 hi) w.1
  obtain ⟨L, e1, e2, e3, e4⟩ := hw.avail (by rw [hadv]; exact hf) hcap (by omega)
  have hle := e4.le
  have hhd := hw.hd
  have hti : (counters l.a.fc w).txInfinite = false := by
    have := hw.cp hcap
    unfold FcState.txInfinite
    have e : (counters l.a.fc w).txInit = (l.b.rxv.fc.rx w).init := this
    rw [e, hadv]; simpa using hf
  have hav : (counters l.a.fc w).txAvail = FcState.subMask (l.a.txv.fc.tx w).bits (l.a.txv.fc.tx w).limit (l.a.txv.fc.tx w).consumed := by
    unfold FcState.txAvail; rw [hti]; rfl
  have hco := hw.co
  rw [if_neg (by rw [hadv]; exact hf)] at hco
  rw [hadv] at hle
  rw [← hav] at e1
  refine ⟨?_, ?_, hco⟩
  · simp only [Port.txv, Port.rxv, FcCh.rxv] at e1 hle hhd hdu
    omega
  · show (l.a.txv.fc.tx w).limit = _
    rw [e2, ← e1]; rfl

/-! ### Transmit credits -/

/-- C65: UltraScale and UltraScale+ never show more credits as available than there are. -/
theorem C65_us_safe (c : FcCh) (w : Credit) : fcShown (usFcOut c 0b100) w ≤ (counters c w).txAvail ∧ ∃ o, uspFcOut c 0b100 = .ok o ∧ fcShown o w ≤ (counters c w).txAvail := by
  have h : fcShown (.of c (·.txAvail)) w ≤ (counters c w).txAvail := by rw [shown_of]; exact Nat.mod_le _ _
  exact ⟨h, _, rfl, h⟩

/-- C65: Stratix 10 never shows more credits as available than there are. -/
theorem C65_s10_safe (ltile : Bool) (c : FcCh) (w : Credit) (v : Nat) (h : (s10Signal w, v) ∈ s10TxCdts ltile c) : v ≤ (counters c w).txAvail := by
  obtain ⟨ty, d⟩ := w
  have hm : ∀ a : Nat, a &&& 0xff ≤ a ∧ a &&& 0xfff ≤ a := fun a => ⟨Nat.and_le_left, Nat.and_le_left⟩
  cases ltile <;> cases ty <;> cases d <;> simp [s10Signal, s10TxCdts] at h <;> subst h <;> simp only [counters, hm]

/-- C65: so a user who sees enough credits can send without waiting. -/
theorem C65_send (l : Link) (hi : l.a.fc.fi2 = true) (t : Tlp) (ty : FcType) (ht : t.fcType = some ty) (hh : 0 < fcShown (usFcOut l.a.fc 0b100) (ty, false))
    (hd : t.dataCredits ≤ fcShown (usFcOut l.a.fc 0b100) (ty, true)) : (l.a.send t).isSome := by
  have h1 := (C65_us_safe l.a.fc (ty, false)).1
  have h2 := (C65_us_safe l.a.fc (ty, true)).1
  have hc : l.a.fc.txHasCredit ty t.dataCredits = true := by
    cases ty <;> simp only [FcCh.txHasCredit, counters] at h1 h2 ⊢ <;> simp <;> omega
  unfold Port.send
  rw [ht]
  simp [hi, hc]

/-- C65 (part): in every state of a link after initialisation, UltraScale and UltraScale+ show exactly the credits available, if the partner advertised no more than the outputs can show:
fewer than 256 header and 4096 data credits. Missing: partners that advertise more (`C65_wrap_violated`). -/
theorem C65_us_exact_partial (steps : Nat) (l0 l : Link) (es : List (Bool × PortAct)) (h0 : Fresh l0) (h : Link.run steps l0 es = .ok l) (w : Credit)
    (hf : (counters l0.b.fc w).rxInit ≠ 0) (hi : l.a.fc.fi2 = true) (hs : (counters l0.b.fc w).rxInit < 2 ^ outBits w) :
    fcShown (usFcOut l.a.fc 0b100) w = (counters l.a.fc w).txAvail ∧ ∃ o, uspFcOut l.a.fc 0b100 = .ok o ∧ fcShown o w = (counters l.a.fc w).txAvail := by
  have h1 := (link_avail h0 h w hf hi).1
  have h2 : fcShown (.of l.a.fc (·.txAvail)) w = (counters l.a.fc w).txAvail := by rw [shown_of, Nat.mod_eq_of_lt (by omega)]
  exact ⟨h2, _, rfl, h2⟩

/-- C65 (part), likewise for Stratix 10; H-Tile has no outputs for the data of non-posted requests and completions. -/
theorem C65_s10_exact_partial (steps : Nat) (l0 l : Link) (es : List (Bool × PortAct)) (h0 : Fresh l0) (h : Link.run steps l0 es = .ok l) (w : Credit)
    (hf : (counters l0.b.fc w).rxInit ≠ 0) (hi : l.a.fc.fi2 = true) (hs : (counters l0.b.fc w).rxInit < 2 ^ outBits w) (ltile : Bool) (ht : ltile = true ∨ w.2 = false ∨ w.1 = .P) :
    (s10TxCdts ltile l.a.fc).lookup (s10Signal w) = some (counters l.a.fc w).txAvail := by
  have h1 := (link_avail h0 h w hf hi).1
  have h2 : (counters l.a.fc w).txAvail % 2 ^ outBits w = (counters l.a.fc w).txAvail := Nat.mod_eq_of_lt (by omega)
  obtain ⟨ty, d⟩ := w
  cases ltile <;> cases ty <;> cases d <;> first | exact absurd ht (by decide) | (simp only [counters, outBits] at h2; simp [s10Signal, s10TxCdts, counters, (mask_mod _).1, (mask_mod _).2.1, List.lookup]; simpa using h2)

/-- C65: when the partner advertised infinite credits the outputs show all ones. -/
theorem C65_infinite (steps : Nat) (l0 l : Link) (es : List (Bool × PortAct)) (h0 : Fresh l0) (h : Link.run steps l0 es = .ok l) (w : Credit)
    (hf : (counters l0.b.fc w).rxInit = 0) (hi : l.a.fc.fi2 = true) : fcShown (usFcOut l.a.fc 0b100) w = 2 ^ outBits w - 1 := by
  have hI := Reach.inv ⟨l0, es, h0, h⟩
  have hadv : (l.b.rxv.fc.rx w).init = (counters l0.b.fc w).rxInit := congrFun (Link.run_adv h).2 w
  have hw := hI.da.fc w
  have hcap := hI.da.fi1c (hI.da.fi21 hi) w.1
  have hti : (counters l.a.fc w).txInfinite = true := by
    have := hw.cp hcap
    unfold FcState.txInfinite
    have e : (counters l.a.fc w).txInit = (l.b.rxv.fc.rx w).init := this
    rw [e, hadv, hf]; rfl
  have hb : (counters l.a.fc w).bits = linkBits w := hw.tb
  show fcShown (.of l.a.fc (·.txAvail)) w = _
  rw [shown_of]
  unfold FcState.txAvail
  rw [hti, hb]
  obtain ⟨ty, d⟩ := w
  cases d <;> simp [outBits, linkBits]

/-- C65: the credits consumed that are shown are those of the TLPs that the port has accepted, and the limit shown is greater by the credits available, modulo the width of the output. -/
theorem C65_us_limit (steps : Nat) (l0 l : Link) (es : List (Bool × PortAct)) (h0 : Fresh l0) (h : Link.run steps l0 es = .ok l) (w : Credit)
    (hf : (counters l0.b.fc w).rxInit ≠ 0) (hi : l.a.fc.fi2 = true) :
    (fcShown (usFcOut l.a.fc 0b110) w = units w l.a.accepted % 2 ^ outBits w ∧
      fcShown (usFcOut l.a.fc 0b101) w = (units w l.a.accepted + (counters l.a.fc w).txAvail) % 2 ^ outBits w) ∧
    uspFcOut l.a.fc 0b110 = .ok (usFcOut l.a.fc 0b110) ∧ uspFcOut l.a.fc 0b101 = .ok (usFcOut l.a.fc 0b101) := by
  obtain ⟨_, h2, h3⟩ := link_avail h0 h w hf hi
  have hd : (2 ^ outBits w) ∣ 2 ^ linkBits w := Nat.pow_dvd_pow 2 (by unfold outBits linkBits; cases w.2 <;> decide)
  refine ⟨⟨?_, ?_⟩, rfl, rfl⟩
  · show fcShown (.of l.a.fc (·.txConsumed)) w = _
    rw [shown_of, h3, Nat.mod_mod_of_dvd _ hd]
  · show fcShown (.of l.a.fc (·.txLimit)) w = _
    rw [shown_of, h2, Nat.mod_mod_of_dvd _ hd]

/-- C65: P-Tile shows the limits in turn; the credits available are the difference to the credits of the TLPs sent, with the width of the counters on the link. -/
theorem C65_ptile (steps : Nat) (l0 l : Link) (es : List (Bool × PortAct)) (h0 : Fresh l0) (h : Link.run steps l0 es = .ok l) (n : Nat) (w : Credit)
    (hf : (counters l0.b.fc w).rxInit ≠ 0) (hi : l.a.fc.fi2 = true) (v : Nat) (hv : ptileCdts n l.a.fc = (v, ptileIdx w)) :
    v = (units w l.a.accepted + (counters l.a.fc w).txAvail) % 2 ^ linkBits w := by
  obtain ⟨_, h2, _⟩ := link_avail h0 h w hf hi
  have key : v = (counters l.a.fc w).txLimit % 2 ^ linkBits w := by
    obtain ⟨ty, d⟩ := w
    unfold ptileCdts at hv
    cases ty <;> cases d <;> (repeat' split at hv) <;> simp [ptileIdx] at hv <;> simp [counters, linkBits, ← hv, (mask_mod _).2.1, (mask_mod _).2.2]
  rw [key, h2, Nat.mod_mod]

/-- C65: P-Tile shows each limit once in every six clock cycles. -/
theorem C65_ptile_turns (n : Nat) (w : Credit) (c : Nat → FcCh) : ∃ k, k < 6 ∧ (ptileCdts (n + k) (c (n + k))).2 = ptileIdx w ∧
    ∀ j, j < 6 → (ptileCdts (n + j) (c (n + j))).2 = ptileIdx w → j = k := by
  have hp : ∀ m, (ptileCdts m (c m)).2 = if m % 6 < 3 then m % 6 else m % 6 + 1 := by
    intro m
    have : m % 6 < 6 := Nat.mod_lt _ (by decide)
    unfold ptileCdts
    (repeat' split) <;> simp only <;> omega
  have hx : ∃ r, r < 6 ∧ ptileIdx w = if r < 3 then r else r + 1 := by
    obtain ⟨ty, d⟩ := w
    cases ty <;> cases d
    exacts [⟨0, by decide, rfl⟩, ⟨3, by decide, rfl⟩, ⟨1, by decide, rfl⟩, ⟨4, by decide, rfl⟩, ⟨2, by decide, rfl⟩, ⟨5, by decide, rfl⟩]
  obtain ⟨r, hr, e⟩ := hx
  refine ⟨(r + 6 - n % 6) % 6, Nat.mod_lt _ (by decide), ?_, fun j hj he => ?_⟩
  · rw [hp, e]
    have : (n + (r + 6 - n % 6) % 6) % 6 = r := by omega
    rw [this]
  · rw [hp, e] at he
    have : (n + j) % 6 = r := by
      split at he <;> split at he <;> omega
    omega

/-! ### Receive credits -/

/-- C65: UltraScale shows the credits of the TLPs received, and those granted so far: what was advertised at reset and what was released; the difference is what was advertised less what is
still held. -/
theorem C65_us_receive (steps : Nat) (l0 l : Link) (es : List (Bool × PortAct)) (h0 : Fresh l0) (h : Link.run steps l0 es = .ok l) (w : Credit)
    (hf : (counters l0.a.fc w).rxInit ≠ 0) :
    ∃ received, units w l.b.accepted = received + units w (tlps l.ba) + units w l.b.txq ∧ held w l.a.fc.dict ≤ received ∧
      fcShown (usFcOut l.a.fc 0b010) w = received % 2 ^ outBits w ∧
      fcShown (usFcOut l.a.fc 0b001) w = ((counters l0.a.fc w).rxInit + (received - held w l.a.fc.dict)) % 2 ^ outBits w ∧
      fcShown (usFcOut l.a.fc 0b000) w = ((counters l0.a.fc w).rxInit - held w l.a.fc.dict) % 2 ^ outBits w := by
  have hI := Reach.inv ⟨l0, es, h0, h⟩
  have hadv : (l.a.rxv.fc.rx w).init = (counters l0.a.fc w).rxInit := congrFun (Link.run_adv h).1 w
  have hw := hI.db.fc w
  have hdu := hI.db.del_units w
  have hal := hw.al
  have hrc := hw.rc
  have hri := hw.ri
  rw [if_neg (by rw [hadv]; exact hf)] at hal hrc
  have hd : (2 ^ outBits w) ∣ 2 ^ linkBits w := Nat.pow_dvd_pow 2 (by unfold outBits linkBits; cases w.2 <;> decide)
  have hbo : bitsOf w = linkBits w := rfl
  rw [hadv] at hal
  have hhd : held w l.a.fc.dict ≤ units w l.a.rxv.delivered := hw.hd
  have hle : held w l.a.fc.dict ≤ (counters l0.a.fc w).rxInit := by
    have hs := C21_never_overrun steps l0.swap l.swap _ ⟨h0.2.1, h0.1, h0.2.2.2, h0.2.2.1⟩ (Link.run_swap _ _ _ _ h) w hf
    have : held w l.swap.b.fc.dict = held w l.a.fc.dict := rfl
    have : (counters l0.swap.b.fc w).rxInit = (counters l0.a.fc w).rxInit := rfl
    omega
  refine ⟨units w l.a.rxv.delivered, hdu, hhd, ?_, ?_, ?_⟩
  · show fcShown (.of l.a.fc (·.rxRecv)) w = _
    rw [shown_of, show (counters l.a.fc w).rxRecv = _ from hrc, hbo, Nat.mod_mod_of_dvd _ hd]
  · show fcShown (.of l.a.fc (·.rxAlloc)) w = _
    rw [shown_of, show (counters l.a.fc w).rxAlloc = _ from hal, hbo, Nat.mod_mod_of_dvd _ hd]; rfl
  · show fcShown (.of l.a.fc (·.rxAvail)) w = _
    rw [shown_of]
    have hti : (counters l.a.fc w).rxInfinite = false := by
      unfold FcState.rxInfinite
      have e : (counters l.a.fc w).rxInit = (l.a.rxv.fc.rx w).init := rfl
      rw [e, hadv]; simpa using hf
    unfold FcState.rxAvail
    rw [hti, show (counters l.a.fc w).rxAlloc = _ from hal, show (counters l.a.fc w).rxRecv = _ from hrc, show (counters l.a.fc w).bits = bitsOf w from hw.rb]
    have hx : held w l.a.rxv.fc.dict = held w l.a.fc.dict := rfl
    rw [if_neg (by decide), hx, subMask_mod _ _ _ (by omega), hbo, Nat.mod_mod_of_dvd _ hd]
    congr 1
    omega

/-- C65: where the device advertises infinite credits, UltraScale shows as much receive space as the output can show. -/
theorem C65_us_receive_infinite (steps : Nat) (l0 l : Link) (es : List (Bool × PortAct)) (h0 : Fresh l0) (h : Link.run steps l0 es = .ok l) (w : Credit)
    (hf : (counters l0.a.fc w).rxInit = 0) : fcShown (usFcOut l.a.fc 0b000) w = 2 ^ outBits w - 1 := by
  have hI := Reach.inv ⟨l0, es, h0, h⟩
  have hadv : (l.a.rxv.fc.rx w).init = (counters l0.a.fc w).rxInit := congrFun (Link.run_adv h).1 w
  have hw := hI.db.fc w
  have hti : (counters l.a.fc w).rxInfinite = true := by
    unfold FcState.rxInfinite
    have e : (counters l.a.fc w).rxInit = (l.a.rxv.fc.rx w).init := rfl
    rw [e, hadv]; simpa using hf
  show fcShown (.of l.a.fc (·.rxAvail)) w = _
  rw [shown_of]
  unfold FcState.rxAvail
  rw [hti, if_pos rfl, show (counters l.a.fc w).bits = bitsOf w from hw.rb]
  clear hti hw hadv hI hf
  obtain ⟨ty, d⟩ := w
  cases d <;> simp [bitsOf, outBits]

/-! ### What fails, and examples -/

/-- A link whose partner `b` advertises 256 posted header credits and 4096 posted data credits. -/
def exWide : Link :=
  match FcCh.new 32 64 16 0 0 0, FcCh.new 256 4096 1 4 0 0 with
  | .ok a, .ok b => { a := { fc := a }, b := { fc := b } }
  | _, _ => {}

theorem exWide_fresh : Fresh exWide := ⟨rfl, rfl, ⟨32, 64, 16, 0, 0, 0, _, rfl, rfl⟩, ⟨256, 4096, 1, 4, 0, 0, _, rfl, rfl⟩⟩

/-- `C65_us_receive_infinite`: completion headers. -/
example : (counters exWide.a.fc (.CPL, false)).rxInit = 0 ∧ (Link.run 10 exWide exInit).toOption.map (fun l => fcShown (usFcOut l.a.fc 0) (.CPL, false)) = some 255 := by decide +kernel

/-- C65 fails if the partner advertises more than the output can show: with 256 header and 4096 data credits available, UltraScale, UltraScale+ and Stratix 10 show none. -/
theorem C65_wrap_violated : Fresh exWide ∧ ∃ l, Link.run 10 exWide exInit = .ok l ∧ l.a.fc.fi2 = true ∧
    ((counters l.a.fc (.P, false)).txAvail, (counters l.a.fc (.P, true)).txAvail) = (256, 4096) ∧
    (fcShown (usFcOut l.a.fc 0b100) (.P, false), fcShown (usFcOut l.a.fc 0b100) (.P, true)) = (0, 0) ∧
    (uspFcOut l.a.fc 0b100).toOption.map (fun o => (fcShown o (.P, false), fcShown o (.P, true))) = some (0, 0) ∧
    ((s10TxCdts true l.a.fc).lookup (s10Signal (.P, false)), (s10TxCdts true l.a.fc).lookup (s10Signal (.P, true))) = (some 0, some 0) := by
  have conv : ∀ (x : Py Link) (q : Link → Prop) [DecidablePred q], (match x with | .ok l => decide (q l) | _ => false) = true → ∃ l, x = .ok l ∧ q l := by
    intro x q _ h
    split at h
    · exact ⟨_, rfl, of_decide_eq_true h⟩
    · cases h
  exact ⟨exWide_fresh, conv _ _ (by decide +kernel)⟩

/-- C65 fails for UltraScale+ and the selection "receive credits consumed": the task raises an exception, whatever the state. -/
theorem C65_usp_receive_violated (c : FcCh) : uspFcOut c 0b010 = .error "AttributeError" := rfl

/-- A read of one dword. -/
def exFcRead : Tlp := { fmt := 0, type := 0, length := 1, address := 0x1000, first_be := 15 }

/-- C65 fails for `pcie_tfc_nph_av`: after the only non-posted header credit has been used it still shows the maximum. -/
theorem C65_tfc_violated : Fresh exFresh ∧ ∃ l, Link.run 10 exFresh (exInit ++ [(true, .send exFcRead)]) = .ok l ∧
    (counters l.a.fc (.NP, false)).txAvail = 0 ∧ (usTfc l.a.fc 2).1 = 3 ∧ (usTfc l.a.fc 4).1 = 15 := by
  have conv : ∀ (x : Py Link) (q : Link → Prop) [DecidablePred q], (match x with | .ok l => decide (q l) | _ => false) = true → ∃ l, x = .ok l ∧ q l := by
    intro x q _ h
    split at h
    · exact ⟨_, rfl, of_decide_eq_true h⟩
    · cases h
  exact ⟨exFresh_fresh, conv _ _ (by decide +kernel)⟩

/-- In the history of C21 after two posted writes: available, limit, consumed; the receive side of the partner. -/
example : (Link.run 10 exFresh (exHistory.take 23)).toOption.map
    (fun l => ((usFcOut l.a.fc 4).ph, (usFcOut l.a.fc 4).pd, (usFcOut l.a.fc 5).pd, (usFcOut l.a.fc 6).pd, ptileCdts 9 l.a.fc)) =
    some (0, 4, 8, 4, (8, 4)) := by decide +kernel
/-- There it releases the first of them. -/
example : (Link.run 10 exFresh exHistory).toOption.map (fun l => ((usFcOut l.b.fc 0).pd, (usFcOut l.b.fc 1).pd, (usFcOut l.b.fc 2).pd)) = some (8, 10, 2) := by decide +kernel

end Pcie
