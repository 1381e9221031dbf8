import Verif.Lemmas.IntelDma
import Verif.Props.UsDma
/-
C74: user logic that reads host memory through the Intel hard IP models gets the bytes of the memory.
-/
namespace Pcie
open Spec IntelHost
variable {F : Type}

private theorem s10_conv (f : S10Frame) (t : Tlp) (bar fn : Nat) (h : S10Carries f t bar fn) : f.toTlp = .ok t := h.tlp
private theorem ptile_conv (f : PTileFrame) (t : Tlp) (bar fn : Nat) (h : PTileCarries f t bar fn) : f.toTlp = .ok t := h.tlp

private theorem inv_user {conv : F → Py Tlp} {p : RxLimits} {ids : List PcieId} {s : IntelDma F} (h : ∃ ts, IntelDma.Inv conv p ids s ts) :
    s.reqs.map (·.req) = s.sent.filter (·.isNonposted) ∧ (s.reqs.Pairwise fun a b => SameTag a.req b.req → a.done = a.ans.length) ∧
    ∃ ts : List Tlp, (forUser s).map conv = ts.map .ok ∧
      ∀ r, ts.filter (fun c => c.isCompletion = true ∧ SameTag r c) = (s.reqs.filter fun q => SameTag r q.req).flatMap fun q => (q.ans.take q.done).map asRead := by
  obtain ⟨ts, hI⟩ := h
  exact ⟨hI.np, hI.ord, ts, hI.frames, hI.user⟩

/-- C74, whatever the order in which requests are made, completions arrive and tasks run: every TLP of the user has been sent as it is, and the frames for the user hold, for each requester ID
and tag, exactly the completions that have arrived, in the order of the requests and of the completions. -/
theorem C74_user_s10 (p : RxLimits) (d : Dev) (es : List (IntelDmaEv S10Frame)) (s : IntelDma S10Frame)
    (hrun : IntelDma.run S10Frame.ofRx S10Frame.toTlp p { dev := { dev := d } } es = some (.ok s))
    (ho : CarefulRun S10Frame.ofRx S10Frame.toTlp p (d.fns.map (·.id)) { dev := { dev := d } } es) :
    s.reqs.map (·.req) = s.sent.filter (·.isNonposted) ∧ (s.reqs.Pairwise fun a b => SameTag a.req b.req → a.done = a.ans.length) ∧
    ∃ ts : List Tlp, (forUser s).map S10Frame.toTlp = ts.map .ok ∧
      ∀ r, ts.filter (fun c => c.isCompletion = true ∧ SameTag r c) = (s.reqs.filter fun q => SameTag r q.req).flatMap fun q => (q.ans.take q.done).map asRead :=
  inv_user (IntelDma.run_inv s10Codec s10_conv IntelDma.s10_asRead es _ s [] (IntelDma.init_inv d) ho hrun).1

/-- C74, likewise for P-Tile. -/
theorem C74_user_ptile (p : RxLimits) (d : Dev) (es : List (IntelDmaEv PTileFrame)) (s : IntelDma PTileFrame)
    (hrun : IntelDma.run PTileFrame.ofRx PTileFrame.toTlp p { dev := { dev := d } } es = some (.ok s))
    (ho : CarefulRun PTileFrame.ofRx PTileFrame.toTlp p (d.fns.map (·.id)) { dev := { dev := d } } es) :
    s.reqs.map (·.req) = s.sent.filter (·.isNonposted) ∧ (s.reqs.Pairwise fun a b => SameTag a.req b.req → a.done = a.ans.length) ∧
    ∃ ts : List Tlp, (forUser s).map PTileFrame.toTlp = ts.map .ok ∧
      ∀ r, ts.filter (fun c => c.isCompletion = true ∧ SameTag r c) = (s.reqs.filter fun q => SameTag r q.req).flatMap fun q => (q.ans.take q.done).map asRead :=
  inv_user (IntelDma.run_inv ptileCodec ptile_conv IntelDma.ptile_asRead es _ s [] (IntelDma.init_inv d) ho hrun).1

private theorem inv_bytes {conv : F → Py Tlp} {p : RxLimits} {ids : List PcieId} {s : IntelDma F} (h : ∃ ts, IntelDma.Inv conv p ids s ts)
    (q : DmaReq) (hq : q ∈ s.reqs) (hd : q.done = q.ans.length) (m : Mem) (rcb mps first n : Nat) (ha : LegalCpls m rcb mps first n q.ans) :
    ∃ ts before after : List Tlp, (forUser s).map conv = ts.map .ok ∧ ts.filter (fun c => c.isCompletion = true ∧ SameTag q.req c) = before ++ q.ans ++ after ∧
      Holds m first n (q.ans.flatMap cplBytes) := by
  obtain ⟨ts, hI⟩ := h
  have hm : q ∈ s.reqs.filter fun x => SameTag q.req x.req := List.mem_filter.mpr ⟨hq, by simp [SameTag]⟩
  obtain ⟨l1, l2, hl12⟩ := List.append_of_mem hm
  refine ⟨ts, l1.flatMap fun q => (q.ans.take q.done).map asRead, l2.flatMap fun q => (q.ans.take q.done).map asRead, hI.frames, ?_, cpl_bytes ha⟩
  have hid : q.ans.map asRead = q.ans := by
    conv => rhs; rw [← List.map_id q.ans]
    exact List.map_congr_left fun c hc => IntelDma.asRead_pos (legal_pos ha c hc)
  rw [hI.user, hl12, List.flatMap_append, List.flatMap_cons, hd, List.take_length, hid, List.append_assoc]

/-- C74, the bytes: among the completions that the user has for the tag of a read whose answer has arrived completely, there is its whole answer, without anything in between, and the bytes in
it are exactly those the memory held. -/
theorem C74_bytes_s10 (p : RxLimits) (d : Dev) (es : List (IntelDmaEv S10Frame)) (s : IntelDma S10Frame)
    (hrun : IntelDma.run S10Frame.ofRx S10Frame.toTlp p { dev := { dev := d } } es = some (.ok s))
    (ho : CarefulRun S10Frame.ofRx S10Frame.toTlp p (d.fns.map (·.id)) { dev := { dev := d } } es)
    (q : DmaReq) (hq : q ∈ s.reqs) (hd : q.done = q.ans.length) (m : Mem) (rcb mps first n : Nat) (ha : LegalCpls m rcb mps first n q.ans) :
    ∃ ts before after : List Tlp, (forUser s).map S10Frame.toTlp = ts.map .ok ∧ ts.filter (fun c => c.isCompletion = true ∧ SameTag q.req c) = before ++ q.ans ++ after ∧
      Holds m first n (q.ans.flatMap cplBytes) :=
  inv_bytes (IntelDma.run_inv s10Codec s10_conv IntelDma.s10_asRead es _ s [] (IntelDma.init_inv d) ho hrun).1 q hq hd m rcb mps first n ha

/-- C74, likewise for P-Tile. -/
theorem C74_bytes_ptile (p : RxLimits) (d : Dev) (es : List (IntelDmaEv PTileFrame)) (s : IntelDma PTileFrame)
    (hrun : IntelDma.run PTileFrame.ofRx PTileFrame.toTlp p { dev := { dev := d } } es = some (.ok s))
    (ho : CarefulRun PTileFrame.ofRx PTileFrame.toTlp p (d.fns.map (·.id)) { dev := { dev := d } } es)
    (q : DmaReq) (hq : q ∈ s.reqs) (hd : q.done = q.ans.length) (m : Mem) (rcb mps first n : Nat) (ha : LegalCpls m rcb mps first n q.ans) :
    ∃ ts before after : List Tlp, (forUser s).map PTileFrame.toTlp = ts.map .ok ∧ ts.filter (fun c => c.isCompletion = true ∧ SameTag q.req c) = before ++ q.ans ++ after ∧
      Holds m first n (q.ans.flatMap cplBytes) :=
  inv_bytes (IntelDma.run_inv ptileCodec ptile_conv IntelDma.ptile_asRead es _ s [] (IntelDma.init_inv d) ho hrun).1 q hq hd m rcb mps first n ha

private theorem inv_taken {carries : F → Tlp → Nat → Nat → Prop} {enc : Tlp → Py F} {mk : Tlp → Nat → Nat → Py F} {conv : F → Py Tlp} (hc : Codec carries enc mk conv)
    (hra : ∀ t bar fn, mk (asRead t) bar fn = mk t bar fn) {p : RxLimits} {ids : List PcieId} {s : IntelDma F}
    (h : (∃ ts, IntelDma.Inv conv p ids s ts) ∧ s.dev.dev.fns.map (·.id) = ids) (i : Nat) (q : DmaReq) (c : Tlp) (hq : s.reqs[i]? = some q) (hx : q.ans[q.done]? = some c) :
    ∃ s' f, s.step mk conv p (.cpl i) = some (.ok s') ∧ forUser s' = forUser s ++ [f] ∧ carries f (asRead c) 0 c.requester_id.function ∧
      s'.reqs = s.reqs.set i { q with done := q.done + 1 } := by
  obtain ⟨⟨ts, hI⟩, hids⟩ := h
  obtain ⟨f, hf1, hf2, hr⟩ := IntelDma.recv_cpl hc hra hI hids hq hx
  refine ⟨{ s with reqs := s.reqs.set i { q with done := q.done + 1 }, dev := { s.dev with cplh := s.dev.cplh + 1, cpld := s.dev.cpld + c.dataCredits, queue := s.dev.queue ++ [(c, f)] }, hist := s.hist ++ [IntelObs.arrived c [.user f, .release]] },
    f, ?_, ?_, hf2, ?_⟩
  · simp only [IntelDma.step, hq, hx, IntelDma.devStep, IntelDev.step, hr]
  · simp [forUser, rxSent]
  · rfl

/-- C74, nothing is lost: the next completion of any request is taken without an exception and becomes a frame for the user, which carries it, with the number of the function. -/
theorem C74_taken_s10 (p : RxLimits) (d : Dev) (es : List (IntelDmaEv S10Frame)) (s : IntelDma S10Frame)
    (hrun : IntelDma.run S10Frame.ofRx S10Frame.toTlp p { dev := { dev := d } } es = some (.ok s))
    (ho : CarefulRun S10Frame.ofRx S10Frame.toTlp p (d.fns.map (·.id)) { dev := { dev := d } } es)
    (i : Nat) (q : DmaReq) (c : Tlp) (hq : s.reqs[i]? = some q) (hx : q.ans[q.done]? = some c) :
    ∃ s' f, s.step S10Frame.ofRx S10Frame.toTlp p (.cpl i) = some (.ok s') ∧ forUser s' = forUser s ++ [f] ∧ S10Carries f (asRead c) 0 c.requester_id.function ∧
      s'.reqs = s.reqs.set i { q with done := q.done + 1 } :=
  inv_taken s10Codec IntelDma.s10_asRead (IntelDma.run_inv s10Codec s10_conv IntelDma.s10_asRead es _ s [] (IntelDma.init_inv d) ho hrun) i q c hq hx

/-- C74, likewise for P-Tile. -/
theorem C74_taken_ptile (p : RxLimits) (d : Dev) (es : List (IntelDmaEv PTileFrame)) (s : IntelDma PTileFrame)
    (hrun : IntelDma.run PTileFrame.ofRx PTileFrame.toTlp p { dev := { dev := d } } es = some (.ok s))
    (ho : CarefulRun PTileFrame.ofRx PTileFrame.toTlp p (d.fns.map (·.id)) { dev := { dev := d } } es)
    (i : Nat) (q : DmaReq) (c : Tlp) (hq : s.reqs[i]? = some q) (hx : q.ans[q.done]? = some c) :
    ∃ s' f, s.step PTileFrame.ofRx PTileFrame.toTlp p (.cpl i) = some (.ok s') ∧ forUser s' = forUser s ++ [f] ∧ PTileCarries f (asRead c) 0 c.requester_id.function ∧
      s'.reqs = s.reqs.set i { q with done := q.done + 1 } :=
  inv_taken ptileCodec IntelDma.ptile_asRead (IntelDma.run_inv ptileCodec ptile_conv IntelDma.ptile_asRead es _ s [] (IntelDma.init_inv d) ho hrun) i q c hq hx

private theorem err_wire (r : Tlp) (ty : TlpType) (hr : Encodable ty r) (id : PcieId) (hid : id.Valid) (st : Nat) (hst : st = 0 ∨ st = 1 ∨ st = 2 ∨ st = 4) :
    OnWire (r.createCompletion id false st) := by
  refine ⟨.CPL, ?_, by rfl⟩
  have e : asRead (r.createCompletion id false st) = { r.createCompletion id false st with byte_count := 4096 } := by
    unfold asRead
    rw [if_pos ⟨by rfl, by rfl⟩]
  rw [e]
  exact ⟨rfl, hr.tc, hr.attr, Nat.zero_le _, hr.tag, hr.req_id, hid, rfl, by simp [Tlp.createCompletion, Tlp.setFmtType], fun _ => rfl,
    ⟨hst, (by decide : 1 ≤ 4096), (by decide : 4096 ≤ 4096), (by decide : 0 < 128), rfl, rfl, rfl, rfl⟩⟩

private theorem cplLoop_rest (c : CplCfg) (t : Tlp) (data : List UInt8) (dw bl : Nat) : ∀ (k m n addr : Nat), dw - m = k → ∀ x ∈ cplLoop c t data dw bl m n addr,
    x.completer_id = c.id ∧ x.at_ = 0 ∧ x.seq = 0 ∧ x.first_be = 0 ∧ x.last_be = 0 ∧ x.address = 0 ∧ x.ph = 0 := by
  intro k
  induction k using Nat.strongRecOn with
  | ind k ih =>
    intro m n addr hk x hx
    rw [cplLoop] at hx
    split at hx
    · next hm =>
      rcases List.mem_cons.mp hx with rfl | hx
      · exact ⟨rfl, rfl, rfl, rfl, rfl, rfl, rfl⟩
      · have := c.chunk_pos (dw - m) addr (by omega)
        exact ih _ (by omega) _ _ _ rfl x hx
    · simp at hx

/-- C74, the host: the completions with which the root complex answers a dword-aligned memory read request that stays within 4 KiB (`C67_host`) can be sent over the link. -/
theorem C74_host (cfg : CplCfg) (mem : AddrSpace) (r : Tlp) (ty : TlpType) (hw : Encodable ty r) (hr : IsRead r) (hbe : BeLegal r) (hb : r.address % 4096 + 4 * r.length ≤ 4096)
    (hid : cfg.id.Valid) (hm : cfg.mps ≤ 5) : ∀ c ∈ Rc.handleMemRead cfg mem r, OnWire c := by
  have hA : r.address % 4 = 0 := by
    have := hw.body
    have ht := enc_fmtType hw
    rcases hr with h | h <;> rw [ht] at h <;> cases h <;> exact this.2.2.2.2.2.2.1
  by_cases hc : mem.covers r.address (r.length * 4) = true
  · by_cases ho : mem.readOk r.address (r.length * 4) = true
    · have h1 := firstEnabled_offset r hbe
      have h2 := lastEnabled_offset r hbe
      obtain ⟨g1, g2⟩ := C14_rc_completions cfg mem r _ _ hbe hA hb h1 h2 hc ho
      intro c hcm
      have hrest := hcm
      rw [rc_memRead cfg mem r hb hc ho] at hrest
      obtain ⟨f1, f2, f3⟩ := cplLoop_rest cfg r _ _ _ _ _ _ _ rfl c hrest
      have hmps : 128 <<< cfg.mps ≤ 4096 := by
        rw [Nat.shiftLeft_eq]
        calc 128 * 2 ^ cfg.mps ≤ 128 * 2 ^ 5 := Nat.mul_le_mul_left _ (Nat.pow_le_pow_right (by decide) hm)
          _ = 4096 := by decide
      have hn := h1.2 _ h2.1
      have hl1 := h1.1.1
      have hl2 := h2.1.2.1
      obtain ⟨k0, k1, k2, k3, k4, k5, k6, k7⟩ := UsCc.legal_fits g1 hmps (by omega) c hcm
      obtain ⟨x1, x2, x3, x4, x5, -⟩ := g2 c hcm
      have hcp : c.isCompletion = true := by
        have e : c.isCompletion = decide (c.fmtType.bind TlpType.fcType = some .CPL) := rfl
        rw [e, k1]; rfl
      have hpos := legal_pos g1 c hcm
      refine ⟨.CPL_DATA, ?_, by omega⟩
      rw [IntelDma.asRead_pos hpos]
      exact (cpl_encodable (t := r) ⟨⟨hcp, x1, x2, x4, x5⟩, by rw [f1]; exact hid, f2, f3⟩ ⟨hw.tag, hw.tc, hw.attr, hw.req_id⟩ k1 rfl k0 k2 ⟨hpos, k3⟩ k5 k6 ⟨fun _ => k4, fun _ => .inl rfl⟩ k7).1
    · have : Rc.handleMemRead cfg mem r = [r.createCa cfg.id] := by
        unfold Rc.handleMemRead AddrSpace.read
        rw [and_fff, if_neg (by rw [hc]; simp), if_neg (by omega), if_neg ho]
      rw [this]
      intro c hcm
      rw [List.mem_singleton.1 hcm]
      exact err_wire r ty hw cfg.id hid _ (by decide)
  · have : Rc.handleMemRead cfg mem r = [r.createUr cfg.id] := by
      unfold Rc.handleMemRead; rw [if_pos hc]
    rw [this]
    intro c hcm
    rw [List.mem_singleton.1 hcm]
    exact err_wire r ty hw cfg.id hid _ (by decide)

/-! ### A concrete case: a read of 30 bytes answered by two completions, and an I/O read, which is refused, in between -/

/-- The memory holds the low byte of each address. -/
private def exMem : Mem := fun a => UInt8.ofNat a
private def exRead : Tlp := { (({} : Tlp).setFmtType .MEM_READ) with tag := 1, address := 0x30, length := 8, first_be := 0xe, last_be := 0x7 }
private def exIo : Tlp := { (({} : Tlp).setFmtType .IO_READ) with tag := 2, address := 0x80, length := 1, first_be := 0xf }
private def exCpl (low count start : Nat) : Tlp :=
  { (({} : Tlp).setFmtType .CPL_DATA) with tag := 1, lower_address := low, byte_count := count, length := 4, data := (List.range 16).map fun i => UInt8.ofNat (start + i) }
private def exAns : List Tlp := [exCpl 0x31 30 0x30, exCpl 0x40 15 0x40]
private def exFrame (t : Tlp) : S10Frame := (S10Frame.fromTlp t).toOption.getD {}
private def exRun : List (IntelDmaEv S10Frame) :=
  [.tx (exFrame exRead) exAns, .tx (exFrame exIo) [exIo.createUr ⟨0, 0, 0⟩], .cpl 0, .cpl 1, .dev .get, .dev .done, .cpl 0]
private def exLimits : RxLimits := { cplh := 4, cpld := 8 }
private def exDev : Dev := { fns := [{ id := ⟨0, 0, 0⟩ }] }
private def exInit : IntelDma S10Frame := { dev := { dev := exDev } }
private def next (s : IntelDma S10Frame) (e : IntelDmaEv S10Frame) : IntelDma S10Frame :=
  match s.step S10Frame.ofRx S10Frame.toTlp exLimits e with | some (.ok s) => s | _ => s

private theorem next_eq {s s' : IntelDma S10Frame} {e : IntelDmaEv S10Frame} (h : s.step S10Frame.ofRx S10Frame.toTlp exLimits e = some (.ok s')) : s' = next s e := by
  unfold next; rw [h]

private theorem exRead_enc : Encodable .MEM_READ exRead := by
  refine ⟨?_, ?_, ?_, ?_, ?_, ?_, ?_, ?_, ?_, ?_, ?_⟩ <;> first | decide +kernel | (dsimp only [kind]; decide +kernel)

private theorem exRead_bytes : ReadsBytes exRead 0x31 30 := by
  have hb : BeLegal exRead := by unfold BeLegal; decide +kernel
  exact ⟨by unfold IsRead; decide +kernel, hb, _, firstEnabled_offset exRead hb, lastEnabled_offset exRead hb, by decide +kernel⟩

private theorem exAns_legal : LegalCpls exMem 64 128 0x31 30 exAns := by
  have hold : ∀ low count start, Holds exMem start 16 (exCpl low count start).data := by
    intro low count start
    refine ⟨by simp [exCpl], fun i hi => ?_⟩
    simp [exCpl, exMem]
  refine .more _ _ _ _ (by decide +kernel) (by decide +kernel) (by decide +kernel) (by decide +kernel) (by decide +kernel) (by decide +kernel) (by decide +kernel) (by decide +kernel)
    (hold 0x31 30 0x30) ?_
  exact .last _ _ _ (by decide +kernel) (by decide +kernel) (by decide +kernel) (by decide +kernel) (by decide +kernel) (by decide +kernel) (by decide +kernel) (hold 0x40 15 0x40)

private theorem exAns_own : ∀ c ∈ exAns, Own exRead c ∧ c.ep = false := by
  intro c hc
  simp only [exAns, List.mem_cons, List.not_mem_nil, or_false] at hc
  rcases hc with rfl | rfl <;> refine ⟨⟨?_, ?_, ?_, ?_, ?_⟩, ?_⟩ <;> decide +kernel

private theorem exAns_wire : ∀ c ∈ exAns, OnWire c := by
  intro c hc
  simp only [exAns, List.mem_cons, List.not_mem_nil, or_false] at hc
  rcases hc with rfl | rfl <;> refine ⟨.CPL_DATA, ⟨?_, ?_, ?_, ?_, ?_, ?_, ?_, ?_, ?_, ?_, ?_⟩, ?_⟩ <;> first | decide +kernel | (dsimp only [kind]; decide +kernel)

/-- The hypotheses of `C74_user_s10`, `C74_bytes_s10` and `C74_taken_s10` are met: both requests have been sent and all completions have arrived, the first of them has been handed over. -/
example : ∃ s, IntelDma.run S10Frame.ofRx S10Frame.toTlp exLimits exInit exRun = some (.ok s) ∧
    CarefulRun S10Frame.ofRx S10Frame.toTlp exLimits (exDev.fns.map (·.id)) exInit exRun ∧
    s.reqs = [⟨exRead, exAns, 2⟩, ⟨exIo, [exIo.createUr ⟨0, 0, 0⟩], 1⟩] ∧ (rxSent s.hist).map S10Frame.toTlp = [.ok (exCpl 0x31 30 0x30)] ∧ (forUser s).length = 3 := by
  have conv : ∀ (x : Option (Py (IntelDma S10Frame))) (q : IntelDma S10Frame → Prop) [DecidablePred q],
      (match x with | some (.ok l) => decide (q l) | _ => false) = true → ∃ l, x = some (.ok l) ∧ q l := by
    intro x q _ h
    split at h
    · exact ⟨_, rfl, of_decide_eq_true h⟩
    · cases h
  obtain ⟨s, h1, h2, h3, h4⟩ := conv (IntelDma.run S10Frame.ofRx S10Frame.toTlp exLimits exInit exRun)
    (fun s => s.reqs = [⟨exRead, exAns, 2⟩, ⟨exIo, [exIo.createUr ⟨0, 0, 0⟩], 1⟩] ∧ (rxSent s.hist).map (fun f => f.toTlp.toOption) = [some (exCpl 0x31 30 0x30)] ∧ (forUser s).length = 3)
    (by decide +kernel)
  refine ⟨s, h1, ?_, h2, ?_, h4⟩
  · refine ⟨by decide +kernel, ?_, fun s1 e1 => ?_⟩
    · intro t ht _
      have e : t = exRead := by
        have : (exFrame exRead).toTlp.toOption = some exRead := by decide +kernel
        rw [ht] at this
        exact Option.some.inj this
      subst e
      refine ⟨by decide +kernel, (by intro q hq; cases hq), ?_, .read exMem 64 128 _ _ _ exRead_bytes exAns_legal exAns_own, exAns_wire⟩
      unfold FitIn
      decide +kernel
    obtain rfl := next_eq e1
    refine ⟨by decide +kernel, ?_, fun s2 e2 => ?_⟩
    · intro t ht _
      have e : t = exIo := by
        have : (exFrame exIo).toTlp.toOption = some exIo := by decide +kernel
        rw [ht] at this
        exact Option.some.inj this
      subst e
      refine ⟨by decide +kernel, ?_, ?_, .single _ ⟨by rfl, by rfl, by rfl, by rfl, by rfl⟩ (.inl (by decide +kernel)), ?_⟩
      · have : (next exInit (.tx (exFrame exRead) exAns)).reqs = [⟨exRead, exAns, 0⟩] := by decide +kernel
        rw [this]
        intro q hq hs
        rw [List.mem_singleton.1 hq] at hs
        exact absurd hs (by decide +kernel)
      · unfold FitIn
        decide +kernel
      · intro c hc
        rw [List.mem_singleton.1 hc]
        refine ⟨.CPL, ⟨?_, ?_, ?_, ?_, ?_, ?_, ?_, ?_, ?_, ?_, ?_⟩, ?_⟩ <;> first | decide +kernel | (dsimp only [kind]; decide +kernel)
    obtain rfl := next_eq e2
    refine ⟨by decide +kernel, trivial, fun s3 e3 => ?_⟩
    obtain rfl := next_eq e3
    refine ⟨by decide +kernel, trivial, fun s4 e4 => ?_⟩
    obtain rfl := next_eq e4
    refine ⟨by decide +kernel, trivial, fun s5 e5 => ?_⟩
    obtain rfl := next_eq e5
    refine ⟨by decide +kernel, trivial, fun s6 e6 => ?_⟩
    obtain rfl := next_eq e6
    refine ⟨by decide +kernel, trivial, fun s7 e7 => ?_⟩
    obtain rfl := next_eq e7
    show _ = _
    decide +kernel
  · generalize rxSent s.hist = l at h3
    match l, h3 with
    | _ :: _ :: _, h3 => simp at h3
    | [f], h3 =>
      simp only [List.map_cons, List.map_nil, List.cons.injEq, and_true] at h3 ⊢
      cases hf : f.toTlp with
      | error e => rw [hf] at h3; cases h3
      | ok t => rw [hf] at h3; exact congrArg _ (Option.some.inj h3)

private def exFrameP (t : Tlp) : PTileFrame := (PTileFrame.fromTlp t).toOption.getD {}
private def exRunP : List (IntelDmaEv PTileFrame) := [.tx (exFrameP exRead) exAns, .cpl 0, .dev .get, .dev .done, .cpl 0]
private def exInitP : IntelDma PTileFrame := { dev := { dev := exDev } }
private def nextP (s : IntelDma PTileFrame) (e : IntelDmaEv PTileFrame) : IntelDma PTileFrame :=
  match s.step PTileFrame.ofRx PTileFrame.toTlp exLimits e with | some (.ok s) => s | _ => s

private theorem nextP_eq {s s' : IntelDma PTileFrame} {e : IntelDmaEv PTileFrame} (h : s.step PTileFrame.ofRx PTileFrame.toTlp exLimits e = some (.ok s')) : s' = nextP s e := by
  unfold nextP; rw [h]

/-- The hypotheses of `C74_user_ptile`, `C74_bytes_ptile` and `C74_taken_ptile` are met. -/
example : ∃ s, IntelDma.run PTileFrame.ofRx PTileFrame.toTlp exLimits exInitP exRunP = some (.ok s) ∧
    CarefulRun PTileFrame.ofRx PTileFrame.toTlp exLimits (exDev.fns.map (·.id)) exInitP exRunP ∧ s.reqs = [⟨exRead, exAns, 2⟩] ∧ (forUser s).length = 2 := by
  have conv : ∀ (x : Option (Py (IntelDma PTileFrame))) (q : IntelDma PTileFrame → Prop) [DecidablePred q],
      (match x with | some (.ok l) => decide (q l) | _ => false) = true → ∃ l, x = some (.ok l) ∧ q l := by
    intro x q _ h
    split at h
    · exact ⟨_, rfl, of_decide_eq_true h⟩
    · cases h
  obtain ⟨s, h1, h2, h4⟩ := conv (IntelDma.run PTileFrame.ofRx PTileFrame.toTlp exLimits exInitP exRunP)
    (fun s => s.reqs = [⟨exRead, exAns, 2⟩] ∧ (forUser s).length = 2) (by decide +kernel)
  refine ⟨s, h1, ?_, h2, h4⟩
  refine ⟨by decide +kernel, ?_, fun s1 e1 => ?_⟩
  · intro t ht _
    have e : t = exRead := by
      have : (exFrameP exRead).toTlp.toOption = some exRead := by decide +kernel
      rw [ht] at this
      exact Option.some.inj this
    subst e
    refine ⟨by decide +kernel, (by intro q hq; cases hq), ?_, .read exMem 64 128 _ _ _ exRead_bytes exAns_legal exAns_own, exAns_wire⟩
    unfold FitIn
    decide +kernel
  obtain rfl := nextP_eq e1
  refine ⟨by decide +kernel, trivial, fun s3 e3 => ?_⟩
  obtain rfl := nextP_eq e3
  refine ⟨by decide +kernel, trivial, fun s4 e4 => ?_⟩
  obtain rfl := nextP_eq e4
  refine ⟨by decide +kernel, trivial, fun s5 e5 => ?_⟩
  obtain rfl := nextP_eq e5
  refine ⟨by decide +kernel, trivial, fun s6 e6 => ?_⟩
  obtain rfl := nextP_eq e6
  show _ = _
  decide +kernel

/-- The hypotheses of `C74_host` are met. -/
example : Encodable .MEM_READ exRead ∧ IsRead exRead ∧ BeLegal exRead ∧ exRead.address % 4096 + 4 * exRead.length ≤ 4096 := by
  refine ⟨exRead_enc, exRead_bytes.1, exRead_bytes.2.1, ?_⟩
  decide +kernel

end Pcie
