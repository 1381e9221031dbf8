import Verif.Lemmas.DmaSys
/-
C77: user logic that reads and writes host memory through the Xilinx hard IP models finds it consistent: reads see the writes made before them.
-/
namespace Pcie
open Spec

/-- C77, order, whatever the order in which requests are made, tasks run and packets arrive: the host handles the requests in the order in which the device sends them, and every byte of its
memory is the last one written there. -/
theorem C77_order (p : HipParams) (cfg : CplCfg) (init : Hip) (hinit : init = { ext := init.ext, busNum := init.busNum, funcs := init.funcs }) (mem io : AddrSpace) (es : List SysEv) (s : DmaSys)
    (hrun : DmaSys.run p cfg { hip := init, mem := mem, io := io } es = some (.ok s)) (hids : ∀ e ∈ es, KeepsIds (init.funcs.map (·.1)) e) :
    handledOf s.log ++ s.link = sentOf s.hip.hist ∧
    ((∀ w ∈ handledOf s.log, IsWrite w → Takes mem w) → ∀ a, ByteAfter mem.mem a s.log (s.mem.mem a)) := by
  obtain ⟨hI, -, -⟩ := DmaSys.run_sim (fun i => (s.reqs[i]?.map (·.ans)).getD []) (by intro i q hq _; simp [hq]) es _ (DmaSys.init_i cfg mem io init hinit) hids hrun
  refine ⟨hI.fifo, fun h a => ?_⟩
  rw [hI.mem]
  exact DmaSys.byteAfter mem a s.log h

/-- The device of a run, with requests not yet answered taken to be answered by an error. -/
private theorem known {p : HipParams} {cfg : CplCfg} {init : Hip} (hinit : init = { ext := init.ext, busNum := init.busNum, funcs := init.funcs }) {mem io : AddrSpace} {es : List SysEv}
    {s : DmaSys} (hrun : DmaSys.run p cfg { hip := init, mem := mem, io := io } es = some (.ok s)) (hids : ∀ e ∈ es, KeepsIds (init.funcs.map (·.1)) e)
    (hl : LegalRequests (init.funcs.map (·.1)) (sentOf s.hip.hist)) :
    DmaSys.I cfg mem s ∧ ∃ fut des, (∀ i q, s.reqs[i]? = some q → i < s.served → fut i = q.ans) ∧ (∀ d ∈ des, SameIds (init.funcs.map (·.1)) d) ∧
      Dma.run p { hip := init } des = some (.ok (DmaSys.lift fut s)) ∧ Served (init.funcs.map (·.1)) (DmaSys.lift fut s).reqs := by
  let fut : Nat → List Tlp := fun i => match s.reqs[i]? with
    | none => []
    | some q => if i < s.served then q.ans else [q.req.createUr cfg.id]
  have hf : ∀ i q, s.reqs[i]? = some q → i < s.served → fut i = q.ans := by
    intro i q hq hi
    show (match s.reqs[i]? with | none => [] | some q => if i < s.served then q.ans else [q.req.createUr cfg.id]) = q.ans
    rw [hq]
    simp [hi]
  obtain ⟨hI, -, des, h1, h2⟩ := DmaSys.run_sim fut hf es _ (DmaSys.init_i cfg mem io init hinit) hids hrun
  refine ⟨hI, fut, des, hf, h1, h2, ?_⟩
  intro x hx
  obtain ⟨i, hi⟩ := List.mem_iff_getElem?.mp hx
  rw [DmaSys.lift_get] at hi
  cases hq : s.reqs[i]? with
  | none => rw [hq] at hi; cases hi
  | some q =>
    rw [hq] at hi
    have hi := Option.some.inj hi
    subst hi
    have hm : q.req ∈ (sentOf s.hip.hist).filter (·.isNonposted) := by
      rw [← hI.reqs]; exact List.mem_map_of_mem (List.mem_of_getElem? hq)
    obtain ⟨hm1, hm2⟩ := List.mem_filter.mp hm
    obtain ⟨g1, g2⟩ := hl q.req hm1 hm2
    refine ⟨g1, ?_⟩
    rcases Nat.lt_or_ge i s.served with hlt | hge
    · simp only [hf i q hq hlt]
      obtain ⟨b, a, -, -, hA⟩ := hI.done i q hq hlt
      by_cases hr : IsRead q.req
      · rw [hA.read hr]
        obtain ⟨k1, k2, k3⟩ := g2 hr
        exact (C67_host cfg (DmaSys.memAfter mem b) q.req hr k1 k2 k3).1
      · exact hA.other hr
    · have : fut i = [q.req.createUr cfg.id] := by
        show (match s.reqs[i]? with | none => [] | some q => if i < s.served then q.ans else [q.req.createUr cfg.id]) = _
        rw [hq]
        simp [Nat.not_lt.mpr hge]
      simp only [this]
      exact .single _ ⟨rfl, rfl, rfl, rfl, rfl⟩ (.inl (by show CplStatus.UR ≠ CplStatus.SC; decide))

private theorem split_sent {h : List HipObs} {x y : List Tlp} {r : Tlp} (hs : sentOf h = x ++ r :: y) : ∃ pre post, h = pre ++ .sent r :: post ∧ sentOf pre = x := by
  induction h generalizing x with
  | nil => simp [sentOf] at hs
  | cons o h ih =>
    have keep : (∀ t, o ≠ .sent t) → ∃ pre post, o :: h = pre ++ .sent r :: post ∧ sentOf pre = x := by
      intro ho
      have h1 : ∀ l, sentOf (o :: l) = sentOf l := by
        intro l
        cases o with
        | sent t => exact absurd rfl (ho t)
        | _ => rfl
      rw [h1] at hs
      obtain ⟨pre, post, e1, e2⟩ := ih hs
      exact ⟨o :: pre, post, by rw [e1]; rfl, by rw [h1]; exact e2⟩
    cases o with
    | sent t =>
      have h1 : ∀ l, sentOf (.sent t :: l) = t :: sentOf l := fun _ => rfl
      rw [h1] at hs
      cases x with
      | nil =>
        obtain ⟨rfl, -⟩ := List.cons.inj (show t :: sentOf h = r :: y from hs)
        exact ⟨[], h, rfl, rfl⟩
      | cons z x =>
        obtain ⟨rfl, h2⟩ := List.cons.inj (show t :: sentOf h = z :: (x ++ r :: y) from hs)
        obtain ⟨pre, post, e1, e2⟩ := ih h2
        exact ⟨.sent t :: pre, post, by rw [e1]; rfl, by rw [h1, e2]⟩
    | _ => exact keep (by simp)

/-- C77, reads: let the answer to read number `i` have arrived completely. The read was handled after exactly the requests that the device sent before it; these include every posted request
(every write) that the user had made before the read left and that was not dropped. The user has the bytes of the memory at that moment, that is, for each byte the last one written there by
then, marked correctly. -/
theorem C77_read (p : HipParams) (cfg : CplCfg) (init : Hip) (hinit : init = { ext := init.ext, busNum := init.busNum, funcs := init.funcs }) (mem io : AddrSpace) (es : List SysEv) (s : DmaSys)
    (hrun : DmaSys.run p cfg { hip := init, mem := mem, io := io } es = some (.ok s)) (hids : ∀ e ∈ es, KeepsIds (init.funcs.map (·.1)) e)
    (hl : LegalRequests (init.funcs.map (·.1)) (sentOf s.hip.hist)) (hlost : lostOf s.hip.hist = []) (hw : ∀ w ∈ handledOf s.log, IsWrite w → Takes mem w)
    (i : Nat) (q : DmaReq) (hq : s.reqs[i]? = some q) (hne : q.ans ≠ []) (hd : q.done = q.ans.length) (first n : Nat) (hr : ReadsBytes q.req first n)
    (hc : mem.covers q.req.address (q.req.length * 4) = true) (ho : mem.readOk q.req.address (q.req.length * 4) = true) :
    ∃ before after pre post m, s.log = before ++ .req q.req :: after ∧ ((handledOf before).filter (·.isNonposted)).length = i ∧
      s.hip.hist = pre ++ .sent q.req :: post ∧ handledOf before = sentOf pre ∧ postedDone pre = postedMade pre ∧
      (∀ a, ByteAfter mem.mem a before (m a)) ∧
      ∃ x us y, (deliveredOf s.hip.hist ++ buffered s.hip).filter (fun u => u.tlp.tag = q.req.tag) = x ++ us ++ y ∧ ReadSeen m first n us ∧ Holds m first n (us.flatMap rcBytes) := by
  obtain ⟨hI, fut, des, hf, h1, h2, h3⟩ := known hinit hrun hids hl
  have hi : i < s.served := by
    rcases Nat.lt_or_ge i s.served with h | h
    · exact h
    · exact absurd (hI.todo i q hq h).1 hne
  obtain ⟨b, a, e1, e2, hA⟩ := hI.done i q hq hi
  have hm : q.req ∈ (sentOf s.hip.hist).filter (·.isNonposted) := by
    rw [← hI.reqs]; exact List.mem_map_of_mem (List.mem_of_getElem? hq)
  obtain ⟨hm1, hm2⟩ := List.mem_filter.mp hm
  obtain ⟨pre, post, e3, e4⟩ := split_sent (h := s.hip.hist) (x := handledOf b) (r := q.req) (y := handledOf a ++ s.link) (by
    rw [← hI.fifo, e1, DmaSys.handledOf_append, List.append_assoc]; rfl)
  obtain ⟨-, g2⟩ := hl q.req hm1 hm2
  obtain ⟨k1, k2, k3⟩ := g2 hr.1
  obtain ⟨mm, hmm⟩ := DmaSys.memAfter_same mem b
  obtain ⟨rcb, mps, c1, c2⟩ := (C67_host cfg (DmaSys.memAfter mem b) q.req hr.1 k1 k2 k3).2 (by rw [hmm]; exact hc) (by rw [hmm]; exact ho) first n hr
  rw [← hA.read hr.1] at c1 c2
  have hq' : ({ q with ans := fut i } : DmaReq) ∈ (DmaSys.lift fut s).reqs := by
    apply List.mem_of_getElem?
    rw [DmaSys.lift_get, hq]; rfl
  have hfi := hf i q hq hi
  obtain ⟨x, us, y, u1, u2, u3⟩ := C67_bytes p init hinit des (DmaSys.lift fut s) h2 h1 h3 hlost _ hq' (by simp only [hfi]; exact hd) (DmaSys.memAfter mem b).mem rcb mps first n hr
    (by simp only [hfi]; exact c1) (by simp only [hfi]; exact c2)
  refine ⟨b, a, pre, post, (DmaSys.memAfter mem b).mem, e1, e2, e3, e4.symm, ?_, ?_, x, us, y, u1, u2, u3⟩
  · -- the device alone
    have hh : ∃ hes, Hip.run p init hes = some (.ok s.hip) := by
      have : ∀ (des : List DmaEv) (d d' : Dma), Dma.run p d des = some (.ok d') → ∃ hes, Hip.run p d.hip hes = some (.ok d'.hip) := by
        intro des
        induction des with
        | nil => intro d d' h; cases h; exact ⟨[], rfl⟩
        | cons e des ih =>
          intro d d' h
          unfold Dma.run at h
          split at h
          · cases h
          · cases h
          · next d1 hs1 =>
            obtain ⟨hes, hh⟩ := ih d1 d' h
            have one : ∃ e', Hip.step p d.hip e' = some (.ok d1.hip) := by
              cases e with
              | dev e ans =>
                cases e with
                | cpl c => cases hs1
                | _ =>
                  simp only [Dma.step] at hs1
                  split at hs1
                  · cases hs1
                  · cases hs1
                  · next hs2 =>
                    have hs1 := Except.ok.inj (Option.some.inj hs1)
                    subst hs1
                    exact ⟨_, hs2⟩
              | cpl i =>
                simp only [Dma.step] at hs1
                split at hs1
                · cases hs1
                · split at hs1
                  · cases hs1
                  · split at hs1
                    · cases hs1
                    · cases hs1
                    · next hs2 =>
                      have hs1 := Except.ok.inj (Option.some.inj hs1)
                      subst hs1
                      exact ⟨_, hs2⟩
            obtain ⟨e', he'⟩ := one
            exact ⟨e' :: hes, by unfold Hip.run; rw [he']; exact hh⟩
      exact this des _ _ h2
    obtain ⟨hes, hh⟩ := hh
    rw [hinit] at hh
    exact C53_no_pass p _ _ _ hes s.hip hh pre post q.req e3 hm2
  · intro ad
    apply DmaSys.byteAfter mem ad b
    intro w hw1 hw2
    exact hw w (by rw [e1, DmaSys.handledOf_append]; exact List.mem_append_left _ hw1) hw2

/-- C77, reading back: a byte that a write handled before the read has written, and that nothing has written since, is what the user reads at that address. -/
theorem C77_read_back (p : HipParams) (cfg : CplCfg) (init : Hip) (hinit : init = { ext := init.ext, busNum := init.busNum, funcs := init.funcs }) (mem io : AddrSpace) (es : List SysEv)
    (s : DmaSys) (hrun : DmaSys.run p cfg { hip := init, mem := mem, io := io } es = some (.ok s)) (hids : ∀ e ∈ es, KeepsIds (init.funcs.map (·.1)) e)
    (hl : LegalRequests (init.funcs.map (·.1)) (sentOf s.hip.hist)) (hlost : lostOf s.hip.hist = []) (hw : ∀ w ∈ handledOf s.log, IsWrite w → Takes mem w)
    (i : Nat) (q : DmaReq) (hq : s.reqs[i]? = some q) (hne : q.ans ≠ []) (hd : q.done = q.ans.length) (first n : Nat) (hr : ReadsBytes q.req first n)
    (hc : mem.covers q.req.address (q.req.length * 4) = true) (ho : mem.readOk q.req.address (q.req.length * 4) = true)
    (l1 l2 l3 : List MemAct) (w : Tlp) (hlog : s.log = l1 ++ .req w :: l2 ++ .req q.req :: l3)
    (hcnt : ((handledOf (l1 ++ .req w :: l2)).filter (·.isNonposted)).length = i) (hwr : IsWrite w) (a : Nat) (ha : byteEnabled w a)
    (hno : ∀ x ∈ l2, ∃ t, x = .req t ∧ ¬ (IsWrite t ∧ byteEnabled t a)) (h1 : first ≤ a) (h2 : a < first + n) :
    ∃ x us y, (deliveredOf s.hip.hist ++ buffered s.hip).filter (fun u => u.tlp.tag = q.req.tag) = x ++ us ++ y ∧
      (us.flatMap rcBytes)[a - first]? = w.data[a - w.address]? ∧ (us.flatMap rcBytes)[a - first]? ≠ none := by
  obtain ⟨before, after, pre, post, m, g1, g2, -, -, -, g6, x, us, y, g7, -, g9⟩ :=
    C77_read p cfg init hinit mem io es s hrun hids hl hlost hw i q hq hne hd first n hr hc ho
  -- the two ways to cut the record before the read agree
  have hnp : q.req.isNonposted = true := by
    have e : q.req.isNonposted = decide (q.req.fmtType.bind TlpType.fcType = some .NP) := rfl
    rcases hr.1 with h | h <;> rw [e, h] <;> decide
  have cut : ∀ (A B A' B' : List MemAct), A ++ .req q.req :: B = A' ++ .req q.req :: B' →
      ((handledOf A).filter (·.isNonposted)).length = ((handledOf A').filter (·.isNonposted)).length → A = A' := by
    intro A
    induction A with
    | nil =>
      intro B A' B' he hn
      cases A' with
      | nil => rfl
      | cons z A' =>
        obtain ⟨rfl, -⟩ := List.cons.inj (show MemAct.req q.req :: B = z :: (A' ++ .req q.req :: B') from he)
        simp [handledOf, hnp] at hn
    | cons z A ih =>
      intro B A' B' he hn
      cases A' with
      | nil =>
        obtain ⟨rfl, -⟩ := List.cons.inj (show z :: (A ++ .req q.req :: B) = .req q.req :: B' from he)
        simp [handledOf, hnp] at hn
      | cons z' A' =>
        obtain ⟨rfl, he'⟩ := List.cons.inj (show z :: (A ++ .req q.req :: B) = z' :: (A' ++ .req q.req :: B') from he)
        rw [ih B A' B' he']
        cases z with
        | other c => exact hn
        | req t =>
          by_cases ht : t.isNonposted = true
          · simpa [handledOf, ht] using hn
          · simpa [handledOf, ht] using hn
  have hb : before = l1 ++ .req w :: l2 := cut _ _ _ _ (by rw [← g1, hlog]) (by rw [g2, hcnt])
  -- what is there
  have hT : Takes mem w := hw w (by rw [hlog, DmaSys.handledOf_append, DmaSys.handledOf_append]; simp [handledOf]) hwr
  have hlt : a - w.address < w.data.length := by
    obtain ⟨k1, k2, -⟩ := ha
    rw [hT.payload]; omega
  have hbyte : ByteAfter mem.mem a (l1 ++ .req w :: l2) w.data[a - w.address] := by
    have base : ByteAfter mem.mem a (l1 ++ [.req w]) w.data[a - w.address] := .write _ _ _ hwr ha (List.getElem?_eq_getElem hlt)
    have ext : ∀ (l acc : List MemAct) (b : UInt8), (∀ x ∈ l, ∃ t, x = .req t ∧ ¬ (IsWrite t ∧ byteEnabled t a)) → ByteAfter mem.mem a acc b → ByteAfter mem.mem a (acc ++ l) b := by
      intro l
      induction l with
      | nil => intro acc b _ h; rw [List.append_nil]; exact h
      | cons x l ih =>
        intro acc b hx h
        obtain ⟨t, rfl, ht⟩ := hx x List.mem_cons_self
        rw [show acc ++ MemAct.req t :: l = (acc ++ [.req t]) ++ l by simp]
        exact ih _ _ (fun y hy => hx y (List.mem_cons_of_mem _ hy)) (.keep _ _ _ ht h)
    have := ext l2 _ _ hno base
    simpa using this
  have hma : m a = w.data[a - w.address] := by
    have := g6 a
    rw [hb] at this
    exact DmaSys.byteAfter_unique this _ hbyte
  have hin : (us.flatMap rcBytes)[a - first]? = some (m a) := by
    have hlt2 : a - first < (us.flatMap rcBytes).length := by rw [g9.1]; omega
    have := g9.2 (a - first) hlt2
    rw [Nat.add_sub_cancel' h1] at this
    rw [List.getElem?_eq_getElem hlt2, this]
  refine ⟨x, us, y, g7, ?_, ?_⟩
  · rw [hin, hma, List.getElem?_eq_getElem hlt]
  · rw [hin]; simp

/-! ### A concrete case: a write of four bytes, a read of the eight bytes around it, and a second write that follows the read -/

private def sysW (d : UInt8) : Tlp := { (({} : Tlp).setFmtType .MEM_WRITE) with address := 0x100, length := 1, first_be := 0xf, data := [d, d, d, d] }
private def sysR : Tlp := { (({} : Tlp).setFmtType .MEM_READ) with tag := 1, address := 0xfc, length := 3, first_be := 0xc, last_be := 0x3 }
private def sysMem : AddrSpace := { mem := fun a => UInt8.ofNat a }
private def sysCfg : CplCfg := { splitAll := true }
private def sysRun : List SysEv :=
  [.dev (.rq { tlp := sysW 0x77 }), .dev (.rq { tlp := { sysR with tag := 0 } }), .dev (.rq { tlp := sysW 0x88 }), .host, .host, .host, .cpl 0, .dev .rcGet, .dev .rcDone, .cpl 0]

private theorem sysR_bytes : ReadsBytes sysR 0xfe 8 := by
  have hb : BeLegal sysR := by unfold BeLegal; decide +kernel
  exact ⟨by unfold IsRead; decide +kernel, hb, _, firstEnabled_offset sysR hb, lastEnabled_offset sysR hb, by decide +kernel⟩

private theorem sysW_takes (d : UInt8) : Takes sysMem (sysW d) := ⟨Nat.le_refl 1, by show [d, d, d, d].length = 4 * 1; rfl, by show 0x100 % 4096 + 4 * 1 ≤ 4096; decide, rfl, fun _ _ _ _ => rfl⟩

/-- The hypotheses of `C77_order`, `C77_read` and `C77_read_back` are met: the read, answered by two completions, sees the first write and not the second. -/
example : ∃ s q, DmaSys.run .us sysCfg { hip := {}, mem := sysMem, io := sysMem } sysRun = some (.ok s) ∧ (∀ e ∈ sysRun, KeepsIds (({} : Hip).funcs.map (·.1)) e) ∧
    LegalRequests (({} : Hip).funcs.map (·.1)) (sentOf s.hip.hist) ∧ lostOf s.hip.hist = [] ∧ (∀ w ∈ handledOf s.log, IsWrite w → Takes sysMem w) ∧ s.reqs[0]? = some q ∧ q.ans ≠ [] ∧
    q.done = q.ans.length ∧ ReadsBytes q.req 0xfe 8 ∧ sysMem.covers q.req.address (q.req.length * 4) = true ∧ sysMem.readOk q.req.address (q.req.length * 4) = true ∧
    s.log = [] ++ .req (sysW 0x77) :: [] ++ .req q.req :: [.req (sysW 0x88)] ∧ IsWrite (sysW 0x77) ∧ byteEnabled (sysW 0x77) 0x102 ∧
    (deliveredOf s.hip.hist ++ buffered s.hip).flatMap rcBytes = [0xfe, 0xff, 0x77, 0x77, 0x77, 0x77, 0x04, 0x05] ∧ s.mem.mem 0x102 = 0x88 := by
  have conv : ∀ (x : Option (Py DmaSys)) (q : DmaSys → Bool), (match x with | some (.ok l) => q l | _ => false) = true → ∃ l, x = some (.ok l) ∧ q l = true := by
    intro x q h
    split at h
    · exact ⟨_, rfl, h⟩
    · cases h
  obtain ⟨s, h1, h2⟩ := conv (DmaSys.run .us sysCfg { hip := {}, mem := sysMem, io := sysMem } sysRun)
    (fun s => decide (lostOf s.hip.hist = [] ∧ sentOf s.hip.hist = [sysW 0x77, sysR, sysW 0x88] ∧ s.reqs.map (·.req) = [sysR] ∧ s.reqs.map (·.done) = [2] ∧ s.reqs.map (·.ans.length) = [2] ∧
      (deliveredOf s.hip.hist ++ buffered s.hip).flatMap rcBytes = [0xfe, 0xff, 0x77, 0x77, 0x77, 0x77, 0x04, 0x05] ∧ s.mem.mem 0x102 = 0x88) &&
      match s.log with | [.req a, .req b, .req c] => decide (a = sysW 0x77 ∧ b = sysR ∧ c = sysW 0x88) | _ => false) (by decide +kernel)
  rw [Bool.and_eq_true, decide_eq_true_eq] at h2
  obtain ⟨⟨k1, k2, k3, k4, k5, k6, k7⟩, k8⟩ := h2
  have hlog : s.log = [.req (sysW 0x77), .req sysR, .req (sysW 0x88)] := by
    split at k8
    · next a b c hl =>
      obtain ⟨rfl, rfl, rfl⟩ := of_decide_eq_true k8
      exact hl
    · cases k8
  match hq : s.reqs with
  | [] => rw [hq] at k4; cases k4
  | q :: q' :: l => rw [hq] at k4; simp at k4
  | [q] =>
    rw [hq] at k3 k4 k5
    simp only [List.map_cons, List.map_nil, List.cons.injEq, and_true] at k3 k4 k5
    refine ⟨s, q, h1, ?_, ?_, k1, ?_, by rw [hq]; rfl, ?_, by rw [k4, k5], by rw [k3]; exact sysR_bytes, rfl, rfl, by rw [hlog, k3]; rfl, by unfold IsWrite; decide +kernel,
      by unfold byteEnabled; decide +kernel, k6, k7⟩
    · intro e he
      simp only [sysRun, List.mem_cons, List.not_mem_nil, or_false] at he
      rcases he with rfl | rfl | rfl | rfl | rfl | rfl | rfl | rfl | rfl | rfl <;> trivial
    · rw [k2]
      intro t ht hn
      simp only [List.mem_cons, List.not_mem_nil, or_false] at ht
      rcases ht with rfl | rfl | rfl
      · exact absurd hn (by decide +kernel)
      · exact ⟨by decide +kernel, fun _ => ⟨sysR_bytes.2.1, by decide +kernel, by decide +kernel⟩⟩
      · exact absurd hn (by decide +kernel)
    · rw [hlog]
      intro w hw hww
      change w ∈ [sysW 0x77, sysR, sysW 0x88] at hw
      simp only [List.mem_cons, List.not_mem_nil, or_false] at hw
      rcases hw with rfl | rfl | rfl
      · exact sysW_takes _
      · exact absurd hww (by unfold IsWrite; decide +kernel)
      · exact sysW_takes _
    · intro h; rw [h] at k5; cases k5

end Pcie
