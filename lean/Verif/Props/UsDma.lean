import Verif.Lemmas.UsDmaRun
import Verif.Props.Memory
/-
C67: user logic that reads host memory through the Xilinx hard IP models gets the bytes of the memory.
-/
namespace Pcie
open Spec

/-- C67, whatever the order in which requests are made, completions arrive and tasks run: each request sent, with each completion of its answer that has arrived, shows up at the user, for each
tag in the order of the requests and of the completions; each answer is seen as it should be, and a tag is used again only when all completions of the earlier request have arrived. -/
theorem C67_user (p : HipParams) (init : Hip) (hinit : init = { ext := init.ext, busNum := init.busNum, funcs := init.funcs }) (es : List DmaEv) (s : Dma)
    (hrun : Dma.run p { hip := init } es = some (.ok s)) (hids : ∀ e ∈ es, SameIds (init.funcs.map (·.1)) e)
    (hs : Served (init.funcs.map (·.1)) s.reqs) (hl : lostOf s.hip.hist = []) :
    s.reqs.map (·.req) = (sentOf s.hip.hist).filter (·.isNonposted) ∧
    (s.reqs.Pairwise fun a b => a.req.tag = b.req.tag → a.done = a.ans.length) ∧
    ∃ see : Tlp → List Tlp → List UsTlp, (∀ q ∈ s.reqs, Seen q.req q.ans (see q.req q.ans)) ∧
      ∀ k, (deliveredOf s.hip.hist ++ buffered s.hip).filter (fun u => u.tlp.tag = k) =
        (s.reqs.filter fun q => q.req.tag = k).flatMap fun q => (see q.req q.ans).take q.done := by
  have hw := Dma.run_w (Dma.init_w p init hinit) es hids hrun
  have hc := hw.core hs hl
  refine ⟨?_, hc.ord, fun r ans => ans.map (Dma.see r), fun q hq => Dma.seen (hs q hq).2, hc.user⟩
  rw [← hw.sent]
  generalize s.hip.hist = h
  induction h with
  | nil => rfl
  | cons o h ih =>
    cases o with
    | sent t =>
      by_cases hn : t.isNonposted = true
      · simpa [Dma.sentNp, sentOf, hn] using ih
      · simpa [Dma.sentNp, sentOf, hn] using ih
    | _ => simpa [Dma.sentNp, sentOf] using ih

/-- C67, the bytes: what the user has of a read whose answer has arrived completely are exactly the bytes the memory held, marked correctly. -/
theorem C67_bytes (p : HipParams) (init : Hip) (hinit : init = { ext := init.ext, busNum := init.busNum, funcs := init.funcs }) (es : List DmaEv) (s : Dma)
    (hrun : Dma.run p { hip := init } es = some (.ok s)) (hids : ∀ e ∈ es, SameIds (init.funcs.map (·.1)) e)
    (hs : Served (init.funcs.map (·.1)) s.reqs) (hl : lostOf s.hip.hist = [])
    (q : DmaReq) (hq : q ∈ s.reqs) (hd : q.done = q.ans.length) (m : Mem) (rcb mps first n : Nat) (hr : ReadsBytes q.req first n)
    (ha : LegalCpls m rcb mps first n q.ans) (he : ∀ c ∈ q.ans, c.ep = false) :
    ∃ before us after, (deliveredOf s.hip.hist ++ buffered s.hip).filter (fun u => u.tlp.tag = q.req.tag) = before ++ us ++ after ∧
      ReadSeen m first n us ∧ Holds m first n (us.flatMap rcBytes) := by
  obtain ⟨-, -, see, h1, h2⟩ := C67_user p init hinit es s hrun hids hs hl
  have h3 := (h1 q hq).read m rcb mps first n hr ha he
  have h4 := (h1 q hq).length
  have hm : q ∈ s.reqs.filter fun x => x.req.tag = q.req.tag := List.mem_filter.mpr ⟨hq, by simp⟩
  obtain ⟨l1, l2, hl12⟩ := List.append_of_mem hm
  refine ⟨l1.flatMap fun q => (see q.req q.ans).take q.done, see q.req q.ans, l2.flatMap fun q => (see q.req q.ans).take q.done, ?_, h3, Dma.seen_bytes h3⟩
  rw [h2, hl12, List.flatMap_append, List.flatMap_cons, hd, ← h4, List.take_length, List.append_assoc]

/-- C67, tags: a tag is in use exactly while completions of the request sent with it are still to come. -/
theorem C67_tags (p : HipParams) (init : Hip) (hinit : init = { ext := init.ext, busNum := init.busNum, funcs := init.funcs }) (es : List DmaEv) (s : Dma)
    (hrun : Dma.run p { hip := init } es = some (.ok s)) (hids : ∀ e ∈ es, SameIds (init.funcs.map (·.1)) e)
    (hs : Served (init.funcs.map (·.1)) s.reqs) (hl : lostOf s.hip.hist = []) (k : Nat) (hk : k < 256) :
    s.hip.active[k]? = some none ↔ ∀ q ∈ s.reqs, q.req.tag = k → q.done = q.ans.length := by
  have hw := Dma.run_w (Dma.init_w p init hinit) es hids hrun
  have hc := hw.core hs hl
  have hact := hw.inv.core.act k
  have hlen := hw.inv.core.len
  have hget : s.hip.active[k]? = some (s.hip.active[k]'(by omega)) := List.getElem?_eq_getElem (by omega)
  have hnone : s.hip.active[k]? = some none ↔ outstanding s.hip.hist k = none := by
    rw [← hact, hget]
    cases s.hip.active[k]'(by omega) <;> simp
  rw [hnone]
  constructor
  · intro ho q hq ht
    have h1 := hc.le q hq
    rcases Nat.lt_or_ge q.done q.ans.length with h2 | h2
    · have := hc.opn q hq h2
      rw [ht, ho] at this; cases this
    · omega
  · intro h
    cases ho : outstanding s.hip.hist k with
    | none => rfl
    | some r =>
      obtain ⟨q, h1, h2, h3, h4⟩ := hc.out k r ho
      have := h q h1 (by rw [h2, h3])
      omega

private theorem ur_own (r : Tlp) (id : PcieId) (b : Bool) (st : Nat) : Own r (r.createCompletion id b st) ∧ (r.createCompletion id b st).status = st := by
  cases b <;> exact ⟨⟨rfl, rfl, rfl, rfl, rfl⟩, rfl⟩

private theorem cplLoop_ep (c : CplCfg) (t : Tlp) (data : List UInt8) (dw bl : Nat) : ∀ (k m n addr : Nat), dw - m = k → ∀ x ∈ cplLoop c t data dw bl m n addr, x.ep = false := by
  intro k
  induction k using Nat.strongRecOn with
  | ind k ih =>
    intro m n addr hk x hx
    rw [cplLoop] at hx
    split at hx
    · next hm =>
      rcases List.mem_cons.mp hx with rfl | hx
      · rfl
      · have := c.chunk_pos (dw - m) addr (by omega)
        exact ih _ (by omega) _ _ _ rfl x hx
    · simp at hx

private theorem legal_fmt {m : Mem} {rcb mps first n : Nat} {ans : List Tlp} (h : LegalCpls m rcb mps first n ans) : ∀ c ∈ ans, c.fmtType = some .CPL_DATA := by
  induction h with
  | last => intro c hc; rw [List.mem_singleton.mp hc]; assumption
  | more _ _ _ _ _ _ _ _ _ _ _ _ _ _ ih =>
    intro c hc
    rcases List.mem_cons.mp hc with rfl | hc
    · assumption
    · exact ih c hc

/-- C67, the host: the root complex answers every dword-aligned memory read request that stays within 4 KiB properly: with the data, or with a completion that reports the error. -/
theorem C67_host (cfg : CplCfg) (mem : AddrSpace) (r : Tlp) (hr : IsRead r) (hbe : BeLegal r) (hA : r.address % 4 = 0) (hb : r.address % 4096 + 4 * r.length ≤ 4096) :
    Answers r (Rc.handleMemRead cfg mem r) ∧
    (mem.covers r.address (r.length * 4) = true → mem.readOk r.address (r.length * 4) = true → ∀ first n, ReadsBytes r first n →
      ∃ rcb mps, LegalCpls mem.mem rcb mps first n (Rc.handleMemRead cfg mem r) ∧ ∀ c ∈ Rc.handleMemRead cfg mem r, c.ep = false) := by
  have good : mem.covers r.address (r.length * 4) = true → mem.readOk r.address (r.length * 4) = true → ∀ first n, ReadsBytes r first n →
      LegalCpls mem.mem (if cfg.rcb128 then 128 else 64) (128 <<< cfg.mps) first n (Rc.handleMemRead cfg mem r) ∧
        ∀ c ∈ Rc.handleMemRead cfg mem r, Own r c ∧ c.ep = false := by
    rintro hc ho first n ⟨-, -, last, hf, hl, rfl⟩
    obtain ⟨h1, h2⟩ := C14_rc_completions cfg mem r first last hbe hA hb hf hl hc ho
    refine ⟨h1, fun c hcm => ⟨⟨?_, (h2 c hcm).1, (h2 c hcm).2.1, (h2 c hcm).2.2.2.1, (h2 c hcm).2.2.2.2.1⟩, ?_⟩⟩
    · have e : c.isCompletion = decide (c.fmtType.bind TlpType.fcType = some .CPL) := rfl
      rw [e, legal_fmt h1 c hcm]; rfl
    · rw [rc_memRead cfg mem r hb hc ho] at hcm
      exact cplLoop_ep cfg r _ _ _ _ _ _ _ rfl c hcm
  refine ⟨?_, fun hc ho first n h => ⟨_, _, (good hc ho first n h).1, fun c hcm => ((good hc ho first n h).2 c hcm).2⟩⟩
  by_cases hc : mem.covers r.address (r.length * 4) = true
  · by_cases ho : mem.readOk r.address (r.length * 4) = true
    · have h1 := firstEnabled_offset r hbe
      have h2 := lastEnabled_offset r hbe
      obtain ⟨g1, g2⟩ := good hc ho _ _ ⟨hr, hbe, _, h1, h2, rfl⟩
      exact .read _ _ _ _ _ _ ⟨hr, hbe, _, h1, h2, rfl⟩ g1 g2
    · have : Rc.handleMemRead cfg mem r = [r.createCa cfg.id] := by
        unfold Rc.handleMemRead AddrSpace.read
        rw [and_fff, if_neg (by rw [hc]; simp), if_neg (by omega), if_neg ho]
      rw [this]
      exact .single _ (ur_own r _ _ _).1 (.inl (by rw [show (r.createCa cfg.id).status = _ from (ur_own r _ _ _).2]; decide))
  · have : Rc.handleMemRead cfg mem r = [r.createUr cfg.id] := by
      unfold Rc.handleMemRead; rw [if_pos hc]
    rw [this]
    exact .single _ (ur_own r _ _ _).1 (.inl (by rw [show (r.createUr cfg.id).status = _ from (ur_own r _ _ _).2]; decide))

/-- C67, the host, I/O requests: what the root complex sends for an I/O read or write request is a proper answer. -/
theorem C67_host_io (id : PcieId) (io io' : AddrSpace) (r : Tlp) (ans : List Tlp) (hr : ¬ IsRead r)
    (h : Rc.handleIoRead id io r = .ok ans ∨ Rc.handleIoWrite id io r = .ok (io', ans)) : Answers r ans := by
  rcases h with h | h
  · unfold Rc.handleIoRead at h
    split at h
    · cases h; exact .single _ (ur_own r _ _ _).1 (.inr hr)
    · split at h
      · cases h
      · split at h
        · cases h; exact .single _ (ur_own r _ _ _).1 (.inr hr)
        · cases h; exact .single _ (ur_own r id true CplStatus.SC).1 (.inr hr)
  · unfold Rc.handleIoWrite at h
    split at h
    · cases h; exact .single _ (ur_own r _ _ _).1 (.inr hr)
    · split at h
      · cases h
      · split at h
        · cases h; exact .single _ (ur_own r _ _ _).1 (.inr hr)
        · cases h; exact .single _ (ur_own r id false CplStatus.SC).1 (.inr hr)

/-! ### A concrete case: a read of 30 bytes answered by two completions, and an I/O read in between -/

/-- The memory holds the low byte of each address. -/
private def dmaMem : Mem := fun a => UInt8.ofNat a
private def dmaRead : Tlp := { (({} : Tlp).setFmtType .MEM_READ) with tag := 1, address := 0x30, length := 8, first_be := 0xe, last_be := 0x7 }
private def dmaIo : Tlp := { (({} : Tlp).setFmtType .IO_READ) with tag := 2, address := 0x80, length := 1, first_be := 0xf }
private def dmaCpl (low count start : Nat) : Tlp :=
  { (({} : Tlp).setFmtType .CPL_DATA) with tag := 1, lower_address := low, byte_count := count, length := 4, data := (List.range 16).map fun i => UInt8.ofNat (start + i) }
private def dmaAns : List Tlp := [dmaCpl 0x31 30 0x30, dmaCpl 0x40 15 0x40]
private def dmaRun : List DmaEv :=
  [.dev (.rq { tlp := { dmaRead with tag := 0 } }) dmaAns, .dev (.rq { tlp := { dmaIo with tag := 0 } }) [dmaIo.createUr ⟨0, 0, 0⟩], .cpl 0, .cpl 1, .dev .rcGet [], .dev .rcDone [], .cpl 0]

private theorem dmaRead_bytes : ReadsBytes dmaRead 0x31 30 := by
  have hb : BeLegal dmaRead := by unfold BeLegal; decide +kernel
  exact ⟨by unfold IsRead; decide +kernel, hb, _, firstEnabled_offset dmaRead hb, lastEnabled_offset dmaRead hb, by decide +kernel⟩

private theorem dmaAns_legal : LegalCpls dmaMem 64 128 0x31 30 dmaAns := by
  have hold : ∀ low count start, Holds dmaMem start 16 (dmaCpl low count start).data := by
    intro low count start
    refine ⟨by simp [dmaCpl], fun i hi => ?_⟩
    simp [dmaCpl, dmaMem]
  refine .more _ _ _ _ (by decide +kernel) (by decide +kernel) (by decide +kernel) (by decide +kernel) (by decide +kernel) (by decide +kernel) (by decide +kernel) (by decide +kernel)
    (hold 0x31 30 0x30) ?_
  exact .last _ _ _ (by decide +kernel) (by decide +kernel) (by decide +kernel) (by decide +kernel) (by decide +kernel) (by decide +kernel) (by decide +kernel) (hold 0x40 15 0x40)

private theorem dmaAns_own : ∀ c ∈ dmaAns, Own dmaRead c ∧ c.ep = false := by
  intro c hc
  simp only [dmaAns, List.mem_cons, List.not_mem_nil, or_false] at hc
  rcases hc with rfl | rfl <;> refine ⟨⟨?_, ?_, ?_, ?_, ?_⟩, ?_⟩ <;> decide +kernel

/-- The hypotheses of `C67_user`, `C67_bytes` and `C67_tags` are met: both requests are sent, with tags 1 and 2, and all completions have arrived; the user has seen the first. -/
example : ∃ s, Dma.run .us { hip := {} } dmaRun = some (.ok s) ∧ (∀ e ∈ dmaRun, SameIds (({} : Hip).funcs.map (·.1)) e) ∧ Served (({} : Hip).funcs.map (·.1)) s.reqs ∧
    lostOf s.hip.hist = [] ∧ s.reqs = [⟨dmaRead, dmaAns, 2⟩, ⟨dmaIo, [dmaIo.createUr ⟨0, 0, 0⟩], 1⟩] ∧ (deliveredOf s.hip.hist).map rcBytes = [(List.range 15).map fun i => UInt8.ofNat (0x31 + i)] := by
  have conv : ∀ (x : Option (Py Dma)) (q : Dma → Prop) [DecidablePred q], (match x with | some (.ok l) => decide (q l) | _ => false) = true → ∃ l, x = some (.ok l) ∧ q l := by
    intro x q _ h
    split at h
    · exact ⟨_, rfl, of_decide_eq_true h⟩
    · cases h
  obtain ⟨s, h1, h2, h3, h4⟩ := conv (Dma.run .us { hip := {} } dmaRun)
    (fun s => lostOf s.hip.hist = [] ∧ s.reqs = [⟨dmaRead, dmaAns, 2⟩, ⟨dmaIo, [dmaIo.createUr ⟨0, 0, 0⟩], 1⟩] ∧
      (deliveredOf s.hip.hist).map rcBytes = [(List.range 15).map fun i => UInt8.ofNat (0x31 + i)]) (by decide +kernel)
  refine ⟨s, h1, ?_, ?_, h2, h3, h4⟩
  · intro e he
    simp only [dmaRun, List.mem_cons, List.not_mem_nil, or_false] at he
    rcases he with rfl | rfl | rfl | rfl | rfl | rfl | rfl <;> trivial
  · rw [h3]
    intro q hq
    simp only [List.mem_cons, List.not_mem_nil, or_false] at hq
    rcases hq with rfl | rfl
    · exact ⟨by decide +kernel, .read dmaMem 64 128 _ _ _ dmaRead_bytes dmaAns_legal dmaAns_own⟩
    · exact ⟨by decide +kernel, .single _ (ur_own dmaIo _ _ _).1 (.inr (by unfold IsRead; decide +kernel))⟩

/-- The hypotheses of `C67_host` and `C67_host_io` are met. -/
example : IsRead dmaRead ∧ dmaRead.length = 8 ∧ dmaRead.address % 4 = 0 ∧ dmaRead.address % 4096 + 4 * dmaRead.length ≤ 4096 ∧ ¬ IsRead dmaIo := by
  unfold IsRead; decide +kernel

example : ∃ ans, Rc.handleIoRead ⟨0, 0, 0⟩ { mem := dmaMem, covers := fun _ _ => true } dmaIo = .ok ans ∧ ans.map (·.data) = [[0x80, 0x81, 0x82, 0x83]] :=
  ⟨_, rfl, by decide +kernel⟩

end Pcie
