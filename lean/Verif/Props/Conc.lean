import Verif.Lemmas.ConcCall
/-
C78: tasks of a requester that read and write memory at the same time.
-/
namespace Pcie
open Spec

variable {σ : Type}

/-! ### Completers with memory -/

/-- The root complex is a completer with memory (C11, C14): the host's address space covers the addresses `lo .. hi - 1` and takes reads and writes there. -/
theorem C78_host_memory (cfg : CplCfg) (rid : PcieId) (lo hi : Nat) :
    ServesMem (Completer.rc cfg) (fun s => s.mem) (fun s => ∀ a n, lo ≤ a → a + n ≤ hi → s.covers a n = true ∧ s.readOk a n = true ∧ s.writeOk a n = true) rid lo hi where
  read := by
    rintro s t k first n hg hr ⟨-, hb, last, hf, hl, rfl⟩ h1 h2 -
    obtain ⟨c1, c2, -⟩ := hg t.address (t.length * 4) h1 (by omega)
    exact ⟨_, _, _, rfl, (C14_rc_completions cfg s t first last hb hr.aligned hr.boundary hf hl c1 c2).1⟩
  write := by
    intro s t k hg hw h1 h2 _
    obtain ⟨c1, -, -⟩ := hg t.address (t.length * 4) h1 (by omega)
    obtain ⟨m, e1, e2⟩ := C11_rc_write_tlp s t hw.length_pos hw.payload hw.boundary c1 (fun a n hn hen => by
      obtain ⟨f1, -, -⟩ := hen a (Nat.le_refl _) (by omega)
      obtain ⟨g1, g2, -⟩ := hen (a + n - 1) (by omega) (by omega)
      exact (hg a n (by omega) (by omega)).2.2)
    exact ⟨{ s with mem := m }, congrArg Except.ok e1, hg, e2⟩

private theorem legal_congr {M M' : Mem} {rcb mps base addr n : Nat} {cpls : List Tlp} (h : LegalCpls M rcb mps addr n cpls) (hb : base % 4 = 0) (he : ∀ a, base ≤ a → M a = M' a)
    (h1 : base ≤ addr) : LegalCpls M' rcb mps addr n cpls := by
  have hold : ∀ a l (d : List UInt8), base ≤ a → Holds M a l d → Holds M' a l d := by
    intro a l d ha ⟨x, y⟩
    exact ⟨x, fun i hi => by rw [y i hi]; exact he _ (by omega)⟩
  induction h with
  | last addr r c h0 hs hf hla hbc hl hmp hh => exact .last addr r c h0 hs hf hla hbc hl hmp (hold _ _ _ (by omega) hh)
  | more addr r c rest hs hf hla hbc hl hgt hmp hbd hh hrest ih => exact .more addr r c rest hs hf hla hbc hl hgt hmp hbd (hold _ _ _ (by omega) hh) (ih (by omega))

/-- So is a memory endpoint with a region of a whole number of dwords behind a base address register. -/
theorem C78_endpoint_memory (rid : PcieId) (idx base k size : Nat) (hk : 2 ≤ k) (hal : base % 2 ^ k = 0) (hsz : size ≤ 2 ^ k) :
    ServesMem Completer.ep (epView idx base) (fun e => ClaimsMem e.bars idx base k ∧ ∃ b, e.regions[idx]? = some (some b) ∧ b.size = size) rid base (base + size) where
  read := by
    rintro e t n first l ⟨hcl, b, hbuf, rfl⟩ hr ⟨-, hb, last, hf, hl, rfl⟩ h1 h2 -
    have hb4 : base % 4 = 0 := by
      rw [show (4 : Nat) = 2 ^ 2 from rfl]
      exact Nat.mod_eq_zero_of_dvd (Nat.dvd_trans (Nat.pow_dvd_pow 2 hk) (Nat.dvd_of_mod_eq_zero hal))
    have hp := hr.length_pos
    obtain ⟨cpls, e1, e2, -⟩ := C14_endpoint_completions e t idx base b first last hb hr.aligned (hcl _ h1 (by omega)) hbuf h1 h2
      (off_4k base k _ _ hal h1 (by omega) hr.boundary) hf hl
    refine ⟨cpls, _, _, e1, legal_congr e2 hb4 (fun a ha => ?_) (Nat.le_trans h1 hf.1.1)⟩
    unfold epView busView
    rw [if_pos ha, hbuf]
  write := by
    rintro e t n ⟨hcl, b, hbuf, rfl⟩ hw h1 h2 -
    have hp := hw.length_pos
    obtain ⟨m, e1, e2, e3⟩ := C11_endpoint_write_tlp e t idx (t.address - base) b (hcl _ h1 (by omega)) hbuf hw.length_pos hw.payload
      (off_4k base k _ _ hal h1 (by omega) hw.boundary) (fun i hi => by
        obtain ⟨g1, g2, -⟩ := hi
        omega)
    have hget : (e.regions.set idx (some ⟨b.size, m⟩))[idx]? = some (some ⟨b.size, m⟩) := by
      obtain ⟨hlt, -⟩ := List.getElem?_eq_some_iff.mp hbuf
      rw [List.getElem?_set_self hlt]
    refine ⟨_, e1, ⟨hcl, ⟨b.size, m⟩, hget, rfl⟩, ?_, ?_⟩
    · intro i hi
      rw [e2 i hi]
      unfold epView
      rw [if_pos (by omega)]
      simp only [hget]
      rw [show t.address + i - base = t.address - base + i by omega]
    · intro a ha
      unfold epView
      by_cases hba : base ≤ a
      · simp only [if_pos hba, hget, hbuf]
        refine e3 _ ?_
        rintro ⟨i, hi, hen⟩
        exact ha ⟨i, by omega, hen⟩
      · rw [if_neg hba, if_neg hba]

/-! ### C78 -/

/-- The requests that calls of `read` and `write` for addresses in `lo .. hi - 1` make are ones that the theorems below allow. -/
theorem C78_calls_ok (Good : σ → Prop) (c : ReqCfg) (lo hi : Nat) (hlo : lo % 4 = 0) (hhi : hi % 4 = 0) (addr attr tc : Nat) (h1 : lo ≤ addr) :
    (∀ length reqs n, 0 < length → addr + length ≤ hi → n ≤ 256 → Region.readReqs c addr length attr tc = .ok reqs → ∀ t ∈ reqs.map (·.2), TaskOk Good c.id lo hi (.start t n)) ∧
    (∀ data ws, data ≠ [] → addr + data.length ≤ hi → Region.write c addr data attr tc = .ok ws → ∀ t ∈ ws, TaskOk Good c.id lo hi (.post t)) := by
  constructor
  · intro length reqs n h0 h2 hn hr t ht
    unfold Region.readReqs at hr
    have hz : ¬ length = 0 := by omega
    simp only [hz, if_false, decide_false] at hr
    split at hr
    · cases hr
    · cases hr
      obtain ⟨x, hx, rfl⟩ := List.mem_map.mp ht
      exact ⟨hn, Conc.readLoop_readIn c hlo hhi attr tc length 0 addr (by omega) h1 (by omega) x hx⟩
  · intro data ws hne h2 hw t ht
    unfold Region.write at hw
    have hz : ¬ data.length = 0 := fun h => hne (List.length_eq_zero_iff.1 h)
    simp only [hz, if_false, decide_false] at hw
    split at hw
    · cases hw
    · cases hw
      exact Conc.writeLoop_writeIn c hlo hhi attr tc data 0 addr (by omega) h1 (by omega) t ht

/-- Nothing fails, requests are handled in the order in which they were sent, and every byte of the memory is the last one written there. -/
theorem C78_order (C : Completer σ) (view : σ → Mem) (Good : σ → Prop) (rid : PcieId) (lo hi : Nat) (hC : ServesMem C view Good rid lo hi) (m : σ) (hm : Good m) (es : List (ConcEv σ))
    (he : ∀ e ∈ es, TaskOk Good rid lo hi e) :
    Conc.run C { mem := m } es = none ∨ ∃ s, Conc.run C { mem := m } es = some (.ok s) ∧ handledReqs s.log ++ s.link = s.sent ∧
      ∀ a, ByteAfter (view m) a (actsOf view s.log) (view s.mem a) := by
  rcases Conc.run_i hC es (Conc.init_i rid lo hi m hm) he with h | ⟨s, h, hi⟩
  · exact .inl h
  · exact .inr ⟨s, h, hi.fifo, hi.mem⟩

private theorem inv {C : Completer σ} {view : σ → Mem} {Good : σ → Prop} {rid : PcieId} {lo hi : Nat} (hC : ServesMem C view Good rid lo hi) {m : σ} (hm : Good m) {es : List (ConcEv σ)}
    (he : ∀ e ∈ es, TaskOk Good rid lo hi e) {s : Conc σ} (hs : Conc.run C { mem := m } es = some (.ok s)) : Conc.I view Good rid lo hi (view m) s := by
  rcases Conc.run_i hC es (Conc.init_i rid lo hi m hm) he with h | ⟨s', h, hi⟩
  · rw [hs] at h; cases h
  · rw [hs] at h; injection h with h; injection h with h; subst h; exact hi

/-- An operation that has finished has received a legal sequence of completions with the bytes that the memory had when the request of this operation was handled. -/
theorem C78_request (C : Completer σ) (view : σ → Mem) (Good : σ → Prop) (rid : PcieId) (lo hi : Nat) (hC : ServesMem C view Good rid lo hi) (m : σ) (hm : Good m) (es : List (ConcEv σ))
    (he : ∀ e ∈ es, TaskOk Good rid lo hi e) (s : Conc σ) (hs : Conc.run C { mem := m } es = some (.ok s)) (i : Nat) (o : Op) (ho : s.ops.ops[i]? = some o) (hf : o.finished = true) :
    ∃ before after now rcb mps first n, s.log = before ++ .req (some i) { o.req with tag := o.tag } :: after ∧ (∀ a, ByteAfter (view m) a (actsOf view before) (now a)) ∧
      ReadsBytes o.req first n ∧ LegalCpls now rcb mps first n (o.got.map (·.2)) := by
  have hI := inv hC hm he hs
  obtain ⟨hsv, hg⟩ := Conc.finished hI ho hf
  obtain ⟨pre, post, M, rcb, mps, first, n, e1, e2, e3, e4⟩ := hI.done i o ho hsv
  exact ⟨pre, post, M, rcb, mps, first, n, e1, e4, e2, hg ▸ e3⟩

/-- A call of `read`, operation `num t` being the one for its request `t`: when all of these have finished, it returns as many bytes as were asked for, each the one that was in memory when the
request for it was handled. -/
theorem C78_read_call (C : Completer σ) (view : σ → Mem) (Good : σ → Prop) (rid : PcieId) (lo hi : Nat) (hC : ServesMem C view Good rid lo hi) (m : σ) (hm : Good m) (es : List (ConcEv σ))
    (he : ∀ e ∈ es, TaskOk Good rid lo hi e) (s : Conc σ) (hs : Conc.run C { mem := m } es = some (.ok s))
    (c : ReqCfg) (addr length attr tc : Nat) (h0 : 0 < length) (reqs : List (Nat × Tlp)) (hr : Region.readReqs c addr length attr tc = .ok reqs) (num : Tlp → Nat)
    (hops : ∀ t ∈ reqs.map (·.2), ∃ o, s.ops.ops[num t]? = some o ∧ o.req = t ∧ o.finished = true) :
    ∃ bytes, Region.read c (fun t => ((s.ops.ops[num t]?).map fun o => o.got.map (·.2)).getD []) addr length attr tc = .ok bytes ∧ bytes.length = length ∧
      ∀ j b, bytes[j]? = some b → ∃ t ∈ reqs.map (·.2), ∃ tag before after, byteEnabled t (addr + j) ∧ s.log = before ++ .req (some (num t)) { t with tag := tag } :: after ∧
        ByteAfter (view m) (addr + j) (actsOf view before) b := by
  have hz : ¬ length = 0 := by omega
  unfold Region.read
  rw [hr]
  unfold Region.readReqs at hr
  simp only [hz, if_false, decide_false] at hr
  split at hr
  · cases hr
  · cases hr
    obtain ⟨bytes, b1, b2, b3⟩ := Conc.readLoop_bytes c attr tc length 0 addr (by omega) (fun t => ((s.ops.ops[num t]?).map fun o => o.got.map (·.2)).getD [])
      (fun a b => ∃ t ∈ (Region.readLoop c attr tc false length 0 addr).map (·.2), ∃ tag before after, byteEnabled t a ∧
        s.log = before ++ .req (some (num t)) { t with tag := tag } :: after ∧ ByteAfter (view m) a (actsOf view before) b) [] (by
        intro t ht
        obtain ⟨o, ho, rfl, hf⟩ := hops t ht
        obtain ⟨before, after, now, rcb, mps, first, n, e1, e2, e3, e4⟩ := C78_request C view Good rid lo hi hC m hm es he s hs _ o ho hf
        refine ⟨now, rcb, mps, first, n, e3, ?_, fun a ha => ⟨_, ht, _, before, after, ha, e1, e2 a⟩⟩
        rw [ho]; exact e4)
    refine ⟨bytes, ?_, by rw [b2, Nat.sub_zero], b3⟩
    rw [List.nil_append] at b1
    simp only [bind, Except.bind, b1, hz, if_false]
    rw [List.take_of_length_le (by omega)]

/-- Reading back: a call of `write` has been made during `es1` (its requests have been sent, not necessarily handled), a call of `read` for bytes of it is made later. Nothing but the requests of
that call writes these bytes meanwhile. The read returns the data written. -/
theorem C78_write_then_read (C : Completer σ) (view : σ → Mem) (Good : σ → Prop) (rid : PcieId) (lo hi : Nat) (hC : ServesMem C view Good rid lo hi) (m : σ) (hm : Good m)
    (es0 es1 es2 : List (ConcEv σ)) (he : ∀ e ∈ es0 ++ es1 ++ es2, TaskOk Good rid lo hi e) (s1 s : Conc σ)
    (hs1 : Conc.run C { mem := m } (es0 ++ es1) = some (.ok s1)) (hs : Conc.run C { mem := m } (es0 ++ es1 ++ es2) = some (.ok s))
    (cw : ReqCfg) (addr : Nat) (data : List UInt8) (attr tc : Nat) (hne : data ≠ []) (ws : List Tlp) (hws : Region.write cw addr data attr tc = .ok ws)
    (hposted : ∀ w ∈ ws, .post w ∈ es1)
    (hno : ∀ e ∈ es1 ++ es2, (∀ x, e ≠ .other x) ∧ ∀ w, e = .post w → w ∉ ws → ∀ a, addr ≤ a → a < addr + data.length → ¬ byteEnabled w a)
    (cr : ReqCfg) (raddr length rattr rtc : Nat) (h0 : 0 < length) (hr1 : addr ≤ raddr) (hr2 : raddr + length ≤ addr + data.length)
    (reqs : List (Nat × Tlp)) (hr : Region.readReqs cr raddr length rattr rtc = .ok reqs) (num : Tlp → Nat)
    (hops : ∀ t ∈ reqs.map (·.2), s1.ops.ops.length ≤ num t ∧ ∃ o, s.ops.ops[num t]? = some o ∧ o.req = t ∧ o.finished = true) :
    Region.read cr (fun t => ((s.ops.ops[num t]?).map fun o => o.got.map (·.2)).getD []) raddr length rattr rtc = .ok (slice data (raddr - addr) (raddr - addr + length)) := by
  -- the write
  have hz : ¬ data.length = 0 := fun h => hne (List.length_eq_zero_iff.1 h)
  have hD : (∀ a, addr ≤ a → a < addr + data.length → ∃ t ∈ ws, byteEnabled t a) ∧ ∀ t ∈ ws, ∀ a, byteEnabled t a → t.data[a - t.address]? = data[a - addr]? := by
    unfold Region.write at hws
    simp only [hz, if_false, decide_false] at hws
    split at hws
    · cases hws
    · cases hws
      obtain ⟨d1, d2⟩ := Conc.writeLoop_data cw attr tc data 0 addr (by omega)
      exact ⟨d1, fun t ht a ha => by rw [(d2 t ht a ha).2.2, Nat.zero_add]⟩
  obtain ⟨D1, D2⟩ := hD
  -- the states
  obtain ⟨s0, r0, r1⟩ := Conc.run_split es0 es1 hs1
  have r2 : s1.run C es2 = some (.ok s) := by rw [← Conc.run_append _ _ hs1]; exact hs
  obtain ⟨L1, S1, a1, a2, a3, a4, a5⟩ := Conc.grow es1 r1
  obtain ⟨L2, S2, b1, b2, b3, b4, -⟩ := Conc.grow es2 r2
  have I0 := inv hC hm (fun e h => he e (by simp [h])) r0
  have I1 := inv hC hm (fun e h => he e (by rw [List.append_assoc]; simp at h ⊢; rcases h with h | h <;> simp [h])) hs1
  have I2 := inv hC hm he hs
  obtain ⟨bytes, c1, c2, c3⟩ := C78_read_call C view Good rid lo hi hC m hm _ he s hs cr raddr length rattr rtc h0 reqs hr num (fun t ht => (hops t ht).2)
  rw [c1]
  congr 1
  have hsl : (slice data (raddr - addr) (raddr - addr + length)).length = length := by rw [slice_length _ _ _ (by omega)]; omega
  apply List.ext_getElem?
  intro j
  rcases Nat.lt_or_ge j length with hj | hj
  swap
  · rw [List.getElem?_eq_none (by omega), List.getElem?_eq_none (by omega)]
  have hb : bytes[j]? = some bytes[j] := List.getElem?_eq_getElem (by omega)
  obtain ⟨t, ht, tag, before, after, -, e1, e2⟩ := c3 j _ hb
  have hnum := (hops t ht).1
  have hv : data[raddr + j - addr]? = some data[raddr + j - addr] := List.getElem?_eq_getElem (by omega)
  -- where the request of the read is
  have n0 : ConcAct.req (some (num t)) { t with tag := tag } ∉ s0.log := by
    intro h
    have : (some (num t), { t with tag := tag }) ∈ s0.sent := by
      rw [← I0.fifo]; exact List.mem_append_left _ (List.mem_filterMap.mpr ⟨_, h, rfl⟩)
    have := Conc.sent_bound I0 this
    omega
  have n1 : (some (num t), { t with tag := tag }) ∉ s1.sent := by
    intro h
    have := Conc.sent_bound I1 h
    omega
  obtain ⟨P, p1, p2⟩ := Conc.prefix_of_not_mem (x := s0.log) (y := L1 ++ L2) (by rw [← List.append_assoc, ← a1, ← b1]; exact e1) n0
  have hsent : s1.sent ++ S2 = handledReqs before ++ (some (num t), { t with tag := tag }) :: (handledReqs after ++ s.link) := by
    rw [← b2, ← I2.fifo, e1, Conc.handledReqs_append, List.append_assoc]; rfl
  obtain ⟨Q, q1, q2⟩ := Conc.prefix_of_not_mem hsent n1
  have hP : handledReqs P = s0.link ++ (S1 ++ Q) := by
    rw [p1, Conc.handledReqs_append, a2, ← I0.fifo, List.append_assoc, List.append_assoc] at q1
    exact List.append_cancel_left q1
  have hPo : ∀ x, ConcAct.other x ∉ P := by
    intro x hx
    have : ConcAct.other x ∈ L1 ++ L2 := by rw [p2]; exact List.mem_append_left _ hx
    have hmem : ConcEv.other x ∈ es1 ++ es2 := by
      rcases List.mem_append.mp this with h | h
      · exact List.mem_append_left _ (a3 x h)
      · exact List.mem_append_right _ (b3 x h)
    exact (hno _ hmem).1 x rfl
  rw [p1, Conc.actsOf_append, Conc.actsOf_reqs view P hPo, hP, List.map_append, ← List.append_assoc,
    show (S1 ++ Q).map (fun x : Option Nat × Tlp => MemAct.req x.2) = ((S1 ++ Q).map (·.2)).map .req by rw [List.map_map]; rfl] at e2
  have hval := Conc.byteAfter_val (v := data[raddr + j - addr]) _ _ _ e2 ?_ ?_
  · rw [hb, hval]
    unfold slice
    rw [List.getElem?_drop, List.getElem?_take, if_pos (by omega), ← hv]
    congr 1
    omega
  · obtain ⟨w, w1, w2⟩ := D1 (raddr + j) (by omega) (by omega)
    refine ⟨w, List.mem_map.mpr ⟨(none, w), List.mem_append_left _ ((a4 w).mpr (hposted w w1)), rfl⟩, ?_, w2⟩
    obtain ⟨⟨k, hk⟩, -⟩ := he (.post w) (by simp [hposted w w1])
    exact Conc.writeOk_isWrite hk
  · intro r hrm hrw hre
    obtain ⟨⟨x, r'⟩, hx, rfl⟩ := List.mem_map.mp hrm
    simp only at hrw hre ⊢
    cases x with
    | some k =>
      have hmem : (some k, r') ∈ s.sent := by
        rw [b2, a2, q2]
        rcases List.mem_append.mp hx with h | h <;> simp [h]
      rcases I2.rd k r' hmem with h1 | h1 <;> rcases hrw with h2 | h2 <;> rw [h1] at h2 <;> cases h2
    | none =>
      have hmem : ConcEv.post r' ∈ es1 ++ es2 := by
        rcases List.mem_append.mp hx with h | h
        · exact List.mem_append_left _ ((a4 r').mp h)
        · exact List.mem_append_right _ ((b4 r').mp (by rw [q2]; exact List.mem_append_left _ h))
      have hin : r' ∈ ws := by
        by_cases h : r' ∈ ws
        · exact h
        · exact absurd hre ((hno _ hmem).2 r' rfl h _ (by omega) (by omega))
      rw [D2 r' hin _ hre, hv]

/-! ### A concrete case -/

private def exCfg : ReqCfg := { busMasterEnable := true }
private def exData : List UInt8 := [1, 2, 3, 4, 5, 6]
/-- A write of six bytes from 0xffd on makes two requests, a read of these bytes too. -/
private def exW : List Tlp := (Region.write exCfg 0xffd exData).toOption.getD []
private def exR : List (Nat × Tlp) := (Region.readReqs exCfg 0xffd 6).toOption.getD []
private def exNum (t : Tlp) : Nat := if t.address = 0xffc then 1 else 2
/-- An earlier read of another task, the write, the read (its second request is sent first); the requests of the write are still on the link when the read begins. -/
private def exEs0 : List (ConcEv AddrSpace) := (exR.take 1).flatMap fun r => [.start r.2 32, .send 0]
private def exEs1 : List (ConcEv AddrSpace) := exW.map .post
private def exEs2 : List (ConcEv AddrSpace) :=
  exR.map (fun r => .start r.2 32) ++ [.send 2, .send 1, .handle, .handle, .handle, .handle, .handle, .arrive 0, .arrive 1, .arrive 2, .recv 2, .recv 0, .recv 1]

example : exW.length = 2 ∧ exR.length = 2 ∧
    (Region.write exCfg 0xffd exData).toOption = some exW ∧ (Region.readReqs exCfg 0xffd 6).toOption = some exR ∧
    ((Conc.run (Completer.rc {}) { mem := { mem := fun _ => 0xaa } } (exEs0 ++ exEs1)).map fun r => r.toOption.map fun s => s.ops.ops.length) = some (some 1) ∧
    ((Conc.run (Completer.rc {}) { mem := { mem := fun _ => 0xaa } } (exEs0 ++ exEs1 ++ exEs2)).map fun r => r.toOption.map fun s => s.ops.ops.map (fun o => (o.tag, o.finished))) =
      some (some [(1, true), (2, true), (3, true)]) ∧
    ((Conc.run (Completer.rc {}) { mem := { mem := fun _ => 0xaa } } (exEs0 ++ exEs1 ++ exEs2)).map fun r => r.toOption.map fun s =>
      (Region.read exCfg (fun t => ((s.ops.ops[exNum t]?).map fun o => o.got.map (·.2)).getD []) 0xffd 6).toOption) = some (some (some exData)) ∧
    ((Conc.run (Completer.rc {}) { mem := { mem := fun _ => 0xaa } } (exEs0 ++ exEs1 ++ exEs2)).map fun r => r.toOption.map fun s =>
      (s.ops.ops[0]?).map fun o => o.got.map (·.2.data)) = some (some (some [[0xaa, 0xaa, 0xaa, 0xaa]])) := by
  refine ⟨by decide +kernel, by decide +kernel, by decide +kernel, by decide +kernel, by decide +kernel, by decide +kernel, by decide +kernel, by decide +kernel⟩

/-- These events are allowed and write nothing else to these bytes. -/
example : (∀ e ∈ exEs0 ++ exEs1 ++ exEs2, TaskOk (fun s : AddrSpace => ∀ a n, 0 ≤ a → a + n ≤ 0x2000 → s.covers a n = true ∧ s.readOk a n = true ∧ s.writeOk a n = true) exCfg.id 0 0x2000 e) ∧
    (∀ t ∈ exR.map (·.2), 1 ≤ exNum t) ∧ (∀ w ∈ exW, .post w ∈ exEs1) ∧ ∀ e ∈ exEs1 ++ exEs2, (∀ x, e ≠ .other x) ∧ ∀ w, e = .post w → w ∈ exW := by
  have hw : Region.write exCfg 0xffd exData = .ok exW := rfl
  have hr : Region.readReqs exCfg 0xffd 6 = .ok exR := rfl
  obtain ⟨k1, k2⟩ := C78_calls_ok (fun s : AddrSpace => ∀ a n, 0 ≤ a → a + n ≤ 0x2000 → s.covers a n = true ∧ s.readOk a n = true ∧ s.writeOk a n = true) exCfg 0 0x2000 rfl rfl 0xffd 0 0 (by omega)
  have k3 := k1 6 exR 32 (by omega) (by omega) (by omega) hr
  have k4 := k2 exData exW (by decide) (by decide) hw
  refine ⟨?_, by decide +kernel, fun w h => List.mem_map.mpr ⟨w, h, rfl⟩, ?_⟩
  · intro e h
    rcases List.mem_append.mp h with h | h
    · rcases List.mem_append.mp h with h | h
      · obtain ⟨r, h1, h2⟩ := List.mem_flatMap.mp h
        have := k3 r.2 (List.mem_map.mpr ⟨r, List.mem_of_mem_take h1, rfl⟩)
        simp only [List.mem_cons, List.not_mem_nil, or_false] at h2
        rcases h2 with rfl | rfl
        · exact this
        · trivial
      · obtain ⟨w, h1, rfl⟩ := List.mem_map.mp h
        exact k4 w h1
    · rcases List.mem_append.mp h with h | h
      · obtain ⟨r, h1, rfl⟩ := List.mem_map.mp h
        exact k3 r.2 (List.mem_map.mpr ⟨r, h1, rfl⟩)
      · simp only [List.mem_cons, List.not_mem_nil, or_false] at h
        rcases h with rfl | rfl | rfl | rfl | rfl | rfl | rfl | rfl | rfl | rfl | rfl | rfl | rfl <;> trivial
  · intro e h
    rcases List.mem_append.mp h with h | h
    · obtain ⟨w, h1, rfl⟩ := List.mem_map.mp h
      exact ⟨fun x hx => (by cases hx), fun w' hx => (by injection hx with hx; exact hx ▸ h1)⟩
    · rcases List.mem_append.mp h with h | h
      · obtain ⟨r, h1, rfl⟩ := List.mem_map.mp h
        exact ⟨fun x hx => (by cases hx), fun w hx => (by cases hx)⟩
      · simp only [List.mem_cons, List.not_mem_nil, or_false] at h
        rcases h with rfl | rfl | rfl | rfl | rfl | rfl | rfl | rfl | rfl | rfl | rfl | rfl | rfl <;> exact ⟨fun x hx => (by cases hx), fun w hx => (by cases hx)⟩

end Pcie
