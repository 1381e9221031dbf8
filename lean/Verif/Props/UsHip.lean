import Verif.Lemmas.UsHipAvail
/-
C43, C44: tags, credits and the completion buffer of the Xilinx hard IP models.
-/
namespace Pcie
open Spec Hip

/-! ### C43: tags -/

/-- No tag of an outstanding request is used again: whatever the interleaving of requests, completions and configuration changes, with tags managed internally or by the
user, a non-posted request is sent with a tag that no outstanding request has. Internally managed tags are below the number of tags of the device. -/
theorem C43_no_reuse (p : HipParams) (ext : Bool) (bus : Nat) (funcs : List (PcieId × Bool)) (es : List HipEv) (s : Hip)
    (h : run p { ext := ext, busNum := bus, funcs := funcs } es = some (.ok s)) (pre post : List HipObs) (t : Tlp) (hs : s.hist = pre ++ .sent t :: post)
    (ht : t.isNonposted = true) : outstanding pre t.tag = none ∧ t.tag < 256 ∧ (p.client = false → t.tag < p.tagCount) :=
  (run_inv (inv_init p _ rfl) es h).core.fresh pre t post hs ht

/-- Nothing is lost or made up: every request accepted has been sent, unchanged except for its tag, or dropped because bus mastering is disabled, or is waiting, and there
are no others. -/
theorem C43_conserved (p : HipParams) (ext : Bool) (bus : Nat) (funcs : List (PcieId × Bool)) (es : List HipEv) (s : Hip)
    (h : run p { ext := ext, busNum := bus, funcs := funcs } es = some (.ok s)) :
    ((acceptedOf s.hist).map untagged).Perm ((sentOf s.hist ++ refusedOf s.hist ++ waiting s).map untagged) :=
  (run_inv (inv_init p _ rfl) es h).core.perm

/-- Part: with internally managed tags, no assertion fails and no exception is raised, as long as the device has all the tags that the setting allows and extended tags are
not disabled again. Missing: UltraScale devices with extended tags (`C43_extended_violated`) and disabling (`C43_disable_violated`). -/
theorem C43_no_failure_partial (p : HipParams) (hc : p.client = false) (h32 : 32 ≤ p.tagCount) (hm : 32 ≤ p.tagMax) (ext : Bool) (bus : Nat)
    (funcs : List (PcieId × Bool)) (n : Nat) (hn : n ≤ funcs.length) (es : List HipEv) (ho : ∀ e ∈ es, Orderly n e) (hk : ExtKept ext es)
    (hx : ext = true ∨ (∃ b f, HipEv.cfg true b f ∈ es) → 256 ≤ p.tagCount) (x : String) :
    run p { ext := ext, busNum := bus, funcs := funcs } es ≠ some (.error x) :=
  run_noerror hc h32 hm es _ (safe_init ext p bus funcs hn) (fun h => hx (.inl h)) ho hk (fun b f h => hx (.inr ⟨b, f, h⟩)) x

/-- Part: a request is sent at once if none is queued, there are credits, some tag is free and bus mastering is enabled, provided that the extended tag setting is never
changed and the device has all the tags it allows. Missing: requests that find all tags in use (`C43_stall_violated`) or no credits (`C43_credit_violated`). -/
theorem C43_prompt_partial (p : HipParams) (hc : p.client = false) (hm : 32 ≤ p.tagMax) (ext : Bool) (hp : (if ext then 256 else 32) ≤ p.tagCount) (bus : Nat)
    (funcs : List (PcieId × Bool)) (es : List HipEv) (hx : ExtFixed ext es) (s : Hip) (h : run p { ext := ext, busNum := bus, funcs := funcs } es = some (.ok s))
    (u : UsTlp) (hd : u.discontinue = false) (hf : u.tlp.isNonposted = true) (ht : u.tlp.tag < 32) (hr : s.rq = .idle) (hq : s.npq = [])
    (hcr : s.credit + u.tlp.dataCredits ≤ p.creditLimit) (hb : s.master (s.requester u) = some true)
    (tag : Nat) (hfree : tag < (if ext then 256 else 32)) (ho : outstanding s.hist tag = none) :
    ∃ s' k, step p s (.rq u) = some (.ok s') ∧
      s'.hist = s.hist ++ [.accepted (s.requester u), .sent ({ s.requester u with tag := k } : Tlp).copy] := by
  have he := run_exact es _ _ (exact_init ext p bus funcs) hx h
  have hact : ∃ k : Nat, k < (if s.ext then 256 else 32) ∧ s.active[k]? = some none := by
    refine ⟨tag, by rw [he.ext]; exact hfree, ?_⟩
    have hl : tag < s.active.length := by rw [he.inv.core.len]; split at hfree <;> omega
    have := he.inv.core.act tag
    rw [ho, List.getElem?_eq_getElem hl, Option.join_some, Option.map_eq_none_iff] at this
    rw [List.getElem?_eq_getElem hl, this]
  have hav : 0 < s.avail := by rw [he.avail, ← he.ext]; exact hact
  have r1 : (s.requester u).fcType = some .NP := by
    have : (s.requester u).fcType = u.tlp.fcType := by unfold requester; split <;> rfl
    rw [this]; simpa [Tlp.isNonposted] using hf
  have r3 : (s.requester u).tag = u.tlp.tag := by unfold requester; split <;> rfl
  have r4 : (s.requester u).dataCredits = u.tlp.dataCredits := by unfold requester; split <;> rfl
  obtain ⟨k, s', h3, h4⟩ := issue_ok (s := { s with hist := s.hist ++ [.accepted (s.requester u)] }) (s.requester u) hc (by rw [← he.ext] at hp; exact hp) hact
  refine ⟨s', k, ?_, by rw [h4]; simp⟩
  simp only [step]
  rw [hr]
  simp only
  unfold rqRecv
  rw [hd]
  simp only [Bool.false_eq_true, if_false]
  rw [r1]
  simp only
  unfold rqNonposted
  simp only
  rw [if_pos ⟨hq, by rw [r4]; exact hcr, .inr hav⟩, show Hip.master { s with hist := s.hist ++ [.accepted (s.requester u)] } (s.requester u) = some true from hb]
  simp only
  rw [if_pos (by rw [r3]; split <;> omega), h3]

/-- A memory read of one dword, and the completion for it with a given tag. -/
def hipRead : UsTlp := { tlp := { length := 1, first_be := 15 } }
@[inherit_doc hipRead] def hipCpl (tag : Nat) : Tlp := { fmt := 2, type := 0x0a, length := 1, byte_count := 4, tag := tag, data := [1, 2, 3, 4] }

/-- Two reads, answered in reverse order, and a third. -/
def hipRun : List HipEv := [.rq hipRead, .rq hipRead, .cpl (hipCpl 2), .rcGet, .rcDone, .cpl (hipCpl 1), .rq hipRead]

example : ((run .us {} hipRun).map fun r => r.toOption.map fun s => (s.hist.length, s.avail, s.rqTag)) = some (some (9, 31, [1, 2, 3])) := by decide +kernel

/-- The hypotheses of `C43_no_failure_partial` and `C43_prompt_partial` hold of it. -/
example : (∀ e ∈ hipRun, Orderly 1 e) ∧ ExtKept false hipRun ∧ ExtFixed false hipRun := by
  refine ⟨?_, ?_, ?_⟩
  · intro e he
    simp only [hipRun, List.mem_cons, List.not_mem_nil, or_false] at he
    rcases he with rfl | rfl | rfl | rfl | rfl | rfl | rfl <;> simp only [Orderly] <;> decide +kernel
  · simp [hipRun, ExtKept]
  · intro e b f h
    simp [hipRun] at h

/-- With extended tags an UltraScale device has 64 tags, but counts 256: the 65th outstanding request raises an exception. -/
theorem C43_extended_violated : run .us { ext := true } (List.replicate 65 (.rq hipRead)) = some (.error "TypeError") := by decide +kernel

/-- All 256 tags are in use, one that needs extended tags is freed, extended tags are disabled: the next request raises an exception. -/
theorem C43_disable_violated :
    run .usp { ext := true } (List.replicate 256 (.rq hipRead) ++ [.cpl (hipCpl 40), .cfg false 0 [(⟨0, 0, 0⟩, true)], .rq hipRead]) = some (.error "TypeError") := by decide +kernel

/-! ### C43: waiting requests -/

/-- More reads than tags, and the completions for all that were sent. -/
def hipStall : List HipEv := List.replicate 33 (.rq hipRead) ++ [.npGet] ++ (List.range 32).map fun k => .cpl (hipCpl k)

/-- A request that is waiting for a tag waits forever. -/
theorem waitTag_step {p : HipParams} {s s' : Hip} {t : Tlp} {e : HipEv} (hn : s.np = .waitTag t) (he : ∀ u, e ≠ .rq u) (h : step p s e = some (.ok s')) :
    s'.np = .waitTag t ∧ sentOf s'.hist = sentOf s.hist := by
  cases e with
  | rq u => exact absurd rfl (he u)
  | rqWake =>
    simp only [step] at h
    split at h
    · have h := Option.some.inj h
      cases h
      unfold enqueue
      split <;> exact ⟨hn, rfl⟩
    · cases h
  | npGet => simp [step, hn] at h
  | npWake => simp [step, hn] at h
  | cpl c =>
    simp only [step] at h
    split at h
    · have h := Option.some.inj h
      unfold cplRecv at h
      split at h
      · split at h
        · cases h
        · simp only at h
          generalize judge _ _ = j at h
          cases h
          unfold account buffer
          simp only [hn]
          split <;> simp [sentOf, release]
      · cases h; exact ⟨hn, rfl⟩
    · cases h
  | rcGet =>
    simp only [step] at h
    split at h
    · have h := Option.some.inj h
      cases h
      exact ⟨hn, rfl⟩
    · cases h
  | rcDone =>
    simp only [step] at h
    split at h
    · have h := Option.some.inj h
      cases h
      exact ⟨hn, by simp [sentOf]⟩
    · cases h
  | cfg x b f =>
    have h := Option.some.inj h
    cases h
    exact ⟨hn, rfl⟩

/-- The property fails: a request that finds all tags in use waits forever. After 33 reads, of which 32 have been sent and completed, no tag is in use and one request is
waiting, and whatever happens then, unless the user makes further requests, it is not sent. -/
theorem C43_stall_violated (p : HipParams) (hp : p = .us ∨ p = .usp) : ∃ s, run p {} hipStall = some (.ok s) ∧ (∀ k, outstanding s.hist k = none) ∧ (waiting s).length = 1 ∧
    ∀ es s', (∀ u, .rq u ∉ es) → run p s es = some (.ok s') → sentOf s'.hist = sentOf s.hist := by
  obtain ⟨s, hs, ha, t, hn, hw⟩ : ∃ s, run p {} hipStall = some (.ok s) ∧ s.active = List.replicate 256 none ∧ ∃ t, s.np = .waitTag t ∧ (waiting s).length = 1 := by
    have key : ∀ q ∈ [HipParams.us, HipParams.usp], ((run q {} hipStall).map fun r => r.toOption.map fun s =>
        decide (s.active = List.replicate 256 none) && (decide (s.np = .waitTag hipRead.tlp)) && (waiting s).length == 1) = some (some true) := by decide +kernel
    have kp := key p (by simp [hp])
    rcases hr : run p {} hipStall with _ | r
    · rw [hr] at kp; cases kp
    · rw [hr] at kp
      cases r with
      | error x => cases kp
      | ok s =>
        simp only [Option.map_some, Except.toOption, Option.some.injEq, Bool.and_eq_true, decide_eq_true_eq, beq_iff_eq] at kp
        exact ⟨s, rfl, kp.1.1, _, kp.1.2, kp.2⟩
  refine ⟨s, hs, ?_, hw, ?_⟩
  · intro k
    rw [← (run_inv (inv_init p _ rfl) _ hs).core.act k, ha, List.getElem?_replicate]
    split <;> rfl
  · clear hs ha hw
    intro es
    induction es generalizing s with
    | nil => intro s' _ h; cases h; rfl
    | cons e es ih =>
      intro s' hne h
      unfold run at h
      split at h
      · cases h
      · cases h
      · next s1 h1 =>
        obtain ⟨a, b⟩ := waitTag_step hn (fun u hh => hne u (by rw [hh]; exact List.mem_cons_self)) h1
        rw [← b]
        exact ih s1 a s' (fun u hu => hne u (List.mem_cons_of_mem _ hu)) h

/-- An I/O write, and its completion. -/
def hipIo : UsTlp := { tlp := { fmt := 2, type := 2, length := 1, first_be := 15, data := [1, 2, 3, 4] } }
@[inherit_doc hipIo] def hipIoCpl (tag : Nat) : Tlp := { fmt := 0, type := 0x0a, byte_count := 4, tag := tag }

/-- Nothing is going on, and `k` credits are in use. -/
structure Rest (k : Nat) (s : Hip) : Prop where
  inv : Inv .us s
  ext : s.ext = false
  funcs : s.funcs = [(⟨0, 0, 0⟩, true)]
  bus : s.busNum = 0
  active : s.active = List.replicate 256 none
  avail : s.avail = 32
  credit : s.credit = k
  npq : s.npq = []
  rq : s.rq = .idle
  np : s.np = .idle
  rcq : s.rcq = []
  rcSend : s.rcSend = none

theorem run_cons {p : HipParams} {s s1 : Hip} {e : HipEv} {es : List HipEv} (h : step p s e = some (.ok s1)) : run p s (e :: es) = run p s1 es := by
  rw [run, h]

theorem run_append {p : HipParams} {s s1 : Hip} {a b : List HipEv} (h : run p s a = some (.ok s1)) : run p s (a ++ b) = run p s1 b := by
  induction a generalizing s with
  | nil => cases h; rfl
  | cons e a ih =>
    rw [List.cons_append]
    unfold run at h
    split at h
    · cases h
    · cases h
    · next s2 h2 => rw [run_cons h2]; exact ih h

theorem dataCredits_setTag (t : Tlp) (k : Nat) : ({ t with tag := k } : Tlp).dataCredits = t.dataCredits := rfl

/-- An I/O write and its completion use up one credit. -/
theorem rest_round {k : Nat} {s : Hip} (h : Rest k s) (hk : k < 1024) : ∃ tag s', run .us s [.rq hipIo, .cpl (hipIoCpl tag), .rcGet, .rcDone] = some (.ok s') ∧ Rest (k + 1) s' := by
  have hreq : s.requester hipIo = hipIo.tlp := by
    unfold requester
    rw [h.bus]; rfl
  obtain ⟨tag, hf⟩ := freeTag_isSome (p := .us) (s := { s with hist := s.hist ++ [.accepted hipIo.tlp] }) (t := 0) (by show 0 < tagLimit .us s.ext; rw [h.ext]; decide)
    (by show s.active[0]? = _; rw [h.active, List.getElem?_replicate]; rfl)
  have htag : tag < 32 := by
    have := (freeTag_some hf).2
    rw [show tagLimit .us ({ s with hist := s.hist ++ [.accepted hipIo.tlp] } : Hip).ext = 32 from by show tagLimit .us s.ext = 32; rw [h.ext]; decide] at this
    exact this
  have hact : s.active[tag]? = some none := (freeTag_some hf).1
  -- the request
  obtain ⟨s1, e1, a1, hs1⟩ : ∃ s1 a1, a1 = s.active.set tag (some { hipIo.tlp with tag := tag }) ∧ step .us s (.rq hipIo) = some (.ok s1) ∧
      s1 = { s with current := tag, rqTag := s.rqTag ++ [tag], active := a1, avail := availCount s.ext a1, credit := s.credit + 1,
                    hist := s.hist ++ [.accepted hipIo.tlp] ++ [.sent ({ hipIo.tlp with tag := tag } : Tlp).copy] } := by
    refine ⟨_, _, rfl, ?_, rfl⟩
    simp only [step]
    rw [h.rq]
    simp only
    unfold rqRecv
    rw [show hipIo.discontinue = false from rfl]
    simp only [Bool.false_eq_true, if_false]
    rw [hreq, show hipIo.tlp.fcType = some .NP from by decide]
    simp only
    unfold rqNonposted
    simp only
    rw [if_pos ⟨h.npq, by rw [h.credit, show hipIo.tlp.dataCredits = 1 from by decide]; show k + 1 ≤ 1024; omega, .inr (by rw [h.avail]; decide)⟩]
    rw [show master { s with hist := s.hist ++ [.accepted hipIo.tlp] } hipIo.tlp = some true from by unfold master; simp only [h.funcs]; rfl]
    simp only
    rw [if_pos (by rw [h.ext]; decide)]
    unfold issue
    rw [show HipParams.us.client = false from rfl]
    simp only [Bool.false_eq_true, if_false]
    rw [hf]
    simp only [hact]
    rw [dataCredits_setTag, show hipIo.tlp.dataCredits = 1 from by decide]
    first | rfl | (simp only [h.rq])
  obtain ⟨hs1, es1⟩ := hs1
  -- the completion
  have hl : tag < s.active.length := by rw [h.inv.core.len]; omega
  have h1act : s1.active[tag]? = some (some { hipIo.tlp with tag := tag }) := by
    rw [es1]; simp only; rw [a1, List.getElem?_set_self hl]
  have i1 := step_inv h.inv hs1
  have hb1 : s1.cplh = 0 ∧ s1.cpld = 0 := by
    have := i1.core.cplh
    have h2 := i1.core.cpld
    rw [show buffered s1 = [] from by rw [es1]; simp [buffered, h.rcq, h.rcSend]] at this h2
    exact ⟨this, h2⟩
  obtain ⟨s2, u, hs2, es2⟩ : ∃ s2 u, step .us s1 (.cpl (hipIoCpl tag)) = some (.ok s2) ∧
      s2 = { s1 with active := List.replicate 256 none, avail := 32, cplh := 1, cpld := 1, rcq := [u], hist := s1.hist ++ [.cpl (hipIoCpl tag)] } ∧ u.tlp.dataCredits = 0 := by
    have hj : ∃ u, judge (some { hipIo.tlp with tag := tag }) { UsTlp.ofTlp (hipIoCpl tag) with errorCode := if (hipIoCpl tag).ep then 1 else 0 } = (u, true) ∧
        u.tlp.dataCredits = 0 := by
      unfold judge
      simp only
      rw [if_neg (by rintro (hh | hh | hh) <;> exact hh rfl), if_neg (by intro hh; exact hh rfl), if_neg (by rintro (hh | hh) <;> cases hh)]
      exact ⟨_, rfl, by show ((([] : List UInt8).length / 4) + 3) / 4 = 0; decide⟩
    obtain ⟨u, hj, hu⟩ := hj
    refine ⟨_, u, ?_, rfl, hu⟩
    simp only [step]
    rw [if_pos (show (hipIoCpl tag).isCompletion = true from by rw [show (hipIoCpl tag).isCompletion = (hipIoCpl 0).isCompletion from rfl]; decide)]
    unfold cplRecv
    rw [if_pos (by rw [es1]; simp only [h.funcs]; simp [hipIoCpl])]
    rw [show (hipIoCpl tag).tag = tag from rfl, h1act]
    simp only
    rw [hj]
    simp only [if_true]
    unfold account buffer
    simp only [hb1.1, hb1.2, hu]
    rw [if_pos (by decide)]
    have ha2 : s1.active.set tag none = List.replicate 256 none := by
      rw [es1]; simp only
      rw [a1, List.set_set, h.active, List.set_replicate_self]
    rw [ha2]
    have hav : availCount s1.ext (List.replicate 256 none) = 32 := by rw [es1]; simp only [h.ext]; decide +kernel
    have hnp : release s1.np = s1.np := by rw [es1]; simp only [h.np]; rfl
    have hrq : s1.rcq = [] := by rw [es1]; exact h.rcq
    rw [hav, hnp, hrq]
    rfl
  obtain ⟨es2, hu⟩ := es2
  have hsend : s2.rcSend = none := by rw [es2]; simp only; rw [es1]; exact h.rcSend
  have hrcq : s2.rcq = [u] := by rw [es2]
  have hs3 : step .us s2 .rcGet = some (.ok { s2 with rcSend := some u, rcq := [] }) := by
    simp only [step]; rw [hsend, hrcq]
  have hs4 : step .us { s2 with rcSend := some u, rcq := [] } .rcDone =
      some (.ok { s2 with rcSend := none, rcq := [], cplh := s2.cplh - 1, cpld := s2.cpld - (u.tlp.dataCredits + 1), hist := s2.hist ++ [.delivered u] }) := rfl
  refine ⟨tag, _, by rw [run_cons hs1, run_cons hs2, run_cons hs3, run_cons hs4]; rfl, ?_⟩
  have i4 := step_inv (step_inv (step_inv i1 hs2) hs3) hs4
  refine ⟨i4, ?_, ?_, ?_, ?_, ?_, ?_, ?_, ?_, ?_, rfl, rfl⟩ <;> simp only [es2] <;> simp only [es1]
  · exact h.ext
  · exact h.funcs
  · exact h.bus
  · rw [h.credit]
  · exact h.npq
  · exact h.rq
  · exact h.np

theorem rest_rounds : ∀ k, k ≤ 1024 → ∃ es s, (∀ e ∈ es, e = .rq hipIo ∨ e = .rcGet ∨ e = .rcDone ∨ ∃ tag, e = .cpl (hipIoCpl tag)) ∧ run .us {} es = some (.ok s) ∧ Rest k s
  | 0, _ => ⟨[], {}, by simp, rfl, ⟨inv_init _ _ rfl, rfl, rfl, rfl, rfl, rfl, rfl, rfl, rfl, rfl, rfl, rfl⟩⟩
  | k + 1, hk => by
    obtain ⟨es, s, h1, h2, h3⟩ := rest_rounds k (by omega)
    obtain ⟨tag, s', h4, h5⟩ := rest_round h3 (by omega)
    refine ⟨es ++ [.rq hipIo, .cpl (hipIoCpl tag), .rcGet, .rcDone], s', ?_, by rw [run_append h2]; exact h4, h5⟩
    intro e he
    rcases List.mem_append.mp he with he | he
    · exact h1 e he
    · simp only [List.mem_cons, List.not_mem_nil, or_false] at he
      rcases he with rfl | rfl | rfl | rfl <;> simp

/-- A request that is waiting for credits waits until a completion arrives. -/
theorem waitCredit_step {p : HipParams} {s s' : Hip} {t : Tlp} {e : HipEv} (hn : s.np = .waitCredit t) (he : ∀ u, e ≠ .rq u) (hc : ∀ c, e ≠ .cpl c)
    (h : step p s e = some (.ok s')) : s'.np = .waitCredit t ∧ sentOf s'.hist = sentOf s.hist := by
  cases e with
  | rq u => exact absurd rfl (he u)
  | cpl c => exact absurd rfl (hc c)
  | rqWake =>
    simp only [step] at h
    split at h
    · have h := Option.some.inj h
      cases h
      unfold enqueue
      split <;> exact ⟨hn, rfl⟩
    · cases h
  | npGet => simp [step, hn] at h
  | npWake => simp [step, hn] at h
  | rcGet =>
    simp only [step] at h
    split at h
    · have h := Option.some.inj h
      cases h
      exact ⟨hn, rfl⟩
    · cases h
  | rcDone =>
    simp only [step] at h
    split at h
    · have h := Option.some.inj h
      cases h
      exact ⟨hn, by simp [sentOf]⟩
    · cases h
  | cfg x b f =>
    have h := Option.some.inj h
    cases h
    exact ⟨hn, rfl⟩

/-- The property fails in another way: the credits used by I/O writes are never returned, because the completions for them carry no data. After 1024 I/O writes, all of them
completed and all completions delivered, no request is outstanding, so that no completion can arrive, and the next I/O write is not sent unless one does. -/
theorem C43_credit_violated : ∃ es s, (∀ e ∈ es, e = .rq hipIo ∨ e = .npGet ∨ e = .rcGet ∨ e = .rcDone ∨ ∃ tag, e = .cpl (hipIoCpl tag)) ∧
    run .us {} es = some (.ok s) ∧ (∀ k, outstanding s.hist k = none) ∧ waiting s = [hipIo.tlp] ∧
    ∀ es' s', (∀ u, .rq u ∉ es') → (∀ c, .cpl c ∉ es') → run .us s es' = some (.ok s') → sentOf s'.hist = sentOf s.hist := by
  obtain ⟨es, s, h1, h2, h3⟩ := rest_rounds 1024 (Nat.le_refl _)
  have hreq : s.requester hipIo = hipIo.tlp := by
    unfold requester
    rw [h3.bus]; rfl
  have hs1 : step .us s (.rq hipIo) = some (.ok { s with npq := [hipIo.tlp], hist := s.hist ++ [.accepted hipIo.tlp] }) := by
    simp only [step]
    rw [h3.rq]
    simp only
    unfold rqRecv
    rw [show hipIo.discontinue = false from rfl]
    simp only [Bool.false_eq_true, if_false]
    rw [hreq, show hipIo.tlp.fcType = some .NP from by decide]
    simp only
    unfold rqNonposted
    simp only
    rw [if_neg (by rintro ⟨_, hh, _⟩; rw [h3.credit, show hipIo.tlp.dataCredits = 1 from by decide] at hh; exact absurd hh (by decide))]
    unfold enqueue
    simp only [h3.npq]
    rw [if_neg (by decide)]
    rfl
  have hs2 : step .us { s with npq := [hipIo.tlp], hist := s.hist ++ [.accepted hipIo.tlp] } .npGet =
      some (.ok { s with np := .waitCredit hipIo.tlp, npq := [], hist := s.hist ++ [.accepted hipIo.tlp] }) := by
    simp only [step]
    rw [h3.np]
    simp only
    unfold npTry
    simp only
    rw [if_pos (by rw [h3.credit]; decide), h3.rq]
    rfl
  refine ⟨es ++ [.rq hipIo, .npGet], _, ?_, by rw [run_append h2, run_cons hs1, run_cons hs2]; rfl, ?_, ?_, ?_⟩
  · intro e he
    rcases List.mem_append.mp he with he | he
    · rcases h1 e he with h | h | h | h <;> simp [h]
    · simp only [List.mem_cons, List.not_mem_nil, or_false] at he
      rcases he with rfl | rfl <;> simp
  · intro k
    simp only
    rw [outstanding_snoc]
    show outstanding s.hist k = none
    rw [← h3.inv.core.act k, h3.active, List.getElem?_replicate]
    split <;> rfl
  · rw [waiting_eq]; simp only; rw [h3.rq]; rfl
  · have hn : ({ s with np := .waitCredit hipIo.tlp, npq := [], hist := s.hist ++ [.accepted hipIo.tlp] } : Hip).np = .waitCredit hipIo.tlp := rfl
    generalize ({ s with np := .waitCredit hipIo.tlp, npq := [], hist := s.hist ++ [.accepted hipIo.tlp] } : Hip) = s0 at hn
    intro es'
    induction es' generalizing s0 with
    | nil => intro s' _ _ h; cases h; rfl
    | cons e es' ih =>
      intro s' hne hnc h
      unfold run at h
      split at h
      · cases h
      · cases h
      · next s1 h1 =>
        obtain ⟨a, b⟩ := waitCredit_step hn (fun u hh => hne u (by rw [hh]; exact List.mem_cons_self)) (fun u hh => hnc u (by rw [hh]; exact List.mem_cons_self)) h1
        rw [← b]
        exact ih s1 a s' (fun u hu => hne u (List.mem_cons_of_mem _ hu)) (fun u hu => hnc u (List.mem_cons_of_mem _ hu)) h

/-! ### C44: the completion buffer -/

/-- Exact: the counters are the number of completions in the buffer, and the space they take, and neither exceeds its limit. -/
theorem C44_us_occupancy (p : HipParams) (ext : Bool) (bus : Nat) (funcs : List (PcieId × Bool)) (es : List HipEv) (s : Hip)
    (h : run p { ext := ext, busNum := bus, funcs := funcs } es = some (.ok s)) :
    s.cplh = (buffered s).length ∧ s.cpld = cplSpace (buffered s) ∧ (buffered s).length ≤ p.cplhLimit ∧ cplSpace (buffered s) ≤ p.cpldLimit := by
  have hi := (run_inv (inv_init p _ rfl) es h).core
  exact ⟨hi.cplh, hi.cpld, by rw [← hi.cplh]; exact hi.fits.1, by rw [← hi.cpld]; exact hi.fits.2⟩

/-- Dropped only if there is no space: a completion for a function of the device is kept if it fits, and dropped, which is reported, if it does not. -/
theorem C44_us_drop (p : HipParams) (ext : Bool) (bus : Nat) (funcs : List (PcieId × Bool)) (es : List HipEv) (s s' : Hip)
    (h : run p { ext := ext, busNum := bus, funcs := funcs } es = some (.ok s)) (c : Tlp) (hf : c.requester_id ∈ s.funcs.map (·.1))
    (hs : step p s (.cpl c) = some (.ok s')) :
    if (buffered s).length < p.cplhLimit ∧ cplSpace (buffered s) + c.dataCredits < p.cpldLimit then ∃ u, sameCpl u c ∧ buffered s' = buffered s ++ [u]
    else buffered s' = buffered s ∧ s'.localError = true := by
  have hi := (run_inv (inv_init p _ rfl) es h).core
  simp only [step] at hs
  split at hs
  · have hs := Option.some.inj hs
    unfold cplRecv at hs
    rw [if_pos hf] at hs
    split at hs
    · cases hs
    · next req hr =>
      simp only at hs
      have hsame := sameCpl_judge req c { UsTlp.ofTlp c with errorCode := if c.ep then 1 else 0 } rfl
      generalize judge _ _ = j at hs hsame
      have hd : j.1.tlp.dataCredits = c.dataCredits := by rw [hsame]; rfl
      cases hs
      unfold account buffer
      simp only
      rw [hd, ← hi.cplh, ← hi.cpld]
      by_cases hfit : s.cplh + 1 ≤ p.cplhLimit ∧ s.cpld + c.dataCredits + 1 ≤ p.cpldLimit
      · rw [if_pos hfit, if_pos ⟨hfit.1, hfit.2⟩]
        exact ⟨j.1, hsame, by simp [buffered]⟩
      · rw [if_neg hfit, if_neg (fun hh => hfit ⟨hh.1, hh.2⟩)]
        exact ⟨rfl, rfl⟩
  · cases hs

/-- In order: the user gets the completions that were kept in the order in which they arrived. -/
theorem C44_us_in_order (p : HipParams) (ext : Bool) (bus : Nat) (funcs : List (PcieId × Bool)) (es : List HipEv) (s : Hip)
    (h : run p { ext := ext, busNum := bus, funcs := funcs } es = some (.ok s)) : List.Forall₂ sameCpl (deliveredOf s.hist ++ buffered s) (keptCpls s.hist) :=
  (run_inv (inv_init p _ rfl) es h).core.kept

/-- The buffer of an UltraScale device holds 64 completions; the 65th is dropped. -/
example : ((run .us {} ((List.range 65).map fun k => .cpl (hipCpl k))).map fun r => r.toOption.map fun s => ((buffered s).length, s.cpld, s.localError)) = some (some (64, 128, true)) := by
  decide +kernel

end Pcie
