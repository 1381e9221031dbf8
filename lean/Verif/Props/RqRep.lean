import Verif.Lemmas.RqRep
import Verif.Props.UsOrder
/-
C68: what the Xilinx hard IP models tell the user about the requests they send. C53: posted requests that wait for credits.
-/
namespace Pcie
open Spec RqRep

/-- C68: the sequence numbers that the user is shown, with those that will be shown next, are those of the requests that have been put on the link: each once, and in the order in which
they were put on the link. -/
theorem C68_seq_nums (p : RepPorts) (hc : Connected p) (es : List RepEv) (s : RqRep) (h : run p {} es = some s) :
    repSeqs s.hist ++ s.seqQ = (repLinked s.hist).map (·.seqNum) :=
  (run_inv (init_inv p) es h).seq hc

/-- C68: the tags that the user is shown, with those that will be shown next, are those of the non-posted requests that have been given to the link, each once and in this order; with tags
chosen by the user none is shown. -/
theorem C68_tags (p : RepPorts) (hc : Connected p) (es : List RepEv) (s : RqRep) (h : run p {} es = some s) :
    repTags s.hist ++ s.tagQ = if p.client then [] else ((repStarted s.hist).filter (·.tlp.isNonposted)).map (·.tlp.tag) :=
  (run_inv (init_inv p) es h).tag hc

/-- C68: a request that the user has made, and that has not been dropped because bus mastering is disabled and does not wait, is on the link or is being put there, exactly once and
unchanged but for its tag. -/
theorem C68_requests (p : RepPorts) (es : List RepEv) (s : RqRep) (h : run p {} es = some s) :
    ((repAccepted s.hist).map noTag).Perm ((repLinked s.hist ++ repFlying s ++ repDropped s.hist ++ repWaiting s).map noTag) := by
  have hi := run_inv (init_inv p) es h
  refine hi.acc.trans (List.Perm.map _ ?_)
  exact (hi.link.append_right _).append_right _

/-- C68: nothing that has happened is reported late: after as many clock edges as there are reports pending, half as many for the wide interface, everything has been shown. -/
theorem C68_prompt (p : RepPorts) (hc : Connected p) (es : List RepEv) (s : RqRep) (h : run p {} es = some s) (n : Nat) (hs : s.seqQ.length ≤ n * (if p.wide then 2 else 1))
    (ht : s.tagQ.length ≤ n * (if p.wide then 2 else 1)) :
    ∃ s', run p s (List.replicate n .clock) = some s' ∧ repSeqs s'.hist = (repLinked s.hist).map (·.seqNum) ∧
      repTags s'.hist = if p.client then [] else ((repStarted s.hist).filter (·.tlp.isNonposted)).map (·.tlp.tag) := by
  have hi := run_inv (init_inv p) es h
  obtain ⟨s', h', hq, hr, hl, hst⟩ := clocks p n s
  have hi' := run_inv hi _ h'
  have h1 := hi'.seq hc
  have h2 := hi'.tag hc
  rw [hq, List.drop_eq_nil_of_le hs, List.append_nil, hl] at h1
  rw [hr, List.drop_eq_nil_of_le ht, List.append_nil, hst] at h2
  exact ⟨s', h', h1, h2⟩

/-- C53, with requests that wait for credits while they are being sent: posted requests reach the link in the order in which they were made. -/
theorem C53_posted_link_order (p : RepPorts) (es : List RepEv) (s : RqRep) (h : run p {} es = some s) :
    ((repLinked s.hist).filter postedReq).Sublist ((repAccepted s.hist).filter postedReq) := by
  have hi := run_inv (init_inv p) es h
  have := hi.posted
  refine List.Sublist.trans ?_ hi.order
  rw [this]
  exact List.sublist_append_left _ _

/-- C53, with requests that wait for credits while they are being sent: when the user makes a request, all the posted requests made before are on the link already, or have been dropped:
it passes none of them. -/
theorem C53_no_pass_link (p : RepPorts) (es : List RepEv) (s : RqRep) (h : run p {} es = some s) (pre post : List RepObs) (u : UsTlp) (hs : s.hist = pre ++ .accepted u :: post) :
    (repLinked pre).filter postedReq = (repStarted pre).filter postedReq :=
  run_before (init_inv p) (by intro pre post u he; simp at he) es h pre post u hs

/-- C68, part: the tags belong to the requests in the order in which the user made them, provided that the user makes no request while the task that empties the queue waits for credits
or tags, and that none is dropped. Missing, and false (C68_tag_order_violated): requests made meanwhile. -/
theorem C68_tag_order_partial (p : RepPorts) (hc : Connected p) (hcl : p.client = false) (es : List RepEv) (s : RqRep) (h : run p {} es = some s)
    (hq : ∀ k u room m t r, es[k]? = some (.rq u room m t) → run p {} (es.take k) = some r → waitingOf r.np = []) (hd : repDropped s.hist = []) :
    ∃ sent, repTags s.hist ++ s.tagQ = sent.map (·.tlp.tag) ∧ ((repAccepted s.hist).filter (·.tlp.isNonposted)).map noTag = (sent ++ repWaiting s).map noTag := by
  refine ⟨_, ?_, started_fifo es (init_inv p) hq hd h rfl⟩
  have := C68_tags p hc es s h
  rw [hcl] at this
  exact this

/-- The 33rd tag that the user is told is not that of the 33rd read but that of the 34th, which has overtaken it. -/
theorem C68_tag_order_violated : ∃ s, Hip.run .us {} ovEvs = some (.ok s) ∧ s.rqTag.length = 33 ∧
    (nonpostedMade s.hist)[32]? = some (untagged ovA.tlp) ∧ (∃ t, .sent t ∈ s.hist ∧ untagged t = untagged ovB.tlp ∧ s.rqTag[32]? = some t.tag) ∧
    (∀ t, .sent t ∈ s.hist → untagged t ≠ untagged ovA.tlp) := by
  have key : ((Hip.run .us {} ovEvs).map fun r => r.toOption.map fun s => decide (s.rqTag.length = 33 ∧ (nonpostedMade s.hist)[32]? = some (untagged ovA.tlp) ∧
      s.hist.any (fun o => match o with | .sent t => decide (untagged t = untagged ovB.tlp ∧ s.rqTag[32]? = some t.tag) | _ => false) = true ∧
      s.hist.all (fun o => match o with | .sent t => decide (untagged t ≠ untagged ovA.tlp) | _ => true) = true)) = some (some true) := by decide +kernel
  rcases hr : Hip.run .us {} ovEvs with _ | r
  · rw [hr] at key; cases key
  · rw [hr] at key
    cases r with
    | error x => cases key
    | ok s =>
      simp only [Option.map_some, Except.toOption, Option.some.injEq, decide_eq_true_eq] at key
      obtain ⟨k1, k2, k3, k4⟩ := key
      refine ⟨s, rfl, k1, k2, ?_, ?_⟩
      · obtain ⟨o, ho, hx⟩ := List.any_eq_true.mp k3
        cases o with
        | sent t => simp only [decide_eq_true_eq] at hx; exact ⟨t, ho, hx⟩
        | _ => simp at hx
      · intro t ht
        have := List.all_eq_true.mp k4 _ ht
        simpa using this

/-! ### The hypotheses can hold -/

/-- Two reads and a write with sequence numbers 5, 6 and 7. -/
def repA : UsTlp := { ovA with seqNum := 5 }
@[inherit_doc repA] def repB : UsTlp := { ovB with seqNum := 6 }
@[inherit_doc repA] def repW : UsTlp := { ovWrite with seqNum := 7 }

/-- The first read waits in the queue while the write is being sent; the second read is sent at last. -/
def repEvs : List RepEv := [.rq repA false true 0, .rq repW true true 0, .npGet, .npGo true 9, .npSent, .rqSent, .rq repB true true 4, .clock, .rqSent]

example : (run {} {} repEvs).map (fun s => (repSeqs s.hist, s.seqQ, repTags s.hist, s.tagQ, (repLinked s.hist).map (·.seqNum))) = some ([5], [7, 6], [9], [4], [5, 7, 6]) := by decide +kernel
example : Connected {} := ⟨rfl, rfl, fun h => by cases h⟩
example : Connected { wide := true } := ⟨rfl, rfl, fun _ => ⟨rfl, rfl⟩⟩
/- The wide interface shows two at a time. -/
example : (run { wide := true } {} (repEvs ++ [.clock, .clock])).map (fun s => (repSeqs s.hist, s.seqQ, repTags s.hist)) = some ([5, 7, 6], [], [9, 4]) := by decide +kernel
/- With a second port that is not connected, the values for it are lost. -/
example : (run { wide := true, seq1 := false } {} (repEvs ++ [.clock])).map (fun s => (repSeqs s.hist, s.seqQ)) = some ([5, 6], []) := by decide +kernel
example : (run {} {} repEvs).map (fun s => (repDropped s.hist, (repAccepted s.hist).map (·.seqNum))) = some ([], [5, 7, 6]) := by decide +kernel
example : ∀ k u room m t r, repEvs[k]? = some (.rq u room m t) → run {} {} (repEvs.take k) = some r → waitingOf r.np = [] := by
  intro k u room m t r hk hr
  have key : ∀ k < 9, (match repEvs[k]? with | some (.rq ..) => (run {} {} (repEvs.take k)).map fun s => decide (waitingOf s.np = []) | _ => some true) = some true := by decide +kernel
  have hlt : k < 9 := (List.getElem?_eq_some_iff.mp hk).1
  have := key k hlt
  rw [hk, hr] at this
  simpa using this

end Pcie
