import Verif.Lemmas.TrafficCpl
import Verif.Props.Traffic
/-
C85: TLPs with the same source and destination arrive in the order in which they were sent.
-/
namespace Pcie
open Pcie.Spec

/-- **C85**: for any network, any credits, any other traffic and any schedule of all the tasks: those TLPs (of whatever credit type, requests or completions) that take a given route are delivered in the order in
which they went on its first link, and none of them is left out. -/
theorem C85_in_order {N : TNet} {I : Nat → Bool} {R : List Nat} (hn : R.Nodup) {es : List TEv} {s : TState} (hr : TState.init.run N es = some s)
    (hst : ∀ x ∈ started es, SameRoute N I R x.1 x.2) : (arrived s).filter I <+: (entered N TState.init es).filter I := by
  have h := OrdInv.run hn es _ _ (.init N I R) hr hst
  rw [orderView_init, List.nil_append] at h
  rw [← h]
  exact List.prefix_append _ _

/-- **C85**: a TLP that goes on the way after others, such as the interrupt message after the data it announces, is not delivered before them: when it has arrived, they have, in order and before it. -/
theorem C85_no_overtaking {N : TNet} {I : Nat → Bool} {R : List Nat} (hn : R.Nodup) {es : List TEv} {s : TState} (hr : TState.init.run N es = some s)
    (hst : ∀ x ∈ started es, SameRoute N I R x.1 x.2) {msg : Nat} (hI : I msg = true) {before after : List Nat} (hord : (entered N TState.init es).filter I = before ++ msg :: after)
    (hne : msg ∉ before) (hm : msg ∈ arrived s) : before ++ [msg] <+: (arrived s).filter I :=
  prefix_reaches (hord ▸ C85_in_order hn hr hst) (List.mem_filter.2 ⟨hm, hI⟩) hne

/-- **C85**: when the interrupt message has arrived, the memory holds what was written before it: every byte that nobody else writes and that is not written again after the message is the one that the
writes before the message leave there. -/
theorem C85_data_before_interrupt {N : TNet} {I : Nat → Bool} {R : List Nat} (hn : R.Nodup) {es : List TEv} {s : TState} (hr : TState.init.run N es = some s)
    (hst : ∀ x ∈ started es, SameRoute N I R x.1 x.2) {msg : Nat} (hI : I msg = true) {before after : List Nat} (hord : (entered N TState.init es).filter I = before ++ msg :: after)
    (hne : msg ∉ before) (hm : msg ∈ arrived s) {W : Nat → Nat → Option UInt8} {a : Nat} (hmsg : W msg a = none) (hafter : ∀ k ∈ after, W k a = none)
    (hother : ∀ k ∈ arrived s, I k = false → W k a = none) (m₀ : Nat → UInt8) : memAfter W m₀ (arrived s) a = memAfter W m₀ before a := by
  obtain ⟨rest, hrest⟩ := C85_no_overtaking hn hr hst hI hord hne hm
  have hpre := C85_in_order hn hr hst
  rw [hord, ← hrest] at hpre
  have hra : rest <+: after := by
    rw [show before ++ msg :: after = (before ++ [msg]) ++ after by simp] at hpre
    exact (List.prefix_append_right_inj _).1 hpre
  rw [memAfter_filter (I := I) _ _ hother, ← hrest, memAfter_append, memAfter_none rest _ fun k hk => hafter k (hra.mem hk), memAfter_append, memAfter_none [msg] _ (by simpa using hmsg)]

/-- **C85**: in a hierarchy every way from one place to another is such a route. -/
theorem C85_hierarchy {N : TNet} {parent : Nat → Nat} {n : Nat} (H : Hierarchy N parent n) {I : Nat → Bool} {R : List Nat} (hR : TreeRoute parent n R) {es : List TEv} {s : TState}
    (hr : TState.init.run N es = some s) (hst : ∀ x ∈ started es, SameRoute N I R x.1 x.2) : (arrived s).filter I <+: (entered N TState.init es).filter I :=
  C85_in_order (hR.nodup H) hr hst

/-- **C85**: and when nothing more can happen, all of them have arrived in that order (for the traffic that does not get stuck, see `C84`). -/
theorem C85_all_in_order {N : TNet} {parent : Nat → Nat} {n : Nat} (H : Hierarchy N parent n) {I : Nat → Bool} {R : List Nat} (hR : TreeRoute parent n R) {es : List TEv} {s : TState}
    (hr : TState.init.run N es = some s) (hst : ∀ x ∈ started es, SameRoute N I R x.1 x.2)
    (hT : (∀ x ∈ started es, RootTraffic N parent n x.1 x.2) ∨ ∀ x ∈ started es, DmaTraffic N parent n x.1 x.2) (hh : Halted N s) :
    (arrived s).filter I = (entered N TState.init es).filter I := by
  rcases hT with hT | hT
  · exact all_in_order (hR.nodup H) hr (fun x hx => (hT x hx).ok H) hst hh
  · exact all_in_order (hR.nodup H) hr (fun x hx => (hT x hx).ok H) hst hh

theorem isCplOf_all {N : TNet} {q : Nat} : ∀ c ∈ N.answer q, isCplOf N q c.id = true := fun c hc => List.any_eq_true.2 ⟨c, hc, by simp⟩

/-- **C85**: the completions of a request that was delivered once arrive at the requester in the order in which the completer split the data, whatever else is on the way. -/
theorem C85_completions {N : TNet} {R : List Nat} (hn : R.Nodup) {es : List TEv} {s : TState} (hr : TState.init.run N es = some s) {q : Nat}
    (hst : ∀ x ∈ started es, SameRoute N (isCplOf N q) R x.1 x.2) (hown : OwnCpls N q (started es)) (hone : delivered s q ≤ 1) :
    (arrived s).filter (isCplOf N q) <+: (N.answer q).map (·.id) := by
  refine (C85_in_order hn hr hst).trans ?_
  have h := CplInv.run hown.other isCplOf_all es _ _ [] (.init N _ q) hr hown.request hone
  rw [List.nil_append] at h
  exact h.prefix hone

/-- **C85**: a read that a component sends to the root complex once, or the root complex to a component: when nothing more can happen, all its completions have arrived, in order. -/
theorem C85_all_completions {N : TNet} {parent : Nat → Nat} {n : Nat} (H : Hierarchy N parent n) {R : List Nat} (hR : TreeRoute parent n R) {es : List TEv} {s : TState}
    (hr : TState.init.run N es = some s) {q : Nat} (hst : ∀ x ∈ started es, SameRoute N (isCplOf N q) R x.1 x.2) (hown : OwnCpls N q (started es))
    (hT : ∀ x ∈ started es, RootTraffic N parent n x.1 x.2) (hone : owed N q (started es) = 1) (hh : Halted N s) :
    (arrived s).filter (isCplOf N q) = (N.answer q).map (·.id) := by
  have hd : delivered s q = 1 := (((C84_root_traffic_partial H hr hT).2.2 hh).1 q).trans hone
  rw [C85_all_in_order H hR hr hst (.inl hT) hh]
  have h := CplInv.run hown.other isCplOf_all es _ _ [] (.init N _ q) hr hown.request (Nat.le_of_eq hd)
  rw [List.nil_append] at h
  exact h.all hd fun m => ((TInv.run es _ _ (TInv.init N _ _) hr fun x hx => (hT x hx).ok H).clear hh m).busy

/-! ### The hypotheses can be met -/

/-- Endpoint A writes data (TLP 7) and then an interrupt message (TLP 8) to the root complex, while it reads (TLP 0, completions 2). -/
def dataWrite : TPkt := { id := 7, cls := .P, dc := 16, route := [upLink 1, upLink 0] }
def msiWrite : TPkt := { id := 8, cls := .P, dc := 1, route := [upLink 1, upLink 0] }

def orderEvs : List TEv :=
  [.start 4 upRead, .start 4 dataWrite, .send 4 1, .start 4 msiWrite, .recv 4, .send 4 1, .recv 4, .take 4 0, .pass 2, .send 4 0, .take 4 0, .recv 2, .pass 2, .recv 4, .recv 2,
   .take 2 0, .pass 0, .recv 0, .take 2 0, .pass 0, .recv 0]

theorem order_route : TreeRoute peerParent 4 [upLink 2, upLink 1, upLink 0] := ⟨2, .inl ⟨_, peer_toRoot, rfl⟩⟩

theorem order_same : ∀ x ∈ started orderEvs, SameRoute rootNet (fun k => k == 7 || k == 8) [upLink 2, upLink 1, upLink 0] x.1 x.2 := by
  intro x hx
  simp only [orderEvs, started, List.mem_cons, List.not_mem_nil, or_false] at hx
  rcases hx with rfl | rfl | rfl
  · refine ⟨fun h => absurd h (by decide), fun c hc => ?_⟩
    obtain rfl := (List.mem_replicate.1 (show c ∈ List.replicate 2 _ from hc)).2
    exact ⟨rfl, fun h => absurd h (by decide)⟩
  · exact ⟨fun _ => rfl, fun c hc => by cases hc⟩
  · exact ⟨fun _ => rfl, fun c hc => by cases hc⟩

example : ∃ s, TState.init.run rootNet orderEvs = some s ∧ (entered rootNet TState.init orderEvs).filter (fun k => k == 7 || k == 8) = [7, 8] ∧ 8 ∈ arrived s := by
  refine ⟨_, rfl, ?_, ?_⟩ <;> decide +kernel
/-- TLP 7 writes 0x5a to address 0x1000, and nobody else writes there. -/
def orderWrites (k a : Nat) : Option UInt8 := if k = 7 ∧ a = 0x1000 then some 0x5a else none
example : ∃ s, TState.init.run rootNet orderEvs = some s ∧ (entered rootNet TState.init orderEvs).filter (fun k => k == 7 || k == 8) = [7] ++ 8 :: [] ∧
    orderWrites 8 0x1000 = none ∧ (∀ k ∈ arrived s, (k == 7 || k == 8) = false → orderWrites k 0x1000 = none) ∧ 8 ∈ arrived s ∧ memAfter orderWrites (fun _ => 0) [7] 0x1000 = 0x5a := by
  refine ⟨_, rfl, ?_, ?_, ?_, ?_, ?_⟩ <;> decide +kernel
example : Hierarchy rootNet peerParent 4 ∧ TreeRoute peerParent 4 [upLink 2, upLink 1, upLink 0] := ⟨rootNet_hierarchy, order_route⟩

/-- The completions of the read of endpoint A take the same route too, from the root complex down. -/
example : SameRoute rootNet (fun k => k == 2) [downLink 0, downLink 1, downLink 2] (upLink 2) upRead ∧ TreeRoute peerParent 4 [downLink 0, downLink 1, downLink 2] := by
  refine ⟨⟨fun h => absurd h (by decide), fun c hc => ?_⟩, 2, .inr (.inl ⟨_, peer_toRoot, rfl⟩)⟩
  obtain rfl := (List.mem_replicate.1 (show c ∈ List.replicate 2 _ from hc)).2
  exact ⟨rfl, fun _ => rfl⟩

/-- A read of endpoint A with two different completions, and the steps until they have arrived. -/
def twoNet : TNet :=
  { peerNet with
    answer := fun x =>
      if x = 0 then [{ id := 2, cls := .CPL, dc := 8, route := [downLink 1, downLink 2] }, { id := 3, cls := .CPL, dc := 8, route := [downLink 1, downLink 2] }] else [] }

def twoEvs : List TEv :=
  [.start 4 upRead, .send 4 0, .recv 4, .take 4 0, .pass 2, .recv 2, .take 2 0, .pass 0, .recv 0, .reply 0, .reply 0, .recv 1, .recv 1, .take 1 0, .pass 3, .recv 3, .take 3 0, .pass 5, .recv 5,
   .take 1 0, .pass 3, .recv 3, .take 3 0, .pass 5, .recv 5]

theorem twoNet_hierarchy : Hierarchy twoNet peerParent 4 := ⟨peer_hierarchy.some, peer_hierarchy.parent, peer_hierarchy.inner, peer_hierarchy.back⟩

theorem two_answer {c : TPkt} (hc : c ∈ twoNet.answer 0) : c = { id := 2, cls := .CPL, dc := 8, route := [downLink 1, downLink 2] } ∨ c = { id := 3, cls := .CPL, dc := 8, route := [downLink 1, downLink 2] } := by
  simpa [twoNet] using hc

example : OwnCpls twoNet 0 (started twoEvs) := by
  refine ⟨fun x hx c hc => ?_, fun x hx => ?_⟩
  · simp [twoNet, hx] at hc
  · simp only [twoEvs, started, List.mem_singleton] at hx
    subst hx
    decide +kernel

example : owed twoNet 0 (started twoEvs) = 1 := by decide +kernel

example : ∃ s, TState.init.run twoNet twoEvs = some s ∧ delivered s 0 = 1 ∧ (arrived s).filter (isCplOf twoNet 0) = [2, 3] := by
  refine ⟨_, rfl, ?_, ?_⟩ <;> decide +kernel

example : ∀ x ∈ started twoEvs, SameRoute twoNet (isCplOf twoNet 0) [downLink 0, downLink 1, downLink 2] x.1 x.2 ∧ RootTraffic twoNet peerParent 4 x.1 x.2 := by
  intro x hx
  simp only [twoEvs, started, List.mem_singleton] at hx
  subst hx
  refine ⟨⟨fun h => absurd h (by decide +kernel), fun c hc => ?_⟩, fun m => .inr (Nat.zero_le _), .inl ⟨2, by decide, rfl, ⟨_, peer_toRoot, rfl⟩, fun c hc => ⟨2, by decide, ?_⟩⟩⟩
  · rcases two_answer hc with rfl | rfl <;> exact ⟨rfl, fun _ => rfl⟩
  · rcases two_answer hc with rfl | rfl <;> exact ⟨fits_cpl _ _, ⟨_, peer_toRoot, rfl⟩, rfl⟩

end Pcie
