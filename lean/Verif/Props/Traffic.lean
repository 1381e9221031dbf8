import Verif.Lemmas.TrafficPeer
import Verif.Lemmas.TrafficWrites
/-
C84: TLPs in a hierarchy do not get stuck.
-/
namespace Pcie
open Pcie.Spec

/-- **C84**: between the root complex and the components of any hierarchy, with any credits that are large enough for each single TLP, any number of requests in both directions and any schedule of all the tasks:
no TLP is delivered more often than it should be; only a bounded number of things can happen; and when nothing more can happen, every request and every completion has been delivered.
Missing: traffic from one component to another, see `C84_dma_partial`, which can get stuck (`C84_peer_violated`). -/
theorem C84_root_traffic_partial {N : TNet} {parent : Nat → Nat} {n : Nat} (H : Hierarchy N parent n) {es : List TEv} {s : TState} (hr : TState.init.run N es = some s)
    (hst : ∀ x ∈ started es, RootTraffic N parent n x.1 x.2) :
    es.length ≤ (started es).length + effort N (started es) ∧ (∀ x, delivered s x ≤ owed N x (started es)) ∧
      (Halted N s → (∀ x, delivered s x = owed N x (started es)) ∧ es.length = (started es).length + effort N (started es)) :=
  ranked_live hr fun x hx => (hst x hx).ok H

/-- **C84**: as long as something has not been delivered, something can happen. -/
theorem C84_progress_partial {N : TNet} {parent : Nat → Nat} {n : Nat} (H : Hierarchy N parent n) {es : List TEv} {s : TState} (hr : TState.init.run N es = some s)
    (hst : ∀ x ∈ started es, RootTraffic N parent n x.1 x.2) {x : Nat} (hx : delivered s x ≠ owed N x (started es)) :
    ∃ e s', (∀ m p, e ≠ .start m p) ∧ s.step N e = some s' := by
  refine Classical.byContradiction fun hno => hx ?_
  refine ((C84_root_traffic_partial H hr hst).2.2 fun e s' hs => Classical.byContradiction fun he => hno ⟨e, s', fun m p hp => he ⟨m, p, hp⟩, hs⟩).1 x

/-- **C84**: the same for components that write to each other in any way and read from the root complex, as long as nobody reads from them. -/
theorem C84_dma_partial {N : TNet} {parent : Nat → Nat} {n : Nat} (H : Hierarchy N parent n) {es : List TEv} {s : TState} (hr : TState.init.run N es = some s)
    (hst : ∀ x ∈ started es, DmaTraffic N parent n x.1 x.2) :
    es.length ≤ (started es).length + effort N (started es) ∧ (∀ x, delivered s x ≤ owed N x (started es)) ∧
      (Halted N s → (∀ x, delivered s x = owed N x (started es)) ∧ es.length = (started es).length + effort N (started es)) :=
  ranked_live hr fun x hx => (hst x hx).ok H

/-- **C84** is violated by reads between two endpoints: behind one switch, with the credits of the code, each of them sends 68 reads of 4096 bytes to the other. There is a schedule after which nothing can
happen any more, and not one completion has arrived: the switch has a read for each endpoint at the head of its port, for which the endpoint has no credits; the endpoints send completions, for which the switch
has no credits; and the completions that hold these credits wait behind the reads. -/
theorem C84_peer_violated : ∃ es s, TState.init.run peerNet es = some s ∧
    started es = List.replicate 68 (upLink 2, readA) ++ List.replicate 68 (upLink 3, readB) ∧
    Halted peerNet s ∧ delivered s cplA.id = 0 ∧ delivered s cplB.id = 0 ∧
    owed peerNet cplA.id (started es) = 68 * 32 ∧ owed peerNet cplB.id (started es) = 68 * 32 := by
  obtain ⟨es, hes, hr⟩ := leads_jammed
  have hst : started (List.replicate 68 (.start (upLink 2) readA) ++ List.replicate 68 (.start (upLink 3) readB) ++ es) =
      List.replicate 68 (upLink 2, readA) ++ List.replicate 68 (upLink 3, readB) := by
    rw [started_append, started_append, starts, starts, hes, List.append_nil]
  refine ⟨List.replicate 68 (.start (upLink 2) readA) ++ List.replicate 68 (.start (upLink 3) readB) ++ es, jammed.st, ?_, hst, jammed_halted, rfl, rfl, ?_, ?_⟩
  · rw [TState.run_append, jam_start]
    exact hr
  · rw [hst]; decide +kernel
  · rw [hst]; decide +kernel

/-- **C84** is violated even by writes between two endpoints, when the root complex reads from them: behind two switches, with the credits of the code, each endpoint sends 195 writes of 128 bytes to the other,
and the root complex sends three reads of 4096 bytes to each. There is a schedule after which nothing can happen any more, and not one completion and not one write has arrived. -/
theorem C84_peer_write_violated : ∃ es s, TState.init.run crossNet es = some s ∧
    started es = List.replicate 195 (upLink 3, writeA) ++ List.replicate 195 (upLink 4, writeB) ++ List.replicate 3 (downLink 0, hostReadA) ++ List.replicate 3 (downLink 0, hostReadB) ∧
    Halted crossNet s ∧ delivered s writeA.id = 0 ∧ delivered s writeB.id = 0 ∧ delivered s hostCplA.id = 0 ∧ delivered s hostCplB.id = 0 ∧
    owed crossNet writeA.id (started es) = 195 ∧ owed crossNet hostCplA.id (started es) = 96 := by
  obtain ⟨es, hes, hr⟩ := leads_crossed
  have hst : started (crossEvs ++ es) =
      List.replicate 195 (upLink 3, writeA) ++ List.replicate 195 (upLink 4, writeB) ++ List.replicate 3 (downLink 0, hostReadA) ++ List.replicate 3 (downLink 0, hostReadB) := by
    unfold crossEvs
    simp only [started_append, starts, hes, List.append_nil]
  refine ⟨crossEvs ++ es, crossed.st, ?_, hst, crossed_halted, rfl, rfl, rfl, rfl, ?_, ?_⟩
  · rw [TState.run_append, cross_start]
    exact hr
  · rw [hst]; decide +kernel
  · rw [hst]; decide +kernel

/-! ### The hypotheses can be met -/

/-- The writes and reads of the second counterexample are the traffic of the two theorems above, but not of one of them. -/
theorem cross_hierarchy : Hierarchy crossNet crossParent 5 where
  some := by decide
  parent i h := by
    unfold crossParent
    split
    · omega
    · split <;> omega
  inner m h c := by simp [crossNet, h]
  back i := by
    constructor
    · simp only [crossNet, upLink, downLink]; rw [if_neg (by omega)]; omega
    · simp only [crossNet, upLink, downLink]; rw [if_pos (by omega)]

theorem cross_fits {p : TPkt} (h : p.dc ≤ 64) : CreditFits crossNet p := by
  intro m
  simp only [crossNet]
  split
  · exact .inl rfl
  · split
    · exact .inl rfl
    · split
      · exact .inr h
      · exact .inr (by omega)

example : DmaTraffic crossNet crossParent 5 (upLink 3) writeA :=
  ⟨cross_fits (by decide), .inr (.inl ⟨rfl, 3, by decide, .up (by decide) (.turn (by decide) (.step (by decide) (by decide) rfl (.step (by decide) (by decide) rfl (.here 4))))⟩)⟩

example : RootTraffic crossNet crossParent 5 (downLink 0) hostReadA := by
  have h : ToRoot crossParent 3 [3, 1, 0] := .step (by decide) (.step (by decide) .root)
  refine ⟨cross_fits (by decide), .inr ⟨3, by decide, rfl, ⟨_, h, rfl⟩, fun c hc => ?_⟩⟩
  obtain rfl := (List.mem_replicate.1 (show c ∈ List.replicate 32 _ from hc)).2
  exact ⟨cross_fits (by decide), ⟨_, h, rfl⟩, rfl⟩

theorem peer_toRoot : ToRoot peerParent 2 [2, 1, 0] := .step (by decide) (.step (by decide) .root)

/-- The network of the counterexample is a hierarchy. -/
theorem peer_hierarchy : Hierarchy peerNet peerParent 4 where
  some := by decide
  parent i h := by
    unfold peerParent
    split
    · omega
    · split <;> omega
  inner m h c := by simp [peerNet, h]
  back i := by
    constructor
    · simp only [peerNet, upLink, downLink]; rw [if_neg (by omega)]; omega
    · simp only [peerNet, upLink, downLink]; rw [if_pos (by omega)]

/-- The same network, but endpoint A reads from the root complex (TLP 0) and the root complex reads from endpoint A (TLP 1). -/
def rootNet : TNet :=
  { peerNet with
    answer := fun x =>
      if x = 0 then List.replicate 2 { id := 2, cls := .CPL, dc := 8, route := [downLink 1, downLink 2] }
      else if x = 1 then List.replicate 2 { id := 3, cls := .CPL, dc := 8, route := [upLink 1, upLink 0] } else [] }

theorem rootNet_hierarchy : Hierarchy rootNet peerParent 4 := ⟨peer_hierarchy.some, peer_hierarchy.parent, peer_hierarchy.inner, peer_hierarchy.back⟩

def upRead : TPkt := { id := 0, cls := .NP, dc := 0, route := [upLink 1, upLink 0] }
def downRead : TPkt := { id := 1, cls := .NP, dc := 0, route := [downLink 1, downLink 2] }

theorem fits_cpl (i : Nat) (r : List Nat) : CreditFits rootNet { id := i, cls := .CPL, dc := 8, route := r } := by
  intro m
  simp only [rootNet, peerNet]
  split
  · exact .inl rfl
  · split
    · exact .inl rfl
    · exact .inr (by simp)

example : RootTraffic rootNet peerParent 4 (upLink 2) upRead := by
  refine ⟨fun m => .inr (Nat.zero_le _), .inl ⟨2, by decide, rfl, ⟨_, peer_toRoot, rfl⟩, fun c hc => ⟨2, by decide, ?_⟩⟩⟩
  obtain rfl := (List.mem_replicate.1 (show c ∈ List.replicate 2 _ from hc)).2
  exact ⟨fits_cpl _ _, ⟨_, peer_toRoot, rfl⟩, rfl⟩

example : RootTraffic rootNet peerParent 4 (downLink 0) downRead := by
  refine ⟨fun m => .inr (Nat.zero_le _), .inr ⟨2, by decide, rfl, ⟨_, peer_toRoot, rfl⟩, fun c hc => ?_⟩⟩
  obtain rfl := (List.mem_replicate.1 (show c ∈ List.replicate 2 _ from hc)).2
  exact ⟨fits_cpl _ _, ⟨_, peer_toRoot, rfl⟩, rfl⟩

/-- A write of 256 bytes from A to B. -/
def peerWrite : TPkt := { id := 4, cls := .P, dc := 16, route := [downLink 3] }

example : DmaTraffic rootNet peerParent 4 (upLink 2) peerWrite := by
  refine ⟨fun m => ?_, .inr (.inl ⟨rfl, 2, by decide, .turn (by decide) (.step (by decide) (by decide) rfl (.here 3))⟩)⟩
  simp only [rootNet, peerNet, peerWrite]
  split
  · exact .inl rfl
  · exact .inr (by simp)

example : DmaTraffic rootNet peerParent 4 (upLink 2) upRead := by
  refine ⟨fun m => .inr (Nat.zero_le _), .inl ⟨2, by decide, rfl, ⟨_, peer_toRoot, rfl⟩, fun c hc => ⟨2, by decide, ?_⟩⟩⟩
  obtain rfl := (List.mem_replicate.1 (show c ∈ List.replicate 2 _ from hc)).2
  exact ⟨fits_cpl _ _, ⟨_, peer_toRoot, rfl⟩, rfl⟩

/-- A read and its two completions take all the steps that they are expected to take. -/
example : ((TState.init.run rootNet
    [.start 4 upRead, .send 4 0, .recv 4, .take 4 0, .pass 2, .recv 2, .take 2 0, .pass 0, .recv 0, .reply 0, .reply 0, .recv 1, .recv 1, .take 1 0, .pass 3, .recv 3, .take 3 0, .pass 5, .recv 5,
     .take 1 0, .pass 3, .recv 3, .take 3 0, .pass 5, .recv 5]).map fun s => s.done.map (·.id)) = some [0, 2, 2] := by decide +kernel
example : effort rootNet [(4, upRead)] = 24 := by decide

end Pcie
