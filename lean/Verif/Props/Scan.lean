/- C32: bus numbers. -/
import Verif.Lemmas.ScanNum
import Verif.Props.Enum
namespace Pcie
open Spec Phys
variable {σ : Type}

/-- C32: for every hierarchy of up to 255 bridges, however deep, the scan finds every function exactly once, gives the
buses behind the bridges the distinct numbers 1, 2, ... in depth-first order, and changes nothing but the bus number
registers. No configuration access on the way gets to two functions (`cfgRead` and `cfgWrite` would fail). -/
theorem C32_scan (ops : CapOps σ) (b : Phys σ) (ho : BusOk true false (top b)) (hb : BusesOk b) (hf : NoNumbers b)
    (hk : bridges b ≤ 255) (fuel : Nat) (hd : depth b < fuel) :
    ∃ t ids, scanRoot ops fuel b = .ok (t, bridges b, ids) ∧ unnumbered t = unnumbered b ∧
      busNumbers t = List.range' 1 (bridges b) ∧ (busNumbers t).Nodup ∧
      ids.Nodup ∧ ∀ id : PcieId, id ∈ ids ↔ ∃ x, On 0 t id.bus (id.device, id.function, x) := by
  have h := scan_spec ops fuel [] 0 b false rfl (by simpa using ho) hb hf hd (by omega)
  refine ⟨numbered 0 0 b, idsTop 0 b ++ idsBelow 0 b, ?_, unnumbered_numbered 0 0 b, ?_, ?_,
    ids_nodup 0 0 (Nat.le_refl _) ho.sorted hb, mem_ids 0 0 b⟩
  · simpa [plug, scanRoot] using h
  · simpa using busNumbers_numbered 0 0 b
  · rw [busNumbers_numbered]; exact List.nodup_range'

/-- C32: with more than 255 bridges there are not enough bus numbers, and the scan raises. -/
theorem C32_too_many (ops : CapOps σ) (b : Phys σ) (ho : BusOk true false (top b)) (hb : BusesOk b) (hf : NoNumbers b)
    (hk : 255 < bridges b) (fuel : Nat) (hd : depth b < fuel) : ∃ e, scanRoot ops fuel b = .error e := by
  have h := scan_err ops fuel [] 0 b false rfl (by simpa using ho) hb hf hd (by omega) (by omega)
  simpa [plug, scanRoot] using h

private theorem scan_inv (ops : CapOps σ) {b t : Phys σ} (ho : BusOk true false (top b)) (hb : BusesOk b) (hf : NoNumbers b)
    {fuel last : Nat} (hd : depth b < fuel) {ids : List PcieId} (h : scanRoot ops fuel b = .ok (t, last, ids)) :
    t = numbered 0 0 b ∧ bridges b ≤ 255 := by
  by_cases hk : bridges b ≤ 255
  · have h1 := scan_spec ops fuel [] 0 b false rfl (by simpa using ho) hb hf hd (by omega)
    simp only [plug] at h1
    rw [scanRoot, h1, Except.ok.injEq, Prod.mk.injEq] at h
    exact ⟨h.1.symm, hk⟩
  · obtain ⟨e, he⟩ := C32_too_many ops b ho hb hf (by omega) fuel hd
    rw [he] at h; cases h

/-- C32: for each bridge, on bus `m` and with bus `c` behind it: its primary bus number is `m`; its range of buses is not
empty, lies behind `m` and in one byte; all functions and buses behind it have numbers in its range; the ranges of the
bridges on its secondary bus are inside it, and those of different bridges of one bus are disjoint. -/
theorem C32_ranges (ops : CapOps σ) (b t : Phys σ) (ho : BusOk true false (top b)) (hb : BusesOk b) (hf : NoNumbers b)
    (fuel last : Nat) (hd : depth b < fuel) (ids : List PcieId) (h : scanRoot ops fuel b = .ok (t, last, ids)) :
    ((brsOf t).Pairwise fun p q => p.1.subBus < q.1.secBus) ∧
    ∀ m f c, HasBr 0 t m f c →
      f.priBus = m ∧ m < f.secBus ∧ f.secBus ≤ f.subBus ∧ f.subBus ≤ 255 ∧
      (∀ k ∈ busNumbers c, f.secBus < k ∧ k ≤ f.subBus) ∧
      (∀ p ∈ brsOf c, f.secBus < p.1.secBus ∧ p.1.subBus ≤ f.subBus) ∧
      (brsOf c).Pairwise fun p q => p.1.subBus < q.1.secBus := by
  obtain ⟨rfl, hk⟩ := scan_inv ops ho hb hf hd h
  refine ⟨siblings_numbered 0 0 b, ?_⟩
  intro m f c hbr
  obtain ⟨_, lo, child, h1, h2, h3, h4, h5, h6, h7⟩ := hasBr_numbered hbr (Nat.le_refl _)
  subst h4
  rw [h5, h6, h7]
  refine ⟨rfl, by omega, by omega, by omega, ?_, ?_, siblings_numbered _ _ child⟩
  · intro k hk'
    rw [busNumbers_numbered] at hk'
    have := List.mem_range'_1.1 hk'
    omega
  · intro p hp
    obtain ⟨lo', c', g1, g2, g3, g4, g5, g6, _⟩ := mem_numbered (f := p.1) (c := p.2) hp
    rw [g5, g6]; omega

/-- C32: after the scan a configuration request for a function of the hierarchy gets to that function and to no other, and
a request for a number that no function has gets to none. On no bus of its way there is a choice between two ports or
functions. -/
theorem C32_unique_path (ops : CapOps σ) (b t : Phys σ) (ho : BusOk true false (top b)) (hb : BusesOk b) (hf : NoNumbers b)
    (fuel last : Nat) (hd : depth b < fuel) (ids : List PcieId) (h : scanRoot ops fuel b = .ok (t, last, ids)) (id : PcieId) :
    (∀ x, On 0 t id.bus (id.device, id.function, x) → t.at_ (id.bus = 0) id = [x]) ∧
    ((∀ x, ¬ On 0 t id.bus (id.device, id.function, x)) → t.at_ (id.bus = 0) id = []) ∧
    t.clear (id.bus = 0) id = true := by
  obtain ⟨rfl, hk⟩ := scan_inv ops ho hb hf hd h
  refine ⟨fun x hx => (on_numbered hx (Nat.le_refl _) ho.sorted hb).2, fun hx => off_numbered id (Nat.le_refl _) hx, ?_⟩
  by_cases h0 : id.bus = 0
  · rw [decide_eq_true h0]; exact clear_keys ho.sorted id
  · rw [decide_eq_false h0]; exact clear_numbered 0 0 b hb id

/-! A root port (device 1) with a switch of two downstream ports, an endpoint with two functions behind each, and an
endpoint integrated in the root complex (device 2). -/

/-- Two functions of one endpoint. -/
private def exEp2 : Phys Unit :=
  .ep 0 0 { multifunction := true, caps := () } (.ep 0 1 { multifunction := true, caps := () } .nil)
/-- A bridge after reset. -/
private def exBr : Br Unit := { headerLayout := 1, caps := () }
/-- The hierarchy. -/
private def exTree : Phys Unit :=
  .br 1 0 true exBr
    (.br 0 0 false exBr (.br 1 0 true exBr exEp2 (.br 2 0 true exBr exEp2 .nil)) .nil)
    (.ep 2 0 { caps := () } .nil)

example : depth exTree < 4 ∧ bridges exTree ≤ 255 ∧ NoNumbers exTree := ⟨by decide, by decide, by simp [NoNumbers, exTree, exBr, exEp2]⟩

example : BusOk true false (top exTree) ∧ BusesOk exTree := by
  have two : BusOk false true (top exEp2) := by
    constructor <;> simp [exEp2, top, Before, HeaderOk, idDword, Spec.multi]
  refine ⟨?_, ?_, ⟨?_, ⟨two, ?_, ⟨two, ?_, trivial⟩⟩, trivial⟩, trivial⟩
  · constructor <;> simp [exTree, exBr, top, Before, HeaderOk, idDword, Spec.multi]
  · constructor <;> simp [exBr, top, Before, HeaderOk, idDword, Spec.multi]
  · constructor <;> simp [exBr, top, Before, HeaderOk, idDword, Spec.multi]
  · trivial
  · trivial

example : (scanRoot noCaps 4 exTree).toOption.map (fun r => (busNumbers r.1, r.2)) =
    some ([1, 2, 3, 4], 4, [⟨0, 1, 0⟩, ⟨0, 2, 0⟩, ⟨1, 0, 0⟩, ⟨2, 1, 0⟩, ⟨2, 2, 0⟩, ⟨3, 0, 0⟩, ⟨3, 0, 1⟩, ⟨4, 0, 0⟩, ⟨4, 0, 1⟩]) := by
  decide +kernel

end Pcie
