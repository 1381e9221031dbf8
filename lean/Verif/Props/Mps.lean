/- C37: maximum payload size. -/
import Verif.Lemmas.Mps
namespace Pcie
open Spec

private theorem tree_inv {host : Nat} {t t' : MTree} (h : configTree host t = .ok t') :
    ∃ b fs, configBus host none t.fns = .ok (b, fs) ∧ configBelow host fs t = .ok t' := by
  simp only [configTree] at h
  cases h1 : configBus host none t.fns with
  | error e => rw [h1] at h; cases h
  | ok r => obtain ⟨b, fs⟩ := r; rw [h1] at h; exact ⟨b, fs, rfl, h⟩

/-- C37: in every hierarchy, every function ends up with a maximum payload size which it supports itself, and which every
bridge on its path to the root complex supports. (Sizes before: anything that the function supports, e.g. 0 after reset.) -/
theorem C37_path (host : Nat) (t t' : MTree) (hroot : ∀ f ∈ t.fns, f.pcie = true ∧ f.mps ≤ f.mpss)
    (hb : AllBelow (fun f => NotRoot f ∧ f.mps ≤ f.mpss) t) (h : configTree host t = .ok t') :
    SameShape t t' ∧ ∀ p l, Path t' p → p.getLast? = some l → ∀ g ∈ p, l.mps ≤ g.mpss := by
  obtain ⟨b, fs, h1, h2⟩ := tree_inv h
  obtain ⟨_, k⟩ := configBus_root (fun f hf => (hroot f hf).2) h1
  have bound : ∃ B, ∀ f ∈ t.fns, f.mpss ≤ B := by
    generalize t.fns = l
    induction l with
    | nil => exact ⟨0, by simp⟩
    | cons f l ih =>
      obtain ⟨B, hB⟩ := ih
      refine ⟨max f.mpss B, ?_⟩
      intro g hg
      rcases List.mem_cons.1 hg with h | h
      · rw [h]; omega
      · have := hB g h; omega
  obtain ⟨B, hB⟩ := bound
  have k' : List.Forall₂ (fun f f' => { f' with mps := 0 } = ({ f with mps := 0 } : MFn) ∧ f'.mps ≤ B ∧ f'.mps ≤ f.mpss) t.fns fs := by
    clear h1 h2 hroot
    generalize t.fns = l at k hB
    induction k with
    | nil => exact .nil
    | cons hx _ ih =>
      refine .cons ⟨hx.1, ?_, hx.2.1⟩ (ih fun f hf => hB f (by simp [hf]))
      have := hB _ (List.mem_cons_self ..)
      omega
  have r := configBelow_path k' (fun f hf => (hroot f hf).1) hb h2
  exact ⟨r.1, fun p l hp hl => (r.2 p hp l hl).2⟩

/-- C37, towards the root: no function may send a larger TLP than the bridge above it accepts, if that bridge is not a root
port or has only one function behind it. What is missing: several functions behind one root port, see
`C37_upstream_violated`, and the downstream direction, see `C37_downstream_violated`. -/
theorem C37_upstream_partial (host : Nat) (t t' : MTree) (hroot : ∀ f ∈ t.fns, f.pcie = true ∧ f.mps ≤ f.mpss)
    (hb : AllBelow (fun f => NotRoot f ∧ f.mps ≤ f.mpss) t) (h : configTree host t = .ok t') :
    ∀ f c, Link t' f c → (f.ptype ≠ 4 ∨ c.fns.length ≤ 1) → ∀ g ∈ c.fns, g.mps ≤ f.mps := by
  obtain ⟨b, fs, h1, h2⟩ := tree_inv h
  obtain ⟨_, k⟩ := configBus_root (fun f hf => (hroot f hf).2) h1
  exact configBelow_up (k.imp fun _ _ hx => hx.1) (fun f hf => (hroot f hf).1) hb h2

/-- C37: if everything behind the root ports supports the size of the host, then every function gets exactly this size, and
no TLP is too large for its receiver in either direction. -/
theorem C37_uniform (host : Nat) (t t' : MTree) (hroot : ∀ f ∈ t.fns, f.pcie = true ∧ f.ptype = 4 ∧ f.mps ≤ f.mpss)
    (hb : AllBelow (fun f => NotRoot f ∧ f.mps ≤ f.mpss ∧ host ≤ f.mpss) t) (h : configTree host t = .ok t') :
    AllFns (fun f => f.mps = host) t' := by
  obtain ⟨b, fs, h1, h2⟩ := tree_inv h
  obtain ⟨_, k⟩ := configBus_root (fun f hf => (hroot f hf).2.2) h1
  refine configBelow_uniform (k.imp fun _ _ hx => hx.1) (fun f hf => (hroot f hf).1) ?_ hb h2
  clear h1 h2 hb
  generalize t.fns = l at k hroot
  induction k with
  | nil => simp
  | cons hx _ ih =>
    intro g hg
    have h0 := hroot _ (List.mem_cons_self ..)
    rcases List.mem_cons.1 hg with h | h
    · rw [h]; exact hx.2.2.1 h0.1 h0.2.1
    · exact ih (fun f hf => hroot f (by simp [hf])) g h

/-- A root port (512 bytes) with a switch of two ports (512 bytes), an endpoint with 128 bytes and one with 256 bytes. -/
private def exSw : MTree :=
  .fn ⟨true, 4, 2, 0⟩ (.fn ⟨true, 5, 2, 0⟩
    (.fn ⟨true, 6, 2, 0⟩ (.fn ⟨true, 0, 0, 0⟩ .nil .nil) (.fn ⟨true, 6, 2, 0⟩ (.fn ⟨true, 0, 1, 0⟩ .nil .nil) .nil)) .nil) .nil

/-- C37 violated downstream: behind a switch, a device that supports less than the root port gets its own smaller size, but
the ports above keep theirs: they may send it TLPs larger than it accepts. -/
theorem C37_downstream_violated : ∃ t', configTree 2 exSw = .ok t' ∧ ∃ f c, Link t' f c ∧ ∃ g ∈ c.fns, g.mps < f.mps ∧ g.mpss < f.mps := by
  refine ⟨.fn ⟨true, 4, 2, 2⟩ (.fn ⟨true, 5, 2, 2⟩
    (.fn ⟨true, 6, 2, 2⟩ (.fn ⟨true, 0, 0, 0⟩ .nil .nil) (.fn ⟨true, 6, 2, 2⟩ (.fn ⟨true, 0, 1, 1⟩ .nil .nil) .nil)) .nil) .nil,
    rfl, ⟨true, 6, 2, 2⟩, .fn ⟨true, 0, 0, 0⟩ .nil .nil, ?_, ⟨true, 0, 0, 0⟩, ?_, ?_⟩
  · exact .deeper (List.mem_cons_self ..) (.deeper (List.mem_cons_self ..) (.here (List.mem_cons_self ..)))
  · simp [MTree.fns]
  · decide

/-- C37 violated upstream: of two functions behind one root port the second lowers the size of the root port, the first
keeps the larger one, and may send TLPs larger than the root port accepts. -/
theorem C37_upstream_violated : ∃ t', configTree 2 (.fn ⟨true, 4, 2, 0⟩ (.fn ⟨true, 0, 2, 0⟩ .nil (.fn ⟨true, 0, 0, 0⟩ .nil .nil)) .nil) = .ok t' ∧
    ∃ f c, Link t' f c ∧ ∃ g ∈ c.fns, f.mps < g.mps := by
  refine ⟨_, rfl, ⟨true, 4, 2, 0⟩, .fn ⟨true, 0, 2, 2⟩ .nil (.fn ⟨true, 0, 0, 0⟩ .nil .nil), .here ?_, ⟨true, 0, 2, 2⟩, ?_, ?_⟩
  · exact List.mem_cons_self ..
  · simp [MTree.fns]
  · decide

/-! The hypotheses of the theorems hold for the switch. -/
example : (∀ f ∈ exSw.fns, f.pcie = true ∧ f.ptype = 4 ∧ f.mps ≤ f.mpss) ∧ AllBelow (fun f => NotRoot f ∧ f.mps ≤ f.mpss) exSw := by
  simp [exSw, MTree.fns, AllBelow, AllFns, NotRoot]
example : (configTree 2 exSw).toOption.isSome = true := by decide
example : AllBelow (fun f => NotRoot f ∧ f.mps ≤ f.mpss ∧ 0 ≤ f.mpss) exSw ∧ (configTree 0 exSw).toOption.isSome = true :=
  ⟨by simp [exSw, AllBelow, AllFns, NotRoot], by decide⟩

end Pcie
