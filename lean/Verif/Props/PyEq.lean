import Verif.Model.PyEq
/-
C87: packets and frames compare equal exactly when they agree in every field, and copies are equal to the original.
-/
namespace Pcie

/-- **C87** for DLLPs. -/
theorem C87_dllp (a b : Dllp) : (a.pyEq b = true ↔ a = b) ∧ a.pyCopy = a := by
  refine ⟨?_, rfl⟩
  cases a; cases b
  simp only [Dllp.pyEq, Dllp.mk.injEq, decide_eq_true_eq]

/-- **C87** for frames of the Xilinx interfaces. -/
theorem C87_us_frame (a b : UsFrame) : (a.pyEq b = true ↔ a = b) ∧ a.pyCopy = a := by
  refine ⟨?_, rfl⟩
  cases a; cases b
  simp only [UsFrame.pyEq, UsFrame.mk.injEq, decide_eq_true_eq]

/-- **C87** for frames of the Stratix 10 interfaces. -/
theorem C87_s10_frame (a b : S10Frame) : (a.pyEq b = true ↔ a = b) ∧ a.pyCopy = a := by
  refine ⟨?_, rfl⟩
  cases a; cases b
  simp only [S10Frame.pyEq, S10Frame.mk.injEq, decide_eq_true_eq]

/-- **C87** for frames of the P-Tile interfaces. -/
theorem C87_ptile_frame (a b : PTileFrame) : (a.pyEq b = true ↔ a = b) ∧ a.pyCopy = a := by
  refine ⟨?_, rfl⟩
  cases a; cases b
  simp only [PTileFrame.pyEq, PTileFrame.mk.injEq, decide_eq_true_eq]

/-- **C87** is violated for the TLPs of the Xilinx interfaces: a completion that ended with an error compares equal to one that did not, a request with another sequence number or BAR compares equal, and what is
sent for them differs. -/
theorem C87_us_tlp_violated : ∃ a b : UsTlp, a.pyEq b = true ∧ a.errorCode ≠ b.errorCode ∧ a.requestCompleted ≠ b.requestCompleted ∧ a.seqNum ≠ b.seqNum ∧ a.barId ≠ b.barId ∧
    (UsTlp.packRc a).toOption.map (·.data) ≠ (UsTlp.packRc b).toOption.map (·.data) :=
  ⟨{ tlp := { fmt := 2, type := 0xa, length := 1, byte_count := 4, data := [1, 2, 3, 4] } },
   { tlp := { fmt := 2, type := 0xa, length := 1, byte_count := 4, data := [1, 2, 3, 4] }, errorCode := 1, requestCompleted := true, seqNum := 3, barId := 2 },
   by decide, by decide, by decide, by decide, by decide, by decide +kernel⟩

/-- **C87** for the TLPs of the Xilinx interfaces: they compare equal exactly when they agree in the fields of a plain TLP, `th` and the link's sequence number left out. Missing: the fields that only these
TLPs have, and `th` (`C87_us_tlp_violated`, `C05_eq_violated`). -/
theorem C87_us_tlp_partial (u v : UsTlp) : u.pyEq v = true ↔ { u.tlp with th := false, seq := 0 } = { v.tlp with th := false, seq := 0 } := by
  obtain ⟨a, _⟩ := u
  obtain ⟨b, _⟩ := v
  cases a; cases b
  simp only [UsTlp.pyEq, Tlp.mk.injEq, decide_eq_true_eq]
  constructor
  · rintro ⟨rfl, rfl, rfl, rfl, rfl, rfl, rfl, rfl, rfl, rfl, rfl, rfl, rfl, rfl, rfl, rfl, rfl, rfl, rfl, rfl, rfl⟩
    simp
  · intro h
    simp only [true_and, and_true] at h
    grind

example : Dllp.pyEq { type := 0, seq := 5 } { type := 0, seq := 6 } = false ∧ UsFrame.pyEq { data := [1], seqNum := 1 } { data := [1], seqNum := 2 } = false := by decide
example : S10Frame.pyEq { data := [1], funcNum := 1 } { data := [1] } = false ∧ PTileFrame.pyEq { hdr := 1 } { hdr := 1, abort := 1 } = false := by decide
example : UsTlp.pyEq { tlp := { length := 1 } } { tlp := { length := 2 } } = false := by decide

end Pcie
