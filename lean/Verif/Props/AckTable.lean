import Verif.Model.FcTime
import Verif.Spec.AckTable
/-
C80: the latency limit of the timers is that of the specification.
-/
namespace Pcie
open Spec

theorem latency_speed (mp w s : Nat) (hw : 0 < w) : (maxUpdateLatency mp w s).1 / (maxUpdateLatency mp w s).2 = (maxUpdateLatency mp w 1).1 / (maxUpdateLatency mp w 1).2 + ackExtra s := by
  have h : ∀ d, ((mp + 28) * updateFactor mp w + d * (10 * w)) / (10 * w) = (mp + 28) * updateFactor mp w / (10 * w) + d := fun d => Nat.add_mul_div_right _ _ (by omega)
  unfold maxUpdateLatency ackExtra
  simp only [h, if_true]
  by_cases h1 : s = 1
  · simp [h1]
  · by_cases h2 : s = 2
    · simp [h2]
    · simp [h1, h2]

/-- For every maximum payload size, width of a link and generation (there is no upper bound on the latter), the limit in whole symbol times is that of the specification. -/
theorem C80_table (s mp : Nat) (row : List Nat) (hr : (mp, row) ∈ ackLimits) (w limit : Nat) (hw : (w, limit) ∈ linkWidths.zip row) :
    (maxUpdateLatency mp w s).1 / (maxUpdateLatency mp w s).2 = limit + ackExtra s := by
  have key : ∀ r ∈ ackLimits, ∀ p ∈ linkWidths.zip r.2, 0 < p.1 ∧ (maxUpdateLatency r.1 p.1 1).1 / (maxUpdateLatency r.1 p.1 1).2 = p.2 := by decide +kernel
  obtain ⟨h1, h2⟩ := key _ hr _ hw
  rw [latency_speed _ _ _ h1]
  exact congrArg (· + ackExtra s) h2

/-- 128 bytes, x8, 8 GT/s. -/
example : (maxUpdateLatency 128 8 3).1 / (maxUpdateLatency 128 8 3).2 = 163 := C80_table 3 128 [237, 128, 73, 67, 58, 48, 33] (by decide) 8 67 (by decide)

end Pcie
