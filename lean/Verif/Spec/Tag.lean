/-
Specification vocabulary for non-posted operations.
-/
import Verif.Model.Tag
namespace Pcie.Spec
open Pcie

/-- A complete answer to `req`: its last completion, and no earlier one, ends the operation. -/
def CompleteAnswer (req : Tlp) (answers : List Tlp) : Prop :=
  ∃ pre last, answers = pre ++ [last] ∧ Op.ends req last = true ∧ ∀ c ∈ pre, Op.ends req c = false

/-- No operation times out, and every operation is answered completely. -/
def NoTimeout (acts : List OpAct) : Prop :=
  ∀ a ∈ acts, match a with
    | .start req answers tag_count => CompleteAnswer req answers ∧ tag_count ≤ 256
    | .timeout _ => False
    | _ => True

end Pcie.Spec
