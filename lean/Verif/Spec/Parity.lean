/- Specification of parity. -/
import Mathlib.Data.Nat.Bitwise
namespace Pcie.Spec

/-- Byte `k` of `d` has an odd number of ones. -/
def OddByte (d k : Nat) : Prop := (List.range 8).countP (fun i => d.testBit (8 * k + i)) % 2 = 1

instance (d k : Nat) : Decidable (OddByte d k) := by unfold OddByte; infer_instance

/-- The list with bit `b` of element `i` inverted. -/
def flipAt (l : List Nat) (i b : Nat) : List Nat := l.modify i (· ^^^ 2 ^ b)

end Pcie.Spec
