import Verif.Model.SimPort
import Verif.Spec.Port
/-
Physical timing of a link.
-/
namespace Pcie.Spec

/-- The link without time: the packets on each wire, oldest first. -/
def untimed (l : TimedLink) : Link :=
  { a := l.a, b := l.b, ab := l.ab.fly.map (·.1) ++ (l.ab.ser.map (·.1)).toList, ba := l.ba.fly.map (·.1) ++ (l.ba.ser.map (·.1)).toList }

/-- Nothing on the wires yet. -/
def FreshTimed (l : TimedLink) : Prop := l.ab = {} ∧ l.ba = {} ∧ Fresh (untimed l)

/-- Bits per second, as a fraction: the symbol rate times the code rate. -/
def lineRate : Nat → Nat × Nat
  | 1 => (2500000000 * 8, 10)
  | 2 => (5000000000 * 8, 10)
  | 3 => (8000000000 * 128, 130)
  | 4 => (16000000000 * 128, 130)
  | 5 => (32000000000 * 128, 130)
  | _ => (0, 1)

/-- Of two limits, the lower; a limit that is absent or 0 does not limit. -/
def lower (a b : Option Nat) : Option Nat :=
  match a.filter (· ≠ 0), b.filter (· ≠ 0) with
  | some a, some b => some (min a b)
  | some a, none => some a
  | none, some b => some b
  | none, none => none

end Pcie.Spec
