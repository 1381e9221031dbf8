import Verif.Spec.StreamQueue
/-
What it means that nothing holds up a source.
-/
namespace Pcie.Spec
open Sq
variable {F T V : Type}

/-- From now on nobody sends, and only the source's own task and clock edges happen at which neither side pauses. -/
def HsRunning (more : List (SrcEv F (Hs.Ev T))) : Prop := ∀ e ∈ more, e = .work ∨ e = .bus (.edge false false)

def AxisRunning (more : List (SrcEv F (Axis.Ev T))) : Prop := ∀ e ∈ more, e = .work ∨ e = .bus (.edge false)

/-- The number of events of the bus, here clock edges. -/
def edges (more : List (SrcEv F V)) : Nat := more.countP fun | .bus _ => true | _ => false

/-- One clock cycle for each dword of each frame, and one more for each frame. -/
def cycles (size : F → Nat) (fs : List F) : Nat := (fs.map fun f => size f + 1).sum

end Pcie.Spec
