/- Specification: paths in a hierarchy of functions. -/
import Verif.Model.Mps
namespace Pcie.Spec
open Pcie

/-- A function on the bus, with the bus behind it. -/
def nodes : MTree → List (MFn × MTree)
  | .nil => []
  | .fn f child rest => (f, child) :: nodes rest

/-- A path from a function of the bus down to some function: each is on the bus behind the one before. -/
inductive Path : MTree → List MFn → Prop
  | one {t f c} : (f, c) ∈ nodes t → Path t [f]
  | step {t f c p} : (f, c) ∈ nodes t → Path c p → Path t (f :: p)

/-- `g` is on the bus behind `f`, somewhere in the hierarchy. -/
inductive Link : MTree → MFn → MTree → Prop
  | here {t f c} : (f, c) ∈ nodes t → Link t f c
  | deeper {t f c g d} : (f, c) ∈ nodes t → Link c g d → Link t g d

/-- All functions of the hierarchy have the property. -/
def AllFns (P : MFn → Prop) : MTree → Prop
  | .nil => True
  | .fn f child rest => P f ∧ AllFns P child ∧ AllFns P rest

/-- All functions behind bridges have the property. -/
def AllBelow (P : MFn → Prop) : MTree → Prop
  | .nil => True
  | .fn _ child rest => AllFns P child ∧ AllBelow P rest

/-- A function as the PCI Express specification wants it behind a bridge: it is not a root port or a root complex integrated
endpoint. -/
def NotRoot (f : MFn) : Prop := f.pcie = true ∧ f.ptype ≠ 4 ∧ f.ptype ≠ 9

/-- The same functions with the same capabilities; only the configured sizes may differ. -/
def SameShape : MTree → MTree → Prop
  | .nil, .nil => True
  | .fn f c r, .fn f' c' r' => { f with mps := 0 } = { f' with mps := 0 } ∧ SameShape c c' ∧ SameShape r r'
  | _, _ => False

end Pcie.Spec
