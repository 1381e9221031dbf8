/-
Specification: what the host knows about the functions of a hierarchy.
-/
import Verif.Spec.Scan
import Verif.Spec.Enum
import Verif.Model.HostProg
namespace Pcie.Spec
open Pcie
variable {σ : Type}

/-- The registers that all functions have. -/
def common : Fn σ → Common σ
  | .ep f => f.toCommon
  | .br _ f => f.toCommon

/-- The function is a downstream port. -/
def isDsp : Fn σ → Bool
  | .ep _ => false
  | .br dsp _ => dsp

/-- The record that the host has of the function `x` with the number `id` is right: IDs, header type, class code. -/
structure Describes (id : PcieId) (x : Fn σ) (p : Host.Device) : Prop where
  id : p.id = id
  vendor : p.vendorId = (common x).vendorId % 2 ^ 16
  device : p.deviceId = (common x).deviceId % 2 ^ 16
  header : p.headerType = (common x).headerLayout % 2 ^ 7
  multi : p.multifunction = (common x).multifunction
  revision : p.revisionId = (common x).revisionId % 2 ^ 8
  cls : p.classCode = (common x).classCode % 2 ^ 24
  subsys : ∀ f, x = .ep f → p.subsysVendor = f.subsysVendor % 2 ^ 16 ∧ p.subsysId = f.subsysId % 2 ^ 16
  dsp : p.dsp = isDsp x

/-- Endpoints have header type 0 and bridges header type 1 (function.py:93, bridge.py:38). -/
def Typed : Phys σ → Prop
  | .nil => True
  | .ep _ _ f rest => f.headerLayout % 128 = 0 ∧ Typed rest
  | .br _ _ _ f child rest => f.headerLayout % 128 = 1 ∧ Typed child ∧ Typed rest

/-- The devices that the host has found are those of the bus with number `m` and of the buses behind its bridges, each with
the right number, and the addresses it has recorded for BARs and expansion ROMs are those in the registers. -/
inductive Knows : (m : Nat) → Phys σ → Host.Tree → Prop
  | nil {m} : Knows m .nil .nil
  | fn {m d fn f rest p t ws r} : Describes ⟨m, d, fn⟩ (.ep f) p → FnRes 6 f.toCommon ws r → Recorded f.toCommon p.bars ws r →
      Knows m rest t → Knows m (.ep d fn f rest) (.fn p t)
  | bridge {m d fn dsp f child rest p tc t ws r} : Describes ⟨m, d, fn⟩ (.br dsp f) p → FnRes 2 f.toCommon ws r →
      Recorded f.toCommon p.bars ws r → Knows f.secBus child tc → Knows m rest t → Knows m (.br d fn dsp f child rest) (.bridge p tc t)

/-- The number of base address registers. -/
def barCount : Fn σ → Nat
  | .ep _ => 6
  | .br _ _ => 2

/-- The addresses that the host has recorded for the BARs and the expansion ROM of the function are those in its registers. -/
def Located (x : Fn σ) (p : Host.Device) : Prop := ∃ ws r, FnRes (barCount x) (common x) ws r ∧ Recorded (common x) p.bars ws r

end Pcie.Spec
