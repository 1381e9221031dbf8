/- Specification of the assignment of function and device numbers. -/
import Verif.Model.Numbers
namespace Pcie.Spec
open Pcie

/-- `k` is the lowest number from `lo` to `hi` that is not used. -/
def LowestFree (used : Nat → Prop) (lo hi k : Nat) : Prop :=
  lo ≤ k ∧ k ≤ hi ∧ ¬ used k ∧ ∀ j, lo ≤ j → j < k → used j

/-- All numbers from `lo` to `hi` are used. -/
def Full (used : Nat → Prop) (lo hi : Nat) : Prop := ∀ j, lo ≤ j → j ≤ hi → used j

/-- A function of the device has number `k`. -/
def HasFn (d : DevNums) (k : Nat) : Prop := ∃ f ∈ d.fns, f.id.function = k

/-- A port has device number `k`. -/
def HasPort (s : PortNums) (k : Nat) : Prop := ∃ e ∈ s.eps, e.device = k

/-- Functions are given with numbers from 0 to 7 (a `PcieId` cannot hold others). -/
def FnIds (ops : List DevCall) : Prop := ∀ f, DevCall.add f ∈ ops → f.id.function ≤ 7

/-- Ports are given with device numbers from 0 to 31 (a `PcieId` cannot hold others). -/
def PortIds (ops : List PortCall) : Prop := ∀ e, PortCall.append e ∈ ops → e.device ≤ 31

end Pcie.Spec
