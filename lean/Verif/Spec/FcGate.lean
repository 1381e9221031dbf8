import Verif.Model.FcGate
/-
What a sender may expect from the flow control gate.
-/
namespace Pcie.Spec
open Pcie

/-- The TLPs that tasks have asked to send, in this order. -/
def gateAsked : List GateEv → List GateTlp
  | [] => []
  | .call t :: es => t :: gateAsked es
  | _ :: es => gateAsked es

/-- The header and data credits granted by UpdateFC. -/
def gateHdr : List GateEv → Nat
  | [] => 0
  | .update h _ :: es => h + gateHdr es
  | _ :: es => gateHdr es
def gateData : List GateEv → Nat
  | [] => 0
  | .update _ d :: es => d + gateData es
  | _ :: es => gateData es

/-- Data credits of TLPs. -/
def dcSum (l : List GateTlp) : Nat := (l.map (·.dc)).sum

/-- With initial credits `h₀`, `d₀` and those granted in the history, there are credits for `l`. -/
def Covers (h₀ d₀ : Option Nat) (es : List GateEv) (l : List GateTlp) : Prop :=
  (∀ h, h₀ = some h → l.length ≤ h + gateHdr es) ∧ (∀ d, d₀ = some d → dcSum l ≤ d + gateData es)

/-- No woken task is about to run. -/
def NoneWoken (g : Gate) : Prop := g.woken = []

/-- Tasks call `send` and DLLPs arrive only when the woken tasks have run. -/
def CalmFrom (g : Gate) : List GateEv → Prop
  | [] => True
  | e :: es => (e ≠ .wake → NoneWoken g) ∧ ∀ g', g.step e = some g' → CalmFrom g' es

end Pcie.Spec
