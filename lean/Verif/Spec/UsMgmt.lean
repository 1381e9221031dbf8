import Verif.Model.UsMgmt
/-
Specification for the configuration management port, in terms of what is seen at the port at clock edges.
-/
namespace Pcie.Spec
variable {σ : Type}

/-- What was driven at the clock edges, in order. -/
def mgmtEdges (h : List (MgmtObs σ)) : List (MgmtIn × Bool × Nat) := h.filterMap fun | .edge i d r => some (i, d, r) | _ => none

/-- The accesses that took place, in order. -/
def mgmtAccesses (h : List (MgmtObs σ)) : List MgmtAccess := h.filterMap fun | .access a => some a | _ => none

/-- The clock edges at which the model reports that an access is done: what the user drives and the data that it gets. -/
def mgmtAnswered (h : List (MgmtObs σ)) : List (MgmtIn × Nat) :=
  (mgmtEdges h).filterMap fun e => if e.2.1 then some (e.1, e.2.2) else none

/-- The user follows the protocol: a request stays as it is until the clock edge at which the model reports that it is done. -/
def MgmtHeld (edges : List (MgmtIn × Bool × Nat)) : Prop :=
  ∀ k e e', edges[k]? = some e → edges[k + 1]? = some e' → (e.1.read ∨ e.1.write) → e.2.1 = false → e'.1 = e.1

/-- The register that a request is for: UltraScale has the number of the function in bits 16:10 of the address. -/
def mgmtFn (usp : Bool) (i : MgmtIn) : Nat := if usp then i.fn else i.addr / 2 ^ 10 % 2 ^ 7
@[inherit_doc mgmtFn]
def mgmtReg (usp : Bool) (i : MgmtIn) : Nat := if usp then i.addr else i.addr % 2 ^ 10
/-- Bit 18 of the address of UltraScale selects internal registers. -/
def mgmtInternal (usp : Bool) (i : MgmtIn) : Bool := !usp && i.addr.testBit 18

/-- The access is the one that the user asks for, and a read returns its value. -/
def MgmtMatches (usp : Bool) (r : MgmtIn × Nat) : MgmtAccess → Prop
  | .internal => mgmtInternal usp r.1 = true
  | .read fn reg v => mgmtInternal usp r.1 = false ∧ r.1.read = true ∧ fn = mgmtFn usp r.1 ∧ reg = mgmtReg usp r.1 ∧ r.2 = v
  | .write fn reg data be => mgmtInternal usp r.1 = false ∧ r.1.write = true ∧ r.1.read = false ∧ fn = mgmtFn usp r.1 ∧ reg = mgmtReg usp r.1 ∧
      data = r.1.writeData ∧ be = r.1.be

/-- The functions after a history, if the accesses of the port that it records are the only ones besides the recorded changes by others. -/
def mgmtReplay (ops : CapOps σ) (fns : List (Fn σ)) : List (MgmtObs σ) → List (Fn σ)
  | [] => fns
  | .edge _ _ _ :: h => mgmtReplay ops fns h
  | .env fns' :: h => mgmtReplay ops fns' h
  | .access (.write fn reg data be) :: h =>
    mgmtReplay ops (match fns[fn]? with | some f => fns.set fn (f.write ops reg data be) | none => fns) h
  | .access _ :: h => mgmtReplay ops fns h

/-- The number of clock edges among the events, and what is driven at them. -/
def mgmtClocks (es : List (MgmtEv σ)) : List MgmtIn := es.filterMap fun | .clock i => some i | _ => none

end Pcie.Spec
