import Verif.Model.IntPort
/-
Specification for the interrupt ports, in terms of what is seen at the port at clock edges.
-/
namespace Pcie.Spec

/-- The memory write that reports MSI interrupt `n` according to the registers of the capability: the low bits of the message data, as many as the number of enabled messages needs, are replaced by the
number. -/
def msiWrite (c : MsiCap) (n : Nat) : Nat × Nat :=
  let d := if c.extCap = true ∧ c.extEnable = true then c.data else c.data % 2 ^ 16
  (c.addr, d / 2 ^ c.mme * 2 ^ c.mme + n)

/-! ### Xilinx -/

/-- What was driven at the clock edges, in order. -/
def intEdges (h : List IntObs) : List (IntIn × IntOut) := h.filterMap fun | .edge i o => some (i, o) | _ => none

/-- The messages that were sent (`true`: MSI-X), in order. -/
def intMessages (h : List IntObs) : List (Bool × IntMsg) := h.filterMap fun | .msi m => some (false, m) | .msix m => some (true, m) | _ => none

/-- The user asks for an MSI interrupt (`false`) or an MSI-X interrupt (`true`). -/
def IntAsks (x : Bool) (i : IntIn) : Prop := if x then i.msixInt = true else i.msiInt ≠ 0

/-- The model reports that it has been sent. -/
def intSent (x : Bool) (o : IntOut) : Bool := if x then o.msixSent else o.msiSent

/-- The user follows the protocol: it asks for one interrupt at a time, and after it has asked for one, it asks for another one only at a clock edge at which the first has been reported sent, or later. -/
structure IntProtocol (edges : List (IntIn × IntOut)) : Prop where
  one : ∀ e ∈ edges, ¬ (IntAsks false e.1 ∧ IntAsks true e.1)
  wait : ∀ (x y : Bool) (k m : Nat) (e e' : IntIn × IntOut), k < m → edges[k]? = some e → edges[m]? = some e' → IntAsks x e.1 → IntAsks y e'.1 →
    ∃ (j : Nat) (e'' : IntIn × IntOut), k < j ∧ j ≤ m ∧ edges[j]? = some e'' ∧ intSent x e''.2 = true

/-- MSI requests have exactly one bit set. -/
def IntOneHot (edges : List (IntIn × IntOut)) : Prop := ∀ e ∈ edges, IntAsks false e.1 → ∃ b < 32, e.1.msiInt = 2 ^ b

/-- The MSI message that should be sent after a clock edge with this request. -/
def msiAsked (fns : List IntFn) (i : IntIn) : List (Bool × IntMsg) :=
  if i.msiInt ≠ 0 then
    match fns[i.fn]? with
    | some f => [(false, ⟨i.fn, (msiWrite f.msi (Nat.log2 i.msiInt)).1, (msiWrite f.msi (Nat.log2 i.msiInt)).2, i.attr⟩)]
    | none => []
  else []

/-- The MSI-X message that should be sent after a clock edge with this request. -/
def msixAsked (fns : List IntFn) (i : IntIn) : List (Bool × IntMsg) :=
  if i.msixInt ∧ i.fn < fns.length then [(true, ⟨i.fn, i.msixAddr, i.msixData, i.attr⟩)] else []

/-- The messages that should be sent in a history, given the functions at its start: one for each clock edge at which the user asks for an interrupt of a function that exists, according to the registers
at that time. -/
def intExpected (fns : List IntFn) : List IntObs → List (Bool × IntMsg)
  | [] => []
  | .env fns' :: h => intExpected fns' h
  | .edge i _ :: h => msiAsked fns i ++ msixAsked fns i ++ intExpected fns h
  | _ :: h => intExpected fns h

/-! ### Intel -/

/-- What was driven at the clock edges, in order. -/
def appEdges (h : List AppObs) : List (AppIn × Bool) := h.filterMap fun | .edge i a => some (i, a) | _ => none

/-- The messages that were sent, in order. -/
def appMessages (h : List AppObs) : List IntMsg := h.filterMap fun | .msi m => some m | _ => none

/-- What the user drives at the clock edges at which the model acknowledges a request. -/
def appAcked (h : List AppObs) : List AppIn := (appEdges h).filterMap fun e => if e.2 then some e.1 else none

/-- The user follows the protocol: a request stays as it is until the clock edge at which it is acknowledged, and is then taken back for at least one clock cycle. -/
structure AppProtocol (edges : List (AppIn × Bool)) : Prop where
  hold : ∀ (k : Nat) (e e' : AppIn × Bool), edges[k]? = some e → edges[k + 1]? = some e' → e.1.req = true → e.2 = false → e'.1 = e.1
  drop : ∀ (k : Nat) (e e' : AppIn × Bool), edges[k]? = some e → edges[k + 1]? = some e' → e.1.req = true → e.2 = true → e'.1.req = false

/-- The message answers the request: same function, same traffic class. -/
def AppMatches (i : AppIn) (m : IntMsg) : Prop := i.req = true ∧ m.fn = i.fn ∧ m.sel = i.tc

/-- The messages that should be sent: one for each new request, according to the registers at that time; `busy` tells whether there was a request at the clock edge before. -/
def appExpected (fns : List IntFn) (busy : Bool) : List AppObs → List IntMsg
  | [] => []
  | .env fns' :: h => appExpected fns' busy h
  | .edge i _ :: h =>
    (if i.req ∧ busy = false then
      match fns[i.fn]? with
      | some f => [⟨i.fn, (msiWrite f.msi i.num).1, (msiWrite f.msi i.num).2, i.tc⟩]
      | none => []
    else []) ++ appExpected fns i.req h
  | .msi _ :: h => appExpected fns busy h

end Pcie.Spec
