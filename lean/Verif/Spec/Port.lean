/-
Specification vocabulary for links: credit accounting, sequence numbers and the TLP as the receiver sees it.
-/
import Verif.Model.Port
namespace Pcie.Spec
open Pcie

/-- One of the six kinds of credit: posted, non-posted or completion; header (`false`) or data (`true`). -/
abbrev Credit := FcType × Bool

/-- What a TLP of flow-control type `ty` with `dc` data credits uses of credit `w`. -/
def costOf (w : Credit) (ty : FcType) (dc : Nat) : Nat := if ty = w.1 then (if w.2 then dc else 1) else 0

/-- What a TLP uses of credit `w`: one header credit, or one data credit per started 16 bytes. -/
def cost (w : Credit) (t : Tlp) : Nat :=
  match t.fcType with
  | some ty => costOf w ty t.dataCredits
  | none => 0

/-- The credits `w` used by a list of TLPs. -/
def units (w : Credit) (l : List Tlp) : Nat := (l.map (cost w)).sum

/-- The credits `w` of received TLPs that have not been released. -/
def held (w : Credit) (d : List (Nat × FcType × Nat)) : Nat := (d.map fun e => costOf w e.2.1 e.2.2).sum

/-- The counters of credit `w`. -/
def counters (c : FcCh) (w : Credit) : FcState :=
  match w with
  | (.P, false) => c.ph
  | (.P, true) => c.pd
  | (.NP, false) => c.nph
  | (.NP, true) => c.npd
  | (.CPL, false) => c.cplh
  | (.CPL, true) => c.cpld

/-- The time at which the next update for a credit type is due (0: at once). -/
def nextUpdate (c : FcCh) : FcType → Nat
  | .P => c.nextP
  | .NP => c.nextNp
  | .CPL => c.nextCpl

/-- The TLPs in a list of packets. -/
def tlps (l : List Pkt) : List Tlp := l.filterMap fun | .tlp t => some t | .dllp _ => none

/-- The DLLPs in a list of packets. -/
def dllps (l : List Pkt) : List Dllp := l.filterMap fun | .dllp d => some d | .tlp _ => none

/-- The `UpdateFC` type of a credit type. -/
def updType : FcType → Nat
  | .P => Dllp.UPDATE_FC_P
  | .NP => Dllp.UPDATE_FC_NP
  | .CPL => Dllp.UPDATE_FC_CPL
/-- The `InitFC1` type of a credit type. -/
def init1Type : FcType → Nat
  | .P => Dllp.INIT_FC1_P
  | .NP => Dllp.INIT_FC1_NP
  | .CPL => Dllp.INIT_FC1_CPL
/-- The `InitFC2` type of a credit type. -/
def init2Type : FcType → Nat
  | .P => Dllp.INIT_FC2_P
  | .NP => Dllp.INIT_FC2_NP
  | .CPL => Dllp.INIT_FC2_CPL

/-- A port after reset that advertises the given credits. -/
def freshPort (ph pd nph npd cplh cpld : Nat) (p : Port) : Prop :=
  ∃ fc, FcCh.new ph pd nph npd cplh cpld = .ok fc ∧ p = { fc := fc }

/-- A link after reset: two ports with any valid credit advertisements, nothing on the way. -/
def Fresh (l : Link) : Prop :=
  l.ab = [] ∧ l.ba = [] ∧ (∃ a b c d e f, freshPort a b c d e f l.a) ∧ (∃ a b c d e f, freshPort a b c d e f l.b)

/-- `l` results from a fresh link by some history. -/
def Reach (steps : Nat) (l : Link) : Prop := ∃ l0 es, Fresh l0 ∧ Link.run steps l0 es = .ok l

/-- As `Reach`, with at most 2048 transmitted TLPs unacknowledged at any time, on either side. -/
def ReachBounded (steps : Nat) (l : Link) : Prop :=
  ∃ l0 es, Fresh l0 ∧ Link.run steps l0 es = .ok l ∧
    ∀ n l', Link.run steps l0 (es.take n) = .ok l' → l'.a.retry.length ≤ 2048 ∧ l'.b.retry.length ≤ 2048

/-- The TLP as sent, with the sequence number cleared and without the `th` bit (which no copy keeps, see C05). -/
def content (t : Tlp) : Tlp := { t.copy with seq := 0 }

/-- The TLPs numbered from 0 modulo 4096. -/
def numbered (l : List Tlp) : List Tlp := l.mapIdx fun i t => { t with seq := i % 4096 }

end Pcie.Spec
