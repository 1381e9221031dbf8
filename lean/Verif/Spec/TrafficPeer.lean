import Verif.Spec.Traffic
/-
Two endpoints behind one switch that read from each other.

Component 1 is the switch, components 2 and 3 are the endpoints A and B: A sends on link 4 and receives on link 5, B sends on link 6 and receives on link 7.
-/
namespace Pcie.Spec
open Pcie

/-- A reads 4096 bytes from B, and B reads 4096 bytes from A. -/
def readA : TPkt := { id := 0, cls := .NP, dc := 0, route := [downLink 3] }
def readB : TPkt := { id := 1, cls := .NP, dc := 0, route := [downLink 2] }

/-- A completion with 128 bytes from B to A, and one from A to B. -/
def cplB : TPkt := { id := 2, cls := .CPL, dc := 8, route := [downLink 2] }
def cplA : TPkt := { id := 3, cls := .CPL, dc := 8, route := [downLink 3] }

/-- The credits of the code: 64 headers of each kind, 1024, 64 and 1024 data credits (bridge.py:475, 499), but infinite credits for completions in an endpoint (device.py:47), and none needed within the
root complex. A read of 4096 bytes is answered with 32 completions. -/
def peerNet : TNet where
  hdr m c := if m < 2 then 0 else if c = .CPL ∧ (m = downLink 2 ∨ m = downLink 3) then 0 else 64
  data m c := if m < 2 then 0 else if c = .CPL ∧ (m = downLink 2 ∨ m = downLink 3) then 0 else if c = .NP then 64 else 1024
  back m := if m % 2 = 0 then m + 1 else m - 1
  answer x := if x = 0 then List.replicate 32 cplB else if x = 1 then List.replicate 32 cplA else []

/-- The switch is connected to the root complex, the endpoints to the switch. -/
def peerParent (i : Nat) : Nat := if i = 1 then 0 else if i = 2 ∨ i = 3 then 1 else 0

/-! Two endpoints behind two switches that write to each other, while the root complex reads from both.

Components 1 and 2 are the switches, component 3 is endpoint A behind switch 1, component 4 is endpoint B behind switch 2. -/

/-- A writes 128 bytes to B, and B writes 128 bytes to A, through the root complex. -/
def writeA : TPkt := { id := 0, cls := .P, dc := 8, route := [upLink 1, downLink 2, downLink 4] }
def writeB : TPkt := { id := 1, cls := .P, dc := 8, route := [upLink 2, downLink 1, downLink 3] }

/-- The root complex reads 4096 bytes from A, and from B. -/
def hostReadA : TPkt := { id := 2, cls := .NP, dc := 0, route := [downLink 1, downLink 3] }
def hostReadB : TPkt := { id := 3, cls := .NP, dc := 0, route := [downLink 2, downLink 4] }

/-- A completion with 128 bytes from A, and one from B, to the root complex. -/
def hostCplA : TPkt := { id := 4, cls := .CPL, dc := 8, route := [upLink 1, upLink 0] }
def hostCplB : TPkt := { id := 5, cls := .CPL, dc := 8, route := [upLink 2, upLink 0] }

/-- The credits of the code, as in `peerNet`. -/
def crossNet : TNet where
  hdr m c := if m < 2 then 0 else if c = .CPL ∧ (m = downLink 3 ∨ m = downLink 4) then 0 else 64
  data m c := if m < 2 then 0 else if c = .CPL ∧ (m = downLink 3 ∨ m = downLink 4) then 0 else if c = .NP then 64 else 1024
  back m := if m % 2 = 0 then m + 1 else m - 1
  answer x := if x = 2 then List.replicate 32 hostCplA else if x = 3 then List.replicate 32 hostCplB else []

/-- The switches are connected to the root complex, each endpoint to its switch. -/
def crossParent (i : Nat) : Nat := if i = 3 then 1 else if i = 4 then 2 else 0

end Pcie.Spec
