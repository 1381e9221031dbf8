import Verif.Model.CapSpace
import Verif.Spec.Caps
import Verif.Spec.Config
/- Specification of the registers of capabilities in configuration space. -/
namespace Pcie.Spec
open Pcie

/-- What the host sees in register `k` of a capability whose own registers are `own`: the lower half of the first register has the ID and the pointer to the
next capability. -/
def shown (l : CapList) (c : Nat) (own : Nat → Nat) (k : Nat) : Nat :=
  if k = 0 then own 0 / 2 ^ 16 % 2 ^ 16 * 2 ^ 16 + (l.objs c).next % 2 ^ 8 * 2 ^ 8 + (l.objs c).capId % 2 ^ 8 else own k

/-- The same for an extended capability: the first register has the ID, the version and the pointer. -/
def shownExt (l : CapList) (c : Nat) (own : Nat → Nat) (k : Nat) : Nat :=
  if k = 0 then (l.objs c).next % 2 ^ 12 * 2 ^ 20 + (l.objs c).ver % 2 ^ 4 * 2 ^ 16 + (l.objs c).capId % 2 ^ 16 else own k

/-- Registers as bytes, little endian. -/
def bytesOf (regs : Nat → Nat) : Mem := fun a => UInt8.ofNat (regs (a / 4) / 256 ^ (a % 4))

/-- The function with another content of one capability. -/
def withCap {S} (x : Fn (CapSpace S)) (c : Nat) (v : S) : Fn (CapSpace S) :=
  let put (s : CapSpace S) : CapSpace S := { s with st := fun k => if k = c then v else s.st k }
  match x with
  | .ep f => .ep { f with caps := put f.caps }
  | .br p f => .br p { f with caps := put f.caps }

/-- The function with another content of one extended capability. -/
def withExt {S} (x : Fn (CapSpace S)) (c : Nat) (v : S) : Fn (CapSpace S) :=
  let put (s : CapSpace S) : CapSpace S := { s with stx := fun k => if k = c then v else s.stx k }
  match x with
  | .ep f => .ep { f with caps := put f.caps }
  | .br p f => .br p { f with caps := put f.caps }

/-- The capability is registered, and all its registers are in the range `lo .. hi-1`. -/
structure Lies (l : CapList) (c lo hi : Nat) : Prop where
  mem : c ∈ l.list
  lo : lo ≤ l.off c
  hi : l.off c + l.len c ≤ hi

end Pcie.Spec
