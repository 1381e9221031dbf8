import Mathlib.Data.List.Forall2
import Verif.Model.UsCq
import Verif.Spec.Bar
import Verif.Spec.UsTlp
/-
Specification vocabulary for the completer side of the Xilinx hard IP models.
-/
namespace Pcie.Spec
open Pcie

/-- The requests for the user that have arrived, in order. -/
def cqArrived (h : List CqObs) : List UsTlp := h.filterMap fun | .arrived u => some u | _ => none

/-- The requests handed to the user, in order. -/
def cqSent (h : List CqObs) : List UsTlp := h.filterMap fun | .sent u _ => some u | _ => none

/-- The frames handed to the user, in order. -/
def cqFrames (h : List CqObs) : List UsFrame := h.filterMap fun | .sent _ f => some f | _ => none

/-- How often the user has asked for a non-posted request: clock edges with `pcie_cq_np_req` high. -/
def cqGrants (h : List CqObs) : Nat := h.count .granted

/-- The non-posted requests among these. -/
def nonposted (us : List UsTlp) : List UsTlp := us.filter fun u => u.tlp.isNonposted

/-- The posted requests among these. -/
def posted (us : List UsTlp) : List UsTlp := us.filter fun u => !u.tlp.isNonposted

/-- The functions' registers stand for these windows, function by function; no window has 4 GiB or more (see C28). -/
def Windows (fns : List RFn) (wss : List (List Window)) : Prop :=
  List.Forall₂ (fun f ws => Layout 0 f.bars ws ∧ ∀ w ∈ ws, w.k < 32) fns wss

/-- The position of the first function with a window that contains the address, and the window. -/
def claimant (io : Bool) (addr : Nat) : List (List Window) → Option (Nat × Window)
  | [] => none
  | ws :: rest =>
    match ws.find? fun w => w.io == io && w.contains addr with
    | some w => some (0, w)
    | none => (claimant io addr rest).map fun x => (x.1 + 1, x.2)

/-- The types of requests with an address that the model supports: I/O (`io`) and memory. -/
def AddressedBy (io : Bool) (ty : TlpType) : Prop :=
  if io then ty = .IO_READ ∨ ty = .IO_WRITE else ty = .MEM_READ ∨ ty = .MEM_READ_64 ∨ ty = .MEM_WRITE ∨ ty = .MEM_WRITE_64

end Pcie.Spec
