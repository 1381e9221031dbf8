import Verif.Model.IntelDma
import Verif.Spec.IntelDev
import Verif.Spec.UsDma
/-
Specification vocabulary for reads by user logic through the Intel hard IP models. `F` are the frames, `conv` is how the user reads one as a TLP, `mk` how the model makes one.
-/
namespace Pcie.Spec
open Pcie
variable {F : Type}

/-- The TLP as its header has it: the byte count of a completion has twelve bits, and 0 stands for 4096 (the library leaves the byte count of completions that report an error at 0). -/
def asRead (t : Tlp) : Tlp := if t.isCompletion = true ∧ t.byte_count = 0 then { t with byte_count := 4096 } else t

/-- A TLP that can be sent over the link: valid fields, and whole dwords of data. -/
def OnWire (t : Tlp) : Prop := ∃ ty, Encodable ty (asRead t) ∧ t.data.length % 4 = 0

/-- The frames for the user: those handed over, and those still waiting, in order. -/
def forUser (s : IntelDma F) : List F := rxSent s.hist ++ (s.dev.sending.toList ++ s.dev.queue).map Prod.snd

/-- The completions waiting in the device. -/
def waitingCpls (s : IntelDma F) : List Tlp := ((s.dev.sending.toList ++ s.dev.queue).map Prod.fst).filter Tlp.isCompletion

/-- The completions still to come. -/
def toCome (s : IntelDma F) : List Tlp := s.reqs.flatMap fun q => q.ans.drop q.done

/-- These completions fit into the completion buffer of the device together. -/
def FitIn (p : RxLimits) (cs : List Tlp) : Prop := cs.length ≤ p.cplh ∧ (cs.map Tlp.dataCredits).sum ≤ p.cpld

/-- TLP `c` has the requester ID and the tag of request `r`. -/
def SameTag (r c : Tlp) : Prop := c.requester_id = r.requester_id ∧ c.tag = r.tag

instance (r c : Tlp) : Decidable (SameTag r c) := by unfold SameTag; infer_instance

/-- The user may send non-posted request `t`, which is answered with `ans`: it carries the ID of a function of the device, no completion is outstanding for its tag, and there is room for
all the completions of the answer besides those waiting and those still to come. The answer is proper. -/
structure MayAsk (p : RxLimits) (ids : List PcieId) (s : IntelDma F) (t : Tlp) (ans : List Tlp) : Prop where
  id : t.requester_id ∈ ids
  tag : ∀ q ∈ s.reqs, SameTag q.req t → q.done = q.ans.length
  room : FitIn p (waitingCpls s ++ toCome s ++ ans)
  answer : Answers t ans
  wire : ∀ c ∈ ans, OnWire c

/-- Event `e` is in order in state `s`: the user asks only for what it may ask for, and all TLPs from the link are well-formed; completions arrive only as answers. -/
def InOrder (conv : F → Py Tlp) (p : RxLimits) (ids : List PcieId) (s : IntelDma F) : IntelDmaEv F → Prop
  | .tx f ans => ∀ t, conv f = .ok t → t.isNonposted = true → MayAsk p ids s t ans
  | .dev (.recv t) => OnWire t ∧ t.isCompletion = false
  | _ => True

/-- The history is in order, and the functions of the device keep the IDs `ids`. -/
def CarefulRun (mk : Tlp → Nat → Nat → Py F) (conv : F → Py Tlp) (p : RxLimits) (ids : List PcieId) (s : IntelDma F) : List (IntelDmaEv F) → Prop
  | [] => s.dev.dev.fns.map (·.id) = ids
  | e :: es => s.dev.dev.fns.map (·.id) = ids ∧ InOrder conv p ids s e ∧ ∀ s', s.step mk conv p e = some (.ok s') → CarefulRun mk conv p ids s' es

/-- The bytes a user takes from a completion of a read: from the byte named by the low bits of the address, as many as are still to come and present. -/
def cplBytes (c : Tlp) : List UInt8 := (c.data.drop (c.lower_address % 4)).take c.byte_count

end Pcie.Spec
