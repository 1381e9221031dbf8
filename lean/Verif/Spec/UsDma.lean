import Verif.Model.UsDma
import Verif.Spec.Memory
import Verif.Spec.UsHip
/-
Specification vocabulary for reads by user logic through the Xilinx hard IP models.
-/
namespace Pcie.Spec
open Pcie

/-- A memory read request. -/
def IsRead (r : Tlp) : Prop := r.fmtType = some .MEM_READ ∨ r.fmtType = some .MEM_READ_64

instance (r : Tlp) : Decidable (IsRead r) := by unfold IsRead; infer_instance

/-- Completion `c` is for request `r`. -/
def Own (r c : Tlp) : Prop :=
  c.isCompletion = true ∧ c.requester_id = r.requester_id ∧ c.tag = r.tag ∧ c.attr = r.attr ∧ c.tc = r.tc

/-- The bytes of memory read request `r`, from the first to the last enabled one, are `n` bytes from `first` on. -/
def ReadsBytes (r : Tlp) (first n : Nat) : Prop :=
  IsRead r ∧ BeLegal r ∧ ∃ last, FirstEnabled r first ∧ LastEnabled r last ∧ n = last - first + 1

/-- Request `r` is answered by the completions `ans`: by one completion, if it reports an error or the request is not a memory read; otherwise by a legal sequence of completions with
the data out of some memory. -/
inductive Answers (r : Tlp) : List Tlp → Prop
  | single (c : Tlp) : Own r c → c.status ≠ CplStatus.SC ∨ ¬ IsRead r → Answers r [c]
  | read (m : Mem) (rcb mps first n : Nat) (ans : List Tlp) :
      ReadsBytes r first n → LegalCpls m rcb mps first n ans → (∀ c ∈ ans, Own r c ∧ c.ep = false) → Answers r ans

/-- What the user sees of a successful read of `n` bytes of memory `m` from `addr` on: completions without error, each with twelve bits of the address of its first byte, the number of bytes
still to come, and the dwords of the memory; the last one, which has all the bytes that are still to come, and no other is marked as completing the request. -/
inductive ReadSeen (m : Mem) : Nat → Nat → List UsTlp → Prop
  | last (addr n : Nat) (u : UsTlp) :
      0 < n → u.errorCode = 0 → u.requestCompleted = true → u.tlp.lower_address = addr % 4096 → u.tlp.byte_count = n →
      u.tlp.length = (addr % 4 + n + 3) / 4 → Holds m (addr / 4 * 4) (4 * u.tlp.length) u.tlp.data → ReadSeen m addr n [u]
  | more (addr n : Nat) (u : UsTlp) (rest : List UsTlp) :
      u.errorCode = 0 → u.requestCompleted = false → u.tlp.lower_address = addr % 4096 → u.tlp.byte_count = n →
      0 < u.tlp.length → 4 * u.tlp.length < addr % 4 + n → Holds m (addr / 4 * 4) (4 * u.tlp.length) u.tlp.data →
      ReadSeen m (addr / 4 * 4 + 4 * u.tlp.length) (addr % 4 + n - 4 * u.tlp.length) rest → ReadSeen m addr n (u :: rest)

/-- What the user sees of any other answer: the completion, marked as completing the request, with error code 2 for an unsuccessful status and 1 for poisoned data. -/
def SingleSeen (c : Tlp) (us : List UsTlp) : Prop :=
  ∃ u, us = [u] ∧ u.tlp = c.copy ∧ u.requestCompleted = true ∧ u.errorCode = if c.status ≠ CplStatus.SC then 2 else if c.ep then 1 else 0

/-- The user sees answer `ans` to request `r` as `us`. -/
structure Seen (r : Tlp) (ans : List Tlp) (us : List UsTlp) : Prop where
  length : us.length = ans.length
  tag : ∀ u ∈ us, u.tlp.tag = r.tag
  single : ∀ c, ans = [c] → c.status ≠ CplStatus.SC ∨ ¬ IsRead r → SingleSeen c us
  read : ∀ m rcb mps first n, ReadsBytes r first n → LegalCpls m rcb mps first n ans → (∀ c ∈ ans, c.ep = false) → ReadSeen m first n us

/-- The bytes a user takes from a completion of a read: from the byte named by the address, as many as are still to come and present. -/
def rcBytes (u : UsTlp) : List UInt8 := (u.tlp.data.drop (u.tlp.lower_address % 4)).take u.tlp.byte_count

/-- The completions dropped for lack of space so far. -/
def lostOf (h : List HipObs) : List UsTlp := h.filterMap fun | .lost u => some u | _ => none

/-- The functions of the device keep their IDs. -/
def SameIds (ids : List PcieId) : DmaEv → Prop
  | .dev (.cfg _ _ f) _ => f.map (·.1) = ids
  | _ => True

/-- Requests carry the ID of a function of the device and are properly answered. -/
def Served (ids : List PcieId) (reqs : List DmaReq) : Prop := ∀ q ∈ reqs, q.req.requester_id ∈ ids ∧ Answers q.req q.ans

end Pcie.Spec
