import Verif.Model.DmaSys
import Verif.Spec.UsDma
import Verif.Spec.UsOrder
/-
Specification vocabulary for user logic that reads and writes host memory through the Xilinx hard IP models.
-/
namespace Pcie.Spec
open Pcie

/-- A memory write request. -/
def IsWrite (t : Tlp) : Prop := t.fmtType = some .MEM_WRITE ∨ t.fmtType = some .MEM_WRITE_64

instance (t : Tlp) : Decidable (IsWrite t) := by unfold IsWrite; infer_instance

/-- The requests the host has handled, oldest first. -/
def handledOf (log : List MemAct) : List Tlp := log.filterMap fun | .req t => some t | _ => none

/-- The host's memory takes write request `w` entirely: it has a payload, stays within 4 KiB, lies in the host's regions, and these accept writes. -/
structure Takes (m : AddrSpace) (w : Tlp) : Prop where
  some : 1 ≤ w.length
  payload : w.data.length = 4 * w.length
  page : w.address % 4096 + 4 * w.length ≤ 4096
  covers : m.covers w.address (w.length * 4) = true
  ok : ∀ a n, 0 < n → (∀ b, a ≤ b → b < a + n → byteEnabled w b) → m.writeOk a n = true

/-- The byte at `a` after some actions, given the one before: the last one that was written there. -/
inductive ByteAfter (m0 : Mem) (a : Nat) : List MemAct → UInt8 → Prop
  | start : ByteAfter m0 a [] (m0 a)
  | other (log : List MemAct) (m : Mem) : ByteAfter m0 a (log ++ [.other m]) (m a)
  | write (log : List MemAct) (w : Tlp) (b : UInt8) : IsWrite w → byteEnabled w a → w.data[a - w.address]? = some b → ByteAfter m0 a (log ++ [.req w]) b
  | keep (log : List MemAct) (t : Tlp) (b : UInt8) : ¬ (IsWrite t ∧ byteEnabled t a) → ByteAfter m0 a log b → ByteAfter m0 a (log ++ [.req t]) b

/-- The requests of the user are legal: memory reads have legal byte enables, are dword-aligned and stay within 4 KiB, and non-posted requests carry the ID of a function of the device. -/
def LegalRequests (ids : List PcieId) (ts : List Tlp) : Prop :=
  ∀ t ∈ ts, t.isNonposted = true → t.requester_id ∈ ids ∧ (IsRead t → BeLegal t ∧ t.address % 4 = 0 ∧ t.address % 4096 + 4 * t.length ≤ 4096)

/-- The functions of the device keep their IDs. -/
def KeepsIds (ids : List PcieId) : SysEv → Prop
  | .dev (.cfg _ _ f) => f.map (·.1) = ids
  | _ => True

end Pcie.Spec
