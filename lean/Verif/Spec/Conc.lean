import Verif.Model.Conc
import Verif.Spec.DmaSys
import Verif.Spec.Tag
/-
Specification vocabulary for tasks that read and write memory at the same time.
-/
namespace Pcie.Spec
open Pcie

variable {σ : Type}

/-- A request of the requester with the ID `rid`, with a tag of eight bits and without processing hints. -/
def From (rid : PcieId) (t : Tlp) : Prop := t.requester_id = rid ∧ t.th = false ∧ t.tag < 256

/-- A completer with memory at the addresses `lo .. hi - 1` for the requester with the ID `rid` (`view` is the memory as seen from the bus, `Good` what is always true of the completer): a legal read request is answered by the
bytes of the memory, a legal write request stores exactly its enabled bytes. -/
structure ServesMem (C : Completer σ) (view : σ → Mem) (Good : σ → Prop) (rid : PcieId) (lo hi : Nat) : Prop where
  read : ∀ s t k first n, Good s → ReadOk k t → ReadsBytes t first n → lo ≤ t.address → t.address + 4 * t.length ≤ hi → From rid t →
    ∃ cpls rcb mps, C.read s t = .ok cpls ∧ LegalCpls (view s) rcb mps first n cpls
  write : ∀ s t k, Good s → WriteOk k t → lo ≤ t.address → t.address + 4 * t.length ≤ hi → From rid t →
    ∃ s', C.write s t = .ok s' ∧ Good s' ∧ EnabledStored (view s) (view s') t t.address

/-- What has happened to the memory. -/
def actsOf (view : σ → Mem) (log : List (ConcAct σ)) : List MemAct := log.map fun | .req _ t => .req t | .other s => .other (view s)

/-- The requests handled, oldest first, each with its operation. -/
def handledReqs (log : List (ConcAct σ)) : List (Option Nat × Tlp) := log.filterMap fun | .req i t => some (i, t) | _ => none

/-- What tasks of the requester `rid` do: operations are legal memory reads of the addresses `lo .. hi - 1`, with at most 256 tags, posted requests are legal memory writes to these addresses, and other changes to
the memory leave the completer in order. -/
def TaskOk (Good : σ → Prop) (rid : PcieId) (lo hi : Nat) : ConcEv σ → Prop
  | .start t n => n ≤ 256 ∧ (∃ k, ReadOk k t) ∧ BeLegal t ∧ lo ≤ t.address ∧ t.address + 4 * t.length ≤ hi ∧ From rid t
  | .post t => (∃ k, WriteOk k t) ∧ lo ≤ t.address ∧ t.address + 4 * t.length ≤ hi ∧ From rid t
  | .other s => Good s
  | _ => True

/-- Region `idx` of a memory endpoint as seen from the bus. -/
def epView (idx base : Nat) (e : MemEp) : Mem := fun a => if base ≤ a then (match e.regions[idx]? with | some (some b) => b.mem (a - base) | _ => 0) else 0

end Pcie.Spec
