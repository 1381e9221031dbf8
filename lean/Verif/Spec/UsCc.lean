import Verif.Model.UsCc
import Verif.Spec.UsCq
import Verif.Spec.UsDma
/-
Specification vocabulary for accesses by the host to user logic behind the Xilinx hard IP models.
-/
namespace Pcie.Spec
open Pcie

/-- The user fills in completion `w` for request `v` properly: requester, tag, attributes and traffic class of the request, the function number from the request; the model shall supply
the bus number; the completion is not withdrawn. -/
structure Proper (v w : UsTlp) : Prop where
  own : Own v.tlp w.tlp
  completer : w.tlp.completer_id = v.tlp.completer_id
  busByModel : w.completerIdEnable = false
  kept : w.discontinue = false
  at_ : w.tlp.at_ = 0

/-- User logic that answers memory reads of bytes `lo .. lo+len-1` with the bytes of memory `m`, in completions of at most 4 KiB, split in any legal way. -/
def UserReads (m : Mem) (lo len : Nat) (user : UsTlp → List UsTlp) : Prop :=
  ∀ v a l, IsRead v.tlp → 0 < l → lo ≤ a → a + l ≤ lo + len → (∀ b, byteEnabled v.tlp b ↔ a ≤ b ∧ b < a + l) →
    (∃ rcb mps, mps ≤ 4096 ∧ LegalCpls m rcb mps a l ((user v).map (·.tlp))) ∧ ∀ w ∈ user v, Proper v w

/-- User logic that answers I/O reads of bytes `lo .. lo+len-1` with the bytes of memory `m`. -/
def UserIoReads (m : Mem) (lo len : Nat) (user : UsTlp → List UsTlp) : Prop :=
  ∀ v a l, v.tlp.fmtType = some .IO_READ → v.tlp.length = 1 → 0 < l → lo ≤ a → a + l ≤ lo + len → (∀ b, byteEnabled v.tlp b ↔ a ≤ b ∧ b < a + l) →
    ∃ w, user v = [w] ∧ Proper v w ∧ w.tlp.fmtType = some .CPL_DATA ∧ w.tlp.byte_count = 4 ∧ w.tlp.lower_address < 128 ∧ DwordAnswer m v.tlp [w.tlp]

/-- User logic that confirms I/O writes. -/
def UserIoWrites (user : UsTlp → List UsTlp) : Prop :=
  ∀ v, v.tlp.fmtType = some .IO_WRITE →
    ∃ w, user v = [w] ∧ Proper v w ∧ w.tlp.fmtType = some .CPL ∧ w.tlp.status = CplStatus.SC ∧ w.tlp.byte_count = 4 ∧ w.tlp.lower_address < 128 ∧ w.tlp.length = 0 ∧ w.tlp.data = []

/-- Every dword of the bytes `lo .. lo+len-1` is in window `w` of the first function, which has function number 0. -/
structure Behind (d : UsDev) (io : Bool) (wss : List (List Window)) (w : Window) (lo len : Nat) : Prop where
  first : ∃ f fns, d.fns = f :: fns ∧ f.id = ⟨d.bus, 0, 0⟩
  bus : d.bus < 256
  windows : Windows d.fns wss
  idx : w.idx < 8
  low : lo + len ≤ 2 ^ 64
  wide : lo + len ≤ 2 ^ 32 ∨ ∀ ws ∈ wss, ∀ w ∈ ws, w.wide = true
  claimed : ∀ a, lo / 4 * 4 ≤ a → a < lo + len → claimant io a wss = some (0, w)

/-- The address is in no window of any function. -/
structure Unclaimed (fns : List RFn) (io : Bool) (wss : List (List Window)) (addr : Nat) : Prop where
  windows : Windows fns wss
  low : addr < 2 ^ 64
  wide : addr < 2 ^ 32 ∨ ∀ ws ∈ wss, ∀ w ∈ ws, w.wide = true
  nobody : claimant io addr wss = none

end Pcie.Spec
