import Verif.Model.IntelHost
import Verif.Spec.IntelDev
import Verif.Spec.UsDma
/-
Specification vocabulary for accesses by the host to user logic behind the Intel hard IP models. `F` are the frames, `carries f t bar fn` says that frame `f` carries TLP `t` with these
sideband values, `enc` makes frames for the user.
-/
namespace Pcie.Spec
open Pcie
variable {F : Type}

/-- A completion the user fills in properly for request `t`: requester, tag, attributes and traffic class of the request, a valid completer ID, and nothing in fields that completions
do not have. -/
structure GoodCpl (t c : Tlp) : Prop where
  own : Own t c
  completer : c.completer_id.Valid
  noAt : c.at_ = 0
  rest : c.seq = 0 ∧ c.first_be = 0 ∧ c.last_be = 0 ∧ c.address = 0 ∧ c.ph = 0

/-- User logic that answers (well-formed) memory reads of bytes `lo .. lo+len-1` for register `bar` with the bytes of memory `m`, in completions of at most 4 KiB, split in any legal way. -/
def FrameReads (carries : F → Tlp → Nat → Nat → Prop) (enc : Tlp → Py F) (m : Mem) (lo len bar : Nat) (user : F → List F) : Prop :=
  ∀ f t fn a l, carries f t bar fn → (∃ ty, Encodable ty t) → IsRead t → 0 < l → lo ≤ a → a + l ≤ lo + len → (∀ b, byteEnabled t b ↔ a ≤ b ∧ b < a + l) →
    ∃ rcb mps cs, mps ≤ 4096 ∧ LegalCpls m rcb mps a l cs ∧ (∀ c ∈ cs, GoodCpl t c) ∧ cs.map enc = (user f).map .ok

/-- User logic that answers (well-formed) I/O reads of bytes `lo .. lo+len-1` with the bytes of memory `m`. -/
def FrameIoReads (carries : F → Tlp → Nat → Nat → Prop) (enc : Tlp → Py F) (m : Mem) (lo len : Nat) (user : F → List F) : Prop :=
  ∀ f t fn a l, carries f t 6 fn → (∃ ty, Encodable ty t) → t.fmtType = some .IO_READ → t.length = 1 → 0 < l → lo ≤ a → a + l ≤ lo + len → (∀ b, byteEnabled t b ↔ a ≤ b ∧ b < a + l) →
    ∃ c, c.fmtType = some .CPL_DATA ∧ c.byte_count = 4 ∧ c.lower_address < 128 ∧ DwordAnswer m t [c] ∧ GoodCpl t c ∧ [enc c] = (user f).map .ok

/-- User logic that confirms (well-formed) I/O writes. -/
def FrameIoWrites (carries : F → Tlp → Nat → Nat → Prop) (enc : Tlp → Py F) (user : F → List F) : Prop :=
  ∀ f t fn, carries f t 6 fn → (∃ ty, Encodable ty t) → t.fmtType = some .IO_WRITE →
    ∃ c, c.fmtType = some .CPL ∧ c.status = CplStatus.SC ∧ c.byte_count = 4 ∧ c.lower_address < 128 ∧ c.length = 0 ∧ c.data = [] ∧ GoodCpl t c ∧ [enc c] = (user f).map .ok

/-- Every dword of the bytes `lo .. lo+len-1` is in window `w` of one of the functions. -/
structure InWindow (fns : List RFn) (io : Bool) (wss : List (List Window)) (w : Window) (lo len : Nat) : Prop where
  windows : Windows fns wss
  low : lo + len ≤ 2 ^ 64
  wide : lo + len ≤ 2 ^ 32 ∨ ∀ ws ∈ wss, ∀ w ∈ ws, w.wide = true
  claimed : ∀ a, lo / 4 * 4 ≤ a → a < lo + len → ∃ k, claimant io a wss = some (k, w)

/-- The frames offered to the user carry these TLPs, in order, with number `bar` for the register. -/
def Offered (carries : F → Tlp → Nat → Nat → Prop) (bar : Nat) (ts : List Tlp) (fs : List F) : Prop :=
  List.Forall₂ (fun t f => ∃ fn, carries f t bar fn) ts fs

end Pcie.Spec
