/-
Specification: which byte addresses a request TLP touches (PCI Express base specification, 2.2.5).
-/
import Verif.Model.Tlp
namespace Pcie.Spec
open Pcie

/-- Byte address `a` is enabled by the request: it lies in one of the `length` dwords from `address`, and the
byte-enable bit of its lane is set (first dword: `first_be`; last dword of a longer request: `last_be`;
dwords in between: all lanes). -/
def byteEnabled (t : Tlp) (a : Nat) : Prop :=
  t.address ≤ a ∧
  let dword := (a - t.address) / 4
  let lane := (a - t.address) % 4
  dword < t.length ∧
  (if dword = 0 then t.first_be.testBit lane = true
   else if dword = t.length - 1 then t.last_be.testBit lane = true
   else True)

instance (t : Tlp) (a : Nat) : Decidable (byteEnabled t a) := by unfold byteEnabled; infer_instance

/-- `a` is the lowest enabled byte address. -/
def FirstEnabled (t : Tlp) (a : Nat) : Prop := byteEnabled t a ∧ ∀ b, byteEnabled t b → a ≤ b

end Pcie.Spec

namespace Pcie.Spec
open Pcie

/-- `a` is the highest enabled byte address. -/
def LastEnabled (t : Tlp) (a : Nat) : Prop := byteEnabled t a ∧ ∀ b, byteEnabled t b → b ≤ a

/-- The byte-enable rules for a request that enables at least one byte (base specification 2.2.5): `first_be` is not
zero, and neither is `last_be` of a request of more than one dword. -/
def BeLegal (t : Tlp) : Prop := 1 ≤ t.length ∧ t.first_be % 16 ≠ 0 ∧ (t.length ≠ 1 → t.last_be % 16 ≠ 0)

end Pcie.Spec
