/-
Model of cocotbext/pcie/core/utils.py.
Python ints that are never negative are modelled by `Nat`.
-/
namespace Pcie

/-- Python `a & ~b` for non-negative `a` and `b`. -/
def andNot (a b : Nat) : Nat := a ^^^ (a &&& b)

/-- utils.py:28-32 `align(val, mask)`. -/
def align (val mask : Nat) : Nat :=
  if val &&& mask ≠ 0 then val + mask + 1 - (val &&& mask) else val

/-- utils.py:39-43: the `while mask >= m1` loop of `byte_mask_update`.
The guard `0 < m1` only makes the recursion well founded: the loop starts with `m1 = 1` and doubles it. -/
def byteMaskLoop (mask new : Nat) (old m1 m2 : Nat) : Nat :=
  if _h : 0 < m1 ∧ m1 ≤ mask then
    let old := if mask &&& m1 ≠ 0 then andNot old m2 ||| (new &&& m2) else old
    byteMaskLoop mask new old (m1 <<< 1) (m2 <<< 8)
  else old
termination_by mask + 1 - m1
decreasing_by
  simp only [Nat.shiftLeft_eq]; omega

/-- utils.py:35-44 `byte_mask_update(old, mask, new, bitmask=-1)`.
`bitmask = none` is the default `-1` (all bits writable). -/
def byteMaskUpdate (old mask new : Nat) (bitmask : Option Nat := none) : Nat :=
  let new := match bitmask with
    | none => new
    | some b => (new &&& b) ||| andNot old b
  byteMaskLoop mask new old 1 0xff

/-- utils.py:47-60 `PcieId` (a named tuple; the constructor range check is `PcieId.mk?`). -/
structure PcieId where
  bus : Nat
  device : Nat
  function : Nat
deriving DecidableEq, Repr, Inhabited

namespace PcieId

/-- The range check made by every construction of a `PcieId` (utils.py:52-57). -/
def Valid (p : PcieId) : Prop := p.bus ≤ 255 ∧ p.device ≤ 31 ∧ p.function ≤ 7

instance (p : PcieId) : Decidable p.Valid := by unfold Valid; infer_instance

/-- utils.py:48-59 `PcieId.__new__`; `none` is the `ValueError`. -/
def mk? (bus device function : Nat) : Option PcieId :=
  if bus > 255 then none
  else if device > 31 then none
  else if function > 7 then none
  else some ⟨bus, device, function⟩

/-- utils.py:61-63 `PcieId.from_int` (the masked arguments always pass the range check, `fromInt_eq_mk?`). -/
def fromInt (val : Nat) : PcieId := ⟨(val >>> 8) &&& 0xff, (val >>> 3) &&& 0x1f, val &&& 0x7⟩

/-- utils.py:68-69 `PcieId.__int__`. -/
def toInt (p : PcieId) : Nat :=
  ((p.bus &&& 0xff) <<< 8) ||| ((p.device &&& 0x1f) <<< 3) ||| (p.function &&& 0x7)

/-- utils.py:65-66 `_replace(bus=...)`, which re-runs the range check. -/
def replaceBus? (p : PcieId) (bus : Nat) : Option PcieId := mk? bus p.device p.function

end PcieId
end Pcie
