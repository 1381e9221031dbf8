/-
Base address registers (function.py:332-395, endpoint.py:136-154 and 184-208).
-/
import Verif.Model.Utils
import Verif.Model.Tlp
namespace Pcie

/-- The `bar` and `bar_mask` lists of a function (function.py:100-101, endpoint.py:40-41), paired up. -/
structure BarReg where
  val : Nat := 0
  mask : Nat := 0
deriving DecidableEq, Repr, Inhabited

/-- `int.bit_length()` of a non-negative Python integer (`(-1).bit_length()` is 1, needed for size 0, is handled by
the caller). -/
def bitLength (n : Nat) : Nat := if n = 0 then 0 else Nat.log2 n + 1

/-- function.py:333: `2**((size-1).bit_length())-1`; for `size = 0`, Python's `(-1).bit_length()` is 1. -/
def barSizeMask (size : Nat) : Nat := 2 ^ (if size = 0 then 1 else bitLength (size - 1)) - 1

/-- function.py:332-351 `configure_bar`. `~mask >> 32` is Python's arithmetic shift of a negative number:
`0xffffffff & (~mask >> 32)` is `0xffffffff & ~(mask >> 32)`. -/
def configureBar (bars : List BarReg) (idx size : Nat) (ext prefetch io : Bool) : Py (List BarReg) :=
  let mask := barSizeMask size
  if idx ≥ bars.length ∨ (ext ∧ idx + 1 ≥ bars.length) then .error "BAR index out of range"
  else if io then .ok (bars.set idx ⟨1, andNot 0xfffffffc mask⟩)
  else
    let v := (if ext then 4 else 0) ||| (if prefetch then 8 else 0)
    let bars := bars.set idx ⟨v, andNot 0xfffffff0 mask⟩
    if ext then .ok (bars.set (idx + 1) ⟨0, andNot 0xffffffff (mask >>> 32)⟩) else .ok bars

/-- function.py:356-392 `match_bar`: the loop from register `idx` on; the result is `(bar, offset)`. -/
def matchBarFrom (io : Bool) (addr : Nat) : Nat → List BarReg → Py (Option (Nat × Nat))
  | _, [] => .ok none
  | idx, b :: rest =>
    if b.mask = 0 then matchBarFrom io addr (idx + 1) rest
    else if b.val &&& 1 ≠ 0 then
      if io ∧ (addr ^^^ b.val) &&& b.mask = 0 then .ok (some (idx, andNot addr b.mask))
      else matchBarFrom io addr (idx + 1) rest
    else if b.val &&& 4 ≠ 0 then
      match rest with
      | [] => .error "Final BAR marked as 64 bit, but no extension BAR available"
      | b2 :: rest =>
        let val := b.val ||| b2.val <<< 32
        let mask := b.mask ||| b2.mask <<< 32
        if ¬ io ∧ (addr ^^^ val) &&& mask = 0 then .ok (some (idx, andNot addr mask))
        else matchBarFrom io addr (idx + 2) rest
    else if ¬ io ∧ (addr ^^^ b.val) &&& b.mask = 0 then .ok (some (idx, andNot addr b.mask))
    else matchBarFrom io addr (idx + 1) rest

/-- function.py:356-392 `match_bar`, `match_io_bar`. -/
def matchBar (bars : List BarReg) (addr : Nat) (io : Bool := false) : Py (Option (Nat × Nat)) :=
  matchBarFrom io addr 0 bars

/-- endpoint.py:137-154 (and bridge.py for type 1 headers): a configuration write to BAR register `idx`. -/
def writeBar (bars : List BarReg) (idx data be : Nat) : List BarReg :=
  match bars[idx]? with
  | none => bars
  | some b => bars.set idx { b with val := byteMaskUpdate b.val be data (some b.mask) }

/-- endpoint.py:87-104: a configuration read of BAR register `idx`. -/
def readBar (bars : List BarReg) (idx : Nat) : Nat := (bars.getD idx {}).val &&& 0xffffffff

end Pcie
