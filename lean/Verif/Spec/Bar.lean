/-
Specification: what address windows a function's base address registers stand for
(PCI local bus specification 6.2.5.1).
-/
import Verif.Model.Bar
namespace Pcie.Spec
open Pcie

/-- An address window of `2^k` addresses starting at `base`, decoded by BAR number `idx`. -/
structure Window where
  idx : Nat
  io : Bool
  wide : Bool
  base : Nat
  k : Nat
deriving DecidableEq, Repr

/-- The address lies in the window. -/
def Window.contains (w : Window) (addr : Nat) : Bool := w.base ≤ addr ∧ addr < w.base + 2 ^ w.k

/-- The register is a 32-bit memory BAR of `2^k` bytes at `base`: the low four bits are type bits (bit 3:
prefetchable), the address bits above the size are writable. -/
def IsMem32 (r : BarReg) (base k : Nat) : Prop :=
  4 ≤ k ∧ k < 32 ∧ base % 2 ^ k = 0 ∧ base < 2 ^ 32 ∧ (r.val = base ∨ r.val = base + 8) ∧ r.mask = 2 ^ 32 - 2 ^ k

/-- The register is an I/O BAR. -/
def IsIo (r : BarReg) (base k : Nat) : Prop :=
  2 ≤ k ∧ k < 32 ∧ base % 2 ^ k = 0 ∧ base < 2 ^ 32 ∧ r.val = base + 1 ∧ r.mask = 2 ^ 32 - 2 ^ k

/-- The two registers are a 64-bit memory BAR of `2^k` bytes at `base`. -/
def IsMem64 (lo hi : BarReg) (base k : Nat) : Prop :=
  4 ≤ k ∧ k < 64 ∧ base % 2 ^ k = 0 ∧ base < 2 ^ 64 ∧
  (lo.val = base % 2 ^ 32 + 4 ∨ lo.val = base % 2 ^ 32 + 12) ∧ hi.val = base / 2 ^ 32 ∧
  lo.mask = (2 ^ 64 - 2 ^ k) % 2 ^ 32 ∧ hi.mask = (2 ^ 64 - 2 ^ k) / 2 ^ 32

instance (r : BarReg) (b k : Nat) : Decidable (IsMem32 r b k) := by unfold IsMem32; infer_instance
instance (r : BarReg) (b k : Nat) : Decidable (IsIo r b k) := by unfold IsIo; infer_instance
instance (l h : BarReg) (b k : Nat) : Decidable (IsMem64 l h b k) := by unfold IsMem64; infer_instance

/-- The registers from number `i` on stand for this list of windows, in order. -/
inductive Layout : Nat → List BarReg → List Window → Prop
  | nil (i : Nat) : Layout i [] []
  | absent (i : Nat) (r : BarReg) (rs : List BarReg) (ws : List Window) :
      r = {} → Layout (i + 1) rs ws → Layout i (r :: rs) ws
  | mem32 (i : Nat) (r : BarReg) (rs : List BarReg) (ws : List Window) (base k : Nat) :
      IsMem32 r base k → Layout (i + 1) rs ws → Layout i (r :: rs) (⟨i, false, false, base, k⟩ :: ws)
  | io (i : Nat) (r : BarReg) (rs : List BarReg) (ws : List Window) (base k : Nat) :
      IsIo r base k → Layout (i + 1) rs ws → Layout i (r :: rs) (⟨i, true, false, base, k⟩ :: ws)
  | mem64 (i : Nat) (lo hi : BarReg) (rs : List BarReg) (ws : List Window) (base k : Nat) :
      IsMem64 lo hi base k → Layout (i + 2) rs ws → Layout i (lo :: hi :: rs) (⟨i, false, true, base, k⟩ :: ws)

/-- No window uses register `idx`. -/
def Unused (ws : List Window) (idx : Nat) : Prop := ∀ v ∈ ws, v.idx ≠ idx ∧ (v.wide = true → v.idx + 1 ≠ idx)

/-- The size exponent a BAR of `size` bytes gets: the least power of two that is at least `size` and `2^lo`. -/
def SizeExp (size lo k : Nat) : Prop := size ≤ 2 ^ k ∧ lo ≤ k ∧ ∀ j, lo ≤ j → size ≤ 2 ^ j → k ≤ j

end Pcie.Spec
