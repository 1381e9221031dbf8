/-
Specification: which configuration register bits are writable (PCI local bus specification chapter 6, PCI-to-PCI
bridge specification chapter 3).
-/
import Verif.Model.Config
import Verif.Model.Mem
namespace Pcie.Spec

/-- The effect of a byte-masked write on a register, bit by bit: in the enabled bytes a read-write bit takes the value
written and a write-one-to-clear bit is cleared when a one is written; every other bit keeps its value. -/
def Written (rw w1c : Nat → Bool) (old new data mask : Nat) : Prop :=
  ∀ i, new.testBit i =
    if mask.testBit (i / 8) then
      if rw i then data.testBit i else if w1c i then old.testBit i && !data.testBit i else old.testBit i
    else old.testBit i

/-- Command register: I/O space, memory space, bus master, parity error response, SERR enable, interrupt disable. -/
def cmdRw (i : Nat) : Bool := i ∈ [0, 1, 2, 6, 8, 10]

/-- Status register: master data parity error, target/master abort bits, system error, parity error. -/
def statusW1c (i : Nat) : Bool := i ∈ [24, 27, 28, 29, 30, 31]

/-- Bits with no write-one-to-clear behaviour. -/
def noBits (_ : Nat) : Bool := false

/-- The read-write bits of an endpoint's header: `barMask n` gives BAR `n`'s address bits, `romMask` those of the
expansion ROM register (bit 0 is the ROM enable). -/
def epRw (barMask : Nat → Nat) (romMask reg i : Nat) : Bool :=
  match reg with
  | 1 => cmdRw i
  | 3 => i < 8 || i == 30          -- cache line size; start BIST
  | 4 | 5 | 6 | 7 | 8 | 9 => (barMask (reg - 4)).testBit i
  | 12 => i == 0 || (11 ≤ i && i < 32 && romMask.testBit i)
  | 15 => i < 8                    -- interrupt line
  | _ => false

def epW1c (reg i : Nat) : Bool := reg == 1 && statusW1c i

/-- The read-write bits of a bridge's header. -/
def brRw (barMask : Nat → Nat) (romMask reg i : Nat) : Bool :=
  match reg with
  | 1 => cmdRw i
  | 3 => i < 8 || i == 30
  | 4 | 5 => (barMask (reg - 4)).testBit i
  | 6 => i < 24                              -- primary, secondary, subordinate bus number
  | 7 => (4 ≤ i && i < 8) || (12 ≤ i && i < 16)   -- I/O base, I/O limit
  | 8 | 9 => (4 ≤ i && i < 16) || (20 ≤ i && i < 32)  -- memory base, limit
  | 10 | 11 | 12 => i < 32                   -- upper halves
  | 14 => i == 0 || (11 ≤ i && i < 32 && romMask.testBit i)
  | 15 => i < 8 || i ∈ [16, 17, 22]          -- interrupt line; bridge control
  | _ => false

def brW1c (reg i : Nat) : Bool := (reg == 1 || reg == 7) && statusW1c i

/-- Configuration space as bytes: byte `a` is byte `a % 4` (little endian) of register `a / 4`. -/
def cfgBytes {σ} (ops : CapOps σ) (s : σ) : Mem := fun a => UInt8.ofNat (ops.read s (a / 4) / 256 ^ (a % 4))

/-- Register file `s'` is `s` after writing `data` at configuration byte address `addr`: a bit of a byte in
`addr .. addr+len(data)-1` takes the corresponding bit of `data` if it is read-write, is cleared by a one if it is
write-one-to-clear, and every other bit of every register is unchanged. -/
def CfgWritten {σ} (ops : CapOps σ) (rw w1c : Nat → Nat → Bool) (s s' : σ) (addr : Nat) (data : List UInt8) : Prop :=
  ∀ reg i, i < 32 → (ops.read s' reg).testBit i =
    match (if addr ≤ 4 * reg + i / 8 then data[4 * reg + i / 8 - addr]? else none) with
    | some byte =>
      if rw reg i then byte.toNat.testBit (i % 8)
      else if w1c reg i then (ops.read s reg).testBit i && !byte.toNat.testBit (i % 8)
      else (ops.read s reg).testBit i
    | none => (ops.read s reg).testBit i

/-- The registers `regs` behave as `rw` and `w1c` say, one register at a time, in all states satisfying `I`. -/
structure Regs {σ} (ops : CapOps σ) (I : σ → Prop) (regs : Nat → Prop) (rw w1c : Nat → Nat → Bool) : Prop where
  inv : ∀ s reg data mask, I s → regs reg → mask < 16 → I (ops.write s reg data mask)
  same : ∀ s reg data mask, I s → regs reg → mask < 16 →
    Written (rw reg) (w1c reg) (ops.read s reg) (ops.read (ops.write s reg data mask) reg) data mask
  other : ∀ s reg reg' data mask, I s → regs reg → reg' ≠ reg →
    ops.read (ops.write s reg data mask) reg' = ops.read s reg'

end Pcie.Spec
