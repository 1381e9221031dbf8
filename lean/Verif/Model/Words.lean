import Verif.Model.Mem
/-
Model of the word helpers. The same code appears for configuration space (rc.py:605-671, pci.py:420-471), capabilities
(rc.py:686-747, pci.py:481-537) and I/O and memory space (function.py:605-712, rc.py:749-860). It is written once
here, over the byte access `read`/`write` that each of them calls. The arguments `timeout`, `timeout_unit`, `attr` and `tc`,
which are passed on unchanged, are left out.
-/
namespace Pcie

inductive Order
  | little | big
deriving DecidableEq, Repr

/-- `int.to_bytes(n, byteorder)`: the n lowest digits, or OverflowError. -/
def digits : Nat → Nat → List UInt8
  | 0, _ => []
  | n + 1, w => UInt8.ofNat w :: digits n (w / 256)

def toBytes (w n : Nat) (o : Order) : Py (List UInt8) :=
  if w < 256 ^ n then .ok (match o with | .little => digits n w | .big => (digits n w).reverse)
  else .error "OverflowError"

/-- `int.from_bytes(data, byteorder)`. -/
def fromBytes (d : List UInt8) : Order → Nat
  | .little => d.foldr (fun b acc => b.toNat + 256 * acc) 0
  | .big => d.foldl (fun acc b => 256 * acc + b.toNat) 0

/-- The byte access of one of the address spaces: `read(addr, length)` and `write(addr, data)`, in state `W`. -/
structure ByteIo (W : Type) where
  read : W → Nat → Nat → Py (W × List UInt8)
  write : W → Nat → List UInt8 → Py W

namespace ByteIo
variable {W : Type} (io : ByteIo W)

/-- rc.py:605-610 (`config_read_words`) and the copies listed above. -/
def readWords (w : W) (addr count : Nat) (o : Order := .little) (ws : Nat := 2) : Py (W × List Nat) := do
  let (w, data) ← io.read w addr (count * ws)
  return (w, (List.range count).map fun k => fromBytes (slice data (ws * k) (ws * (k + 1))) o)

/-- rc.py:612-613. -/
def readDwords (w : W) (addr count : Nat) (o : Order := .little) : Py (W × List Nat) := io.readWords w addr count o 4

/-- rc.py:615-616. -/
def readQwords (w : W) (addr count : Nat) (o : Order := .little) : Py (W × List Nat) := io.readWords w addr count o 8

/-- `l[0]`. -/
def first {α : Type} : List α → Py α
  | [] => .error "IndexError"
  | a :: _ => .ok a

/-- rc.py:618-619. -/
def readByte (w : W) (addr : Nat) : Py (W × Nat) := do
  let (w, data) ← io.read w addr 1
  return (w, (← first data).toNat)

/-- rc.py:621-622. -/
def readWord (w : W) (addr : Nat) (o : Order := .little) (ws : Nat := 2) : Py (W × Nat) := do
  let (w, l) ← io.readWords w addr 1 o ws
  return (w, ← first l)

/-- rc.py:624-625. -/
def readDword (w : W) (addr : Nat) (o : Order := .little) : Py (W × Nat) := do
  let (w, l) ← io.readDwords w addr 1 o
  return (w, ← first l)

/-- rc.py:627-628. -/
def readQword (w : W) (addr : Nat) (o : Order := .little) : Py (W × Nat) := do
  let (w, l) ← io.readQwords w addr 1 o
  return (w, ← first l)

/-- rc.py:649-652: the bytes of the words. -/
def encode (o : Order) (ws : Nat) : List Nat → List UInt8 → Py (List UInt8)
  | [], data => .ok data
  | v :: r, data => do encode o ws r (data ++ (← toBytes v ws o))

/-- rc.py:648-653 (`config_write_words`) and its copies. -/
def writeWords (w : W) (addr : Nat) (words : List Nat) (o : Order := .little) (ws : Nat := 2) : Py W := do
  let data ← encode o ws words []
  io.write w addr data

/-- rc.py:655-656. -/
def writeDwords (w : W) (addr : Nat) (words : List Nat) (o : Order := .little) : Py W := io.writeWords w addr words o 4

/-- rc.py:658-659. -/
def writeQwords (w : W) (addr : Nat) (words : List Nat) (o : Order := .little) : Py W := io.writeWords w addr words o 8

/-- rc.py:661-662; a number above 255 raises where the list is made into bytes. -/
def writeByte (w : W) (addr v : Nat) : Py W :=
  if v < 256 then io.write w addr [UInt8.ofNat v] else .error "ValueError"

/-- rc.py:664-665. -/
def writeWord (w : W) (addr v : Nat) (o : Order := .little) (ws : Nat := 2) : Py W := io.writeWords w addr [v] o ws

/-- rc.py:667-668. -/
def writeDword (w : W) (addr v : Nat) (o : Order := .little) : Py W := io.writeDwords w addr [v] o

/-- rc.py:670-671. -/
def writeQword (w : W) (addr v : Nat) (o : Order := .little) : Py W := io.writeQwords w addr [v] o

/-- pci.py:473-479 and 506-512: `capability_read` and `capability_write` add the offset of the capability (`none` or 0: not
found) to the address. -/
def atCap (offset : Option Nat) : ByteIo W where
  read w addr length := match offset with
    | none | some 0 => .error "Capability not found"
    | some o => io.read w (addr + o) length
  write w addr data := match offset with
    | none | some 0 => .error "Capability not found"
    | some o => io.write w (addr + o) data

end ByteIo
end Pcie
