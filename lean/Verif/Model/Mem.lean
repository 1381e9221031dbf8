/-
Byte memories.  `mmap` objects and the address spaces of cocotbext-axi are outside /repo; they are modelled by the
behaviour the modelled code relies on.
-/
import Verif.Model.Tlp
namespace Pcie

/-- A byte-addressed memory (contents of a `mmap` buffer or of an address space). -/
abbrev Mem := Nat → UInt8

namespace Mem

/-- `mem[addr:addr+length]` inside the bounds of `mem`. -/
def read (m : Mem) (addr length : Nat) : List UInt8 := (List.range length).map (fun i => m (addr + i))

/-- `mem[addr:addr+len(data)] = data` inside the bounds of `mem`. -/
def write (m : Mem) (addr : Nat) (data : List UInt8) : Mem :=
  fun a => if addr ≤ a ∧ a < addr + data.length then data.getD (a - addr) 0 else m a

end Mem

/-- Python slice `data[a:b]` for `0 ≤ a`, `0 ≤ b`. -/
def slice (data : List UInt8) (a b : Nat) : List UInt8 := (data.take b).drop a

/-- A `cocotbext.axi.AddressSpace` as used at rc.py:98-99 (external code): contents, whether `find_regions` is
non-empty for an access, and whether a read/write access succeeds or raises. -/
structure AddrSpace where
  mem : Mem
  covers : Nat → Nat → Bool := fun _ _ => true
  readOk : Nat → Nat → Bool := fun _ _ => true
  writeOk : Nat → Nat → Bool := fun _ _ => true

namespace AddrSpace

/-- `await address_space.read(addr, length)`. -/
def read (s : AddrSpace) (addr length : Nat) : Py (List UInt8) :=
  if s.readOk addr length then .ok (s.mem.read addr length) else .error "Exception"

/-- `await address_space.write(addr, data)`. -/
def write (s : AddrSpace) (addr : Nat) (data : List UInt8) : Py AddrSpace :=
  if s.writeOk addr data.length then .ok { s with mem := s.mem.write addr data } else .error "Exception"

end AddrSpace

/-- A `mmap.mmap(-1, size)` buffer (endpoint.py:191). -/
structure Buf where
  size : Nat
  mem : Mem

namespace Buf

/-- endpoint.py:216 `self.regions[region][addr:addr+length]`: a slice past the end is shortened. -/
def read (b : Buf) (addr length : Nat) : List UInt8 := b.mem.read addr (min (addr + length) b.size - addr)

/-- endpoint.py:224 `self.regions[region][addr:addr+len(data)] = data`: assigning to a slice that the end of the
buffer shortens raises. -/
def write (b : Buf) (addr : Nat) (data : List UInt8) : Py Buf :=
  if addr + data.length ≤ b.size then .ok { b with mem := b.mem.write addr data } else .error "IndexError"

end Buf
end Pcie
