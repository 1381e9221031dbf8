/-
Specification vocabulary for memory transfers.
-/
import Verif.Model.Mem
import Verif.Model.Bar
import Verif.Spec.Bytes
namespace Pcie.Spec
open Pcie

/-- `m'` is `m` with the bytes `addr .. addr+len(data)-1` replaced by `data`, all other bytes unchanged. -/
def Replaced (m m' : Mem) (addr : Nat) (data : List UInt8) : Prop :=
  (∀ i (h : i < data.length), m' (addr + i) = data[i]) ∧
  (∀ a, a < addr ∨ addr + data.length ≤ a → m' a = m a)

/-- `bytes` are the `length` bytes that `m` holds from `addr` on. -/
def Holds (m : Mem) (addr length : Nat) (bytes : List UInt8) : Prop :=
  bytes.length = length ∧ ∀ i (h : i < bytes.length), bytes[i] = m (addr + i)

/-- The request TLPs, in order, enable consecutive non-empty byte ranges that together are exactly
`addr .. addr+len-1`. -/
inductive Segments : Nat → Nat → List Tlp → Prop
  | nil (a : Nat) : Segments a 0 []
  | cons (a l rest : Nat) (t : Tlp) (ts : List Tlp) : 0 < l →
      (∀ b, byteEnabled t b ↔ a ≤ b ∧ b < a + l) →
      Segments (a + l) rest ts → Segments a (l + rest) (t :: ts)

/-- A legal sequence of completions delivering `remaining` bytes from `addr` out of memory `m`
(PCI Express base specification 2.3.1.1): every completion is successful, starts at the address of the next byte,
states how many bytes are still to come, carries the memory's dwords, at most `mpsBytes` of them; every completion but
the last ends on a read completion boundary (a multiple of `rcb`). -/
inductive LegalCpls (m : Mem) (rcb mpsBytes : Nat) : Nat → Nat → List Tlp → Prop
  | last (addr remaining : Nat) (c : Tlp) :
      0 < remaining → c.status = CplStatus.SC → c.fmtType = some .CPL_DATA →
      c.lower_address = addr % 128 → c.byte_count = remaining →
      c.length = (addr % 4 + remaining + 3) / 4 → 4 * c.length ≤ mpsBytes →
      Holds m (addr / 4 * 4) (4 * c.length) c.data →
      LegalCpls m rcb mpsBytes addr remaining [c]
  | more (addr remaining : Nat) (c : Tlp) (rest : List Tlp) :
      c.status = CplStatus.SC → c.fmtType = some .CPL_DATA →
      c.lower_address = addr % 128 → c.byte_count = remaining →
      0 < c.length → addr % 4 + remaining > 4 * c.length → 4 * c.length ≤ mpsBytes →
      (addr / 4 * 4 + 4 * c.length) % rcb = 0 →
      Holds m (addr / 4 * 4) (4 * c.length) c.data →
      LegalCpls m rcb mpsBytes (addr / 4 * 4 + 4 * c.length) (addr % 4 + remaining - 4 * c.length) rest →
      LegalCpls m rcb mpsBytes addr remaining (c :: rest)

end Pcie.Spec

namespace Pcie.Spec
open Pcie

/-- The PCI Express rules for a memory write request (base specification 2.2.7, 2.2.2): payload as long as stated and
at most `mpsBytes`, 1 to 1024 dwords, no 4 KiB crossing, dword aligned address, the 4-dword header exactly for
addresses of 4 GiB and above, and the code's own `check()` passes. -/
structure WriteOk (mpsBytes : Nat) (t : Tlp) : Prop where
  payload : t.data.length = 4 * t.length
  size : 4 * t.length ≤ mpsBytes
  length_pos : 1 ≤ t.length
  length_le : t.length ≤ 1024
  aligned : t.address % 4 = 0
  boundary : t.address % 4096 + 4 * t.length ≤ 4096
  type : t.fmtType = some (if t.address < 2 ^ 32 then .MEM_WRITE else .MEM_WRITE_64)
  check : t.check = .ok true

/-- The PCI Express rules for a memory read request; `mrrsBytes` is the maximum read request size. -/
structure ReadOk (mrrsBytes : Nat) (t : Tlp) : Prop where
  no_payload : t.data = []
  size : 4 * t.length ≤ mrrsBytes
  length_pos : 1 ≤ t.length
  length_le : t.length ≤ 1024
  aligned : t.address % 4 = 0
  boundary : t.address % 4096 + 4 * t.length ≤ 4096
  type : t.fmtType = some (if t.address < 2 ^ 32 then .MEM_READ else .MEM_READ_64)
  check : t.check = .ok true

end Pcie.Spec

namespace Pcie.Spec
open Pcie

/-- `m'` is `m` with exactly the bytes that `t` enables replaced by the corresponding payload bytes; `off` is the
place in the memory where bus address `t.address` is mapped. -/
def EnabledStored (m m' : Mem) (t : Tlp) (off : Nat) : Prop :=
  (∀ i, byteEnabled t (t.address + i) → t.data[i]? = some (m' (off + i))) ∧
  (∀ a, (¬ ∃ i, a = off + i ∧ byteEnabled t (t.address + i)) → m' a = m a)

/-- A function decodes the window `base .. base + 2^k - 1` with BAR `idx`. -/
def ClaimsMem (bars : List BarReg) (idx base k : Nat) : Prop :=
  ∀ a, base ≤ a → a < base + 2 ^ k → matchBar bars a = .ok (some (idx, a - base))

/-- The region `b` of an endpoint, mapped at bus address `base`, as a memory indexed by bus addresses. -/
def busView (b : Buf) (base : Nat) : Mem := fun a => b.mem (a - base)

end Pcie.Spec

namespace Pcie.Spec
open Pcie

/-- The PCI Express rules for an I/O request: one dword, aligned, no traffic class, attributes or last byte enables. -/
structure IoOk (ty : TlpType) (t : Tlp) : Prop where
  type : t.fmtType = some ty
  one_dword : t.length = 1
  aligned : t.address % 4 = 0
  last_be : t.last_be = 0
  attr : t.attr = 0
  tc : t.tc = 0

/-- A correct answer to a one-dword read request: a successful completion with one dword of data in which every enabled
lane holds the memory byte. -/
def DwordAnswer (m : Mem) (t : Tlp) (cpls : List Tlp) : Prop :=
  ∃ c rest, cpls = c :: rest ∧ c.status = CplStatus.SC ∧ c.length = 1 ∧ c.data.length = 4 ∧
    ∀ i, byteEnabled t (t.address + i) → c.data[i]? = some (m (t.address + i))

/-- A function decodes the I/O window `base .. base + 2^k - 1` with BAR `idx`. -/
def ClaimsIo (bars : List BarReg) (idx base k : Nat) : Prop :=
  ∀ a, base ≤ a → a < base + 2 ^ k → matchBar bars a true = .ok (some (idx, a - base))

end Pcie.Spec
