/-
Message signalled interrupts: the MSI and MSI-X capabilities of functions (caps/msi.py), the region of the host that receives
the messages (core/msi.py), and the calls by which the host sets both up (pci.py:810-1047).
-/
import Verif.Model.Tlp
namespace Pcie

/-! ### The capabilities -/

/-- caps/msi.py:32-51: `MsiCapability`. `head` is the lower half of register 0, with the pointer to the next capability and the
capability ID (caps/common.py:112-116). -/
structure MsiCap where
  enable : Bool := false
  mmc : Nat := 0
  mme : Nat := 0
  cap64 : Bool := false
  maskCap : Bool := false
  extCap : Bool := false
  extEnable : Bool := false
  addr : Nat := 0
  data : Nat := 0
  maskBits : Nat := 0
  pending : Nat := 0
  head : Nat := 5
deriving DecidableEq, Repr

namespace MsiCap

/-- caps/msi.py:110-120 `_read_register(0)`. -/
def control (c : MsiCap) : Nat :=
  c.enable.toNat <<< 16 ||| (c.mmc &&& 0x7) <<< 17 ||| (c.mme &&& 0x7) <<< 20 ||| c.cap64.toNat <<< 23 ||| c.maskCap.toNat <<< 24 |||
    c.extCap.toNat <<< 25 ||| c.extEnable.toNat <<< 26

/-- caps/msi.py:109-137 `_read_register`, and caps/common.py:112-116 for register 0. `none`: the Python function returns
`None`. -/
def read (c : MsiCap) (reg : Nat) : Option Nat :=
  if reg = 0 then some (c.control &&& 0xffff0000 ||| c.head &&& 0xffff)
  else if reg = 1 then some (c.addr &&& 0xfffffffc)
  else if reg = 2 ∧ c.cap64 then some (c.addr >>> 32 &&& 0xffffffff)
  else if reg = (if c.cap64 then 3 else 2) then
    if c.extCap then some (c.data &&& 0xffffffff) else some (c.data &&& 0xffff)
  else if reg = (if c.cap64 then 4 else 3) ∧ c.maskCap then some (c.maskBits &&& 0xffffffff)
  else if reg = (if c.cap64 then 5 else 4) ∧ c.maskCap then some (c.pending &&& 0xffffffff)
  else none

/-- caps/msi.py:139-161 `_write_register`. -/
def write (c : MsiCap) (reg data mask : Nat) : MsiCap :=
  if reg = 0 then
    if mask &&& 0x4 ≠ 0 then
      { c with enable := data &&& 1 <<< 16 ≠ 0, mme := data >>> 20 &&& 0x7,
               extEnable := if c.extCap then data &&& 1 <<< 16 ≠ 0 else c.extEnable }
    else c
  else if reg = 1 then { c with addr := byteMaskUpdate c.addr mask (data &&& 0xfffffffc) }
  else if reg = 2 ∧ c.cap64 then { c with addr := byteMaskUpdate c.addr (mask <<< 4) (data <<< 32) }
  else if reg = (if c.cap64 then 3 else 2) then
    if c.extCap then { c with data := byteMaskUpdate c.data mask data &&& 0xffffffff }
    else { c with data := byteMaskUpdate c.data (mask &&& 0x3) data &&& 0xffff }
  else if reg = (if c.cap64 then 4 else 3) ∧ c.maskCap then { c with maskBits := byteMaskUpdate c.maskBits mask data &&& 0xffffffff }
  else c

/-- caps/msi.py:163-175 `issue_msi_interrupt`: address and value of the memory write. `struct.pack('<L', data)` raises an
exception for values of more than 32 bits. -/
def issue (c : MsiCap) (number : Nat) : Py (Nat × Nat) :=
  if ¬ c.enable then .error "MSI disabled"
  else if number ≥ 2 ^ min c.mme c.mmc then .error "MSI message number out of range"
  else
    let data := if c.extCap ∧ c.extEnable then c.data else c.data &&& 0xffff
    let data := andNot data (2 ^ c.mme - 1) ||| number
    if data ≥ 2 ^ 32 then .error "struct.error" else .ok (c.addr, data)

end MsiCap

/-- caps/msi.py:178-193: `MsixCapability`. -/
structure MsixCap where
  tableSize : Nat := 0
  functionMask : Bool := false
  enable : Bool := false
  tableBir : Nat := 0
  tableOffset : Nat := 0
  pbaBir : Nat := 0
  pbaOffset : Nat := 0
  head : Nat := 0x11
deriving DecidableEq, Repr

namespace MsixCap

/-- caps/msi.py:207-212 `_read_register(0)`. -/
def control (c : MsixCap) : Nat := (c.tableSize &&& 0x7ff) <<< 16 ||| c.functionMask.toNat <<< 30 ||| c.enable.toNat <<< 31

/-- caps/msi.py:206-222 `_read_register`, and caps/common.py:112-116 for register 0. -/
def read (c : MsixCap) (reg : Nat) : Option Nat :=
  if reg = 0 then some (c.control &&& 0xffff0000 ||| c.head &&& 0xffff)
  else if reg = 1 then some (c.tableBir &&& 0x7 ||| c.tableOffset &&& 0xfffffff8)
  else if reg = 2 then some (c.pbaBir &&& 0x7 ||| c.pbaOffset &&& 0xfffffff8)
  else none

/-- caps/msi.py:224-229 `_write_register`. -/
def write (c : MsixCap) (reg data mask : Nat) : MsixCap :=
  if reg = 0 then
    if mask &&& 0x8 ≠ 0 then { c with functionMask := data &&& 1 <<< 30 ≠ 0, enable := data &&& 1 <<< 31 ≠ 0 } else c
  else c

/-- caps/msi.py:231-235 `issue_msix_interrupt`. -/
def issue (c : MsixCap) (addr data : Nat) : Py (Nat × Nat) :=
  if ¬ c.enable then .error "MSI-X disabled"
  else if data ≥ 2 ^ 32 then .error "struct.error" else .ok (addr, data)

end MsixCap

/-! ### The region of the host -/

/-- core/msi.py:33-38: `MsiVector`; `id` is the identity of the object. -/
structure MsiVec where
  addr : Nat
  data : Nat
  id : Nat
deriving DecidableEq, Repr

/-- core/msi.py:41-47: `MsiRegion`; `vectors` is the dictionary, with the identities of the vectors. `nextId` counts the
vectors created, `base` is the address of the region (0x80000000, rc.py:125). -/
structure MsiRegion where
  base : Nat := 0x80000000
  limit : Nat := 0
  nextId : Nat := 0
  vectors : Nat → Option Nat := fun _ => none

namespace MsiRegion

/-- core/msi.py:52-58: the loop. -/
def allocLoop : Nat → MsiRegion → List MsiVec × MsiRegion
  | 0, r => ([], r)
  | num + 1, r =>
    let vec : MsiVec := ⟨r.base, r.limit, r.nextId⟩
    let r := { r with vectors := fun d => if d = vec.data then some vec.id else r.vectors d, limit := r.limit + 1, nextId := r.nextId + 1 }
    let (vecs, r) := allocLoop num r
    (vec :: vecs, r)

/-- core/msi.py:49-62 `alloc_vectors`. -/
def alloc (num : Nat) (r : MsiRegion) : List MsiVec × MsiRegion :=
  let (vecs, r) := allocLoop num r
  (vecs, { r with limit := r.limit + r.limit % 32 })

/-- core/msi.py:67-76 `write`, for a write of four bytes: the vector whose event is set and whose callbacks are started. -/
def write (r : MsiRegion) (offset number : Nat) : Py Nat :=
  if offset ≠ 0 then .error "AssertionError"
  else match r.vectors number with
    | none => .error "AssertionError"
    | some id => .ok id

end MsiRegion

/-! ### The calls -/

/-- A function, as far as interrupts are concerned, together with what the host knows about it (pci.py:350-352). `mem` is the
memory behind its BARs, in dwords by BAR and byte address. -/
structure IrqFn where
  msi : Option MsiCap := none
  msix : Option MsixCap := none
  mem : Nat → Nat → Nat := fun _ _ => 0
  vecs : List MsiVec := []
  msiEnabled : Bool := false
  msixEnabled : Bool := false

namespace IrqFn

/-- pci.py:828-836 `msi_set_enable`. Accesses to the upper half of register 0 have byte enables 1100b. -/
def msiSetEnable (f : IrqFn) (c : MsiCap) (enable : Bool) : IrqFn × MsiCap :=
  let old := (c.read 0).getD 0 >>> 16
  let ctrl := if enable then old ||| 1 else andNot old 1
  let c := if ctrl ≠ old then c.write 0 (ctrl <<< 16) 0xc else c
  ({ f with msi := some c, msiEnabled := enable }, c)

/-- `w.to_bytes(4, ...)` raises an exception for values of more than 32 bits. -/
def dword (v : Nat) : Py Nat := if v < 2 ^ 32 then .ok v else .error "OverflowError"

/-- pci.py:838-880 `msi_capability_init`. -/
def msiInit (r : MsiRegion) (f : IrqFn) (c : MsiCap) : Py (MsiRegion × IrqFn) := do
  let (f, c) := f.msiSetEnable c false
  let f := { f with msiEnabled := true }
  let (vecs, r) := if f.vecs = [] then r.alloc 32 else (f.vecs, r)
  let f := { f with vecs }
  let ctrl := (c.read 0).getD 0
  let is64 := ctrl >>> 23 &&& 1
  let mmcap := ctrl >>> 17 &&& 7
  match vecs with
  | [] => .error "IndexError"
  | v :: _ =>
    let c := c.write 1 (v.addr &&& 0xfffffffc) 0xf
    let data ← dword v.data
    let c := if is64 ≠ 0 then (c.write 2 (v.addr >>> 32 &&& 0xffffffff) 0xf).write 3 data 0xf else c.write 2 data 0xf
    let ctrl := ctrl ||| 1 <<< 16
    let ctrl := andNot ctrl (7 <<< 20) ||| mmcap <<< 20
    let c := c.write 0 ctrl 0xf
    let (f, _) := f.msiSetEnable c true
    return (r, f)

/-- pci.py:882-911 `enable_msi_range`; the result of the Python function is not modelled. -/
def enableMsi (r : MsiRegion) (f : IrqFn) (minVecs maxVecs : Nat) : Py (MsiRegion × IrqFn) :=
  match f.msi with
  | none => .ok (r, f)
  | some c =>
    if f.msixEnabled then .ok (r, f)
    else if maxVecs < minVecs then .ok (r, f)
    else if f.msiEnabled then .ok (r, f)
    else if 1 <<< ((c.read 0).getD 0 >>> 17 &&& 0x7) < minVecs then .ok (r, f)
    else msiInit r f c

/-- pci.py:913-917 `disable_msi`. -/
def disableMsi (f : IrqFn) : IrqFn :=
  match f.msi with
  | none => f
  | some c => if ¬ f.msiEnabled then f else (f.msiSetEnable c false).1

/-- pci.py:932-940 `msix_set_enable`. -/
def msixSetEnable (f : IrqFn) (c : MsixCap) (enable : Bool) : IrqFn × MsixCap :=
  let old := (c.read 0).getD 0 >>> 16
  let ctrl := if enable then old ||| 0x8000 else andNot old 0x8000
  let c := if ctrl ≠ old then c.write 0 (ctrl <<< 16) 0xc else c
  ({ f with msix := some c, msixEnabled := enable }, c)

/-- A dword write through a BAR window. -/
def store (mem : Nat → Nat → Nat) (bar addr v : Nat) : Nat → Nat → Nat := fun b a => if b = bar ∧ a = addr then v else mem b a

/-- pci.py:972-980: the loop over the table; `k` vectors from number `i` on. -/
def tableLoop (vecs : List MsiVec) (bar off : Nat) : (i k : Nat) → (Nat → Nat → Nat) → Py (Nat → Nat → Nat)
  | _, 0, mem => .ok mem
  | i, k + 1, mem =>
    match vecs[i]? with
    | none => .error "IndexError"
    | some v =>
      let mem := store mem bar (off + i * 16 + 0) (v.addr &&& 0xfffffffc)
      let mem := store mem bar (off + i * 16 + 4) (v.addr >>> 32 &&& 0xffffffff)
      let mem := store mem bar (off + i * 16 + 8) (v.data &&& 0xffffffff)
      let mem := store mem bar (off + i * 16 + 12) 0
      tableLoop vecs bar off (i + 1) k mem

/-- pci.py:942-989 `msix_capability_init`. The BAR is assumed to exist. -/
def msixInit (r : MsiRegion) (f : IrqFn) (c : MsixCap) : Py (MsiRegion × IrqFn) := do
  let (f, c) := f.msixSetEnable c false
  let f := { f with msixEnabled := true }
  let ctrl := (c.read 0).getD 0
  let size := (ctrl >>> 16 &&& 0x7ff) + 1
  let table := (c.read 1).getD 0
  let bir := table &&& 0x7
  let off := andNot table 0x7
  let (vecs, r) := if f.vecs = [] then r.alloc size else (f.vecs, r)
  let f := { f with vecs }
  let mem ← tableLoop vecs bir off 0 size f.mem
  let f := { f with mem }
  let c := c.write 0 (ctrl ||| 1 <<< 31) 0xf
  let (f, _) := f.msixSetEnable c true
  return (r, f)

/-- pci.py:991-1020 `enable_msix_range`. -/
def enableMsix (r : MsiRegion) (f : IrqFn) (minVecs maxVecs : Nat) : Py (MsiRegion × IrqFn) :=
  match f.msix with
  | none => .ok (r, f)
  | some c =>
    if f.msiEnabled then .ok (r, f)
    else if maxVecs < minVecs then .ok (r, f)
    else if f.msixEnabled then .ok (r, f)
    else if ((c.read 0).getD 0 >>> 16 &&& 0x7ff) + 1 < minVecs then .ok (r, f)
    else msixInit r f c

/-- pci.py:1022-1026 `disable_msix`. -/
def disableMsix (f : IrqFn) : IrqFn :=
  match f.msix with
  | none => f
  | some c => if ¬ f.msixEnabled then f else (f.msixSetEnable c false).1

/-- pci.py:1028-1040 `alloc_irq_vectors`: MSI-X, and MSI if that did not enable anything. -/
def allocIrq (r : MsiRegion) (f : IrqFn) (minVecs maxVecs : Nat) : Py (MsiRegion × IrqFn) := do
  let (r, f') ← enableMsix r f minVecs maxVecs
  if f'.msixEnabled ∧ ¬ f.msixEnabled ∧ 0 < maxVecs then return (r, f') else enableMsi r f' minVecs maxVecs

end IrqFn

/-- Any number of functions, the region, and the callbacks of the vectors. -/
structure IrqSys where
  region : MsiRegion := {}
  fns : Nat → IrqFn
  cbs : Nat → List Nat := fun _ => []

/-- The calls; functions and handlers are numbered. -/
inductive IrqOp where
  | alloc (num : Nat)
  | enableMsi (f minVecs maxVecs : Nat)
  | enableMsix (f minVecs maxVecs : Nat)
  | allocIrq (f minVecs maxVecs : Nat)
  | freeIrq (f : Nat)
  | request (f nr handler : Nat)
deriving DecidableEq, Repr

namespace IrqSys

def setFn (s : IrqSys) (f : Nat) (x : MsiRegion × IrqFn) : IrqSys :=
  { s with region := x.1, fns := fun g => if g = f then x.2 else s.fns g }

/-- The effect of a call: rc.py:861-862 `msi_alloc_vectors`, the functions above, pci.py:1042-1044 `free_irq_vectors` and
pci.py:1046-1047 `request_irq`. -/
def run (s : IrqSys) : IrqOp → Py IrqSys
  | .alloc num => .ok { s with region := (s.region.alloc num).2 }
  | .enableMsi f lo hi => do return s.setFn f (← (s.fns f).enableMsi s.region lo hi)
  | .enableMsix f lo hi => do return s.setFn f (← (s.fns f).enableMsix s.region lo hi)
  | .allocIrq f lo hi => do return s.setFn f (← (s.fns f).allocIrq s.region lo hi)
  | .freeIrq f => .ok (s.setFn f (s.region, (s.fns f).disableMsi.disableMsix))
  | .request f nr h =>
    match (s.fns f).vecs[nr]? with
    | none => .error "IndexError"
    | some v => .ok { s with cbs := fun i => if i = v.id then s.cbs i ++ [h] else s.cbs i }

/-- A memory write that reaches the region (size 16) starts the callbacks of a vector. -/
def deliver (s : IrqSys) (m : Nat × Nat) : Py (List Nat) :=
  if m.1 < s.region.base ∨ s.region.base + 16 ≤ m.1 then .error "not in the region"
  else do return s.cbs (← s.region.write (m.1 - s.region.base) m.2)

/-- Function `f` issues MSI interrupt `n`: the handlers that are started. -/
def msi (s : IrqSys) (f n : Nat) : Py (List Nat) :=
  match (s.fns f).msi with
  | none => .error "no capability"
  | some c => do s.deliver (← c.issue n)

/-- Function `f` issues the MSI-X interrupt that entry `n` of its table describes: the handlers that are started. -/
def msix (s : IrqSys) (f n : Nat) : Py (List Nat) :=
  match (s.fns f).msix with
  | none => .error "no capability"
  | some c => do
    let mem := (s.fns f).mem (c.tableBir &&& 7)
    let e := (c.tableOffset &&& 0xfffffff8) + n * 16
    s.deliver (← c.issue (mem e ||| mem (e + 4) <<< 32) (mem (e + 8)))

end IrqSys
end Pcie
