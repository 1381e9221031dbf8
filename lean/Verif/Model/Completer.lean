/-
Completers: the request handlers of the root complex (rc.py:304-563) and of `MemoryEndpoint` (endpoint.py:210-438).
-/
import Verif.Model.Mem
import Verif.Model.Bar
namespace Pcie

/-- The local variables `start_offset`, `offset` and the list of finished runs of the byte-enable scan. -/
structure Scan where
  start : Option Nat := none
  offset : Nat := 0
  runs : List (Nat × Nat) := []
deriving DecidableEq, Repr

/-- One iteration of `for k in range(4)` (rc.py:332-341, 394-403, 520-529, 541-550;
endpoint.py:254-263, 303-312, 403-412, 424-433). A run `(start_offset, offset)` stands for the access to
`data[start_offset:offset]`. -/
def Scan.lane (mask : Nat) (s : Scan) (k : Nat) : Scan :=
  let s := if mask &&& (1 <<< k) ≠ 0 then
      match s.start with
      | none => { s with start := some s.offset }
      | some _ => s
    else
      let runs := match s.start with
        | some st => if s.offset ≠ st then s.runs ++ [(st, s.offset)] else s.runs
        | none => s.runs
      { s with start := none, runs := runs }
  { s with offset := s.offset + 1 }

/-- The loop `for k in range(4)` over one dword. -/
def Scan.dword (mask : Nat) (s : Scan) : Scan := (List.range 4).foldl (Scan.lane mask) s

/-- The code after the scan: `if start_offset is not None and offset != start_offset` (rc.py:343-344, 405-406, 552-553;
endpoint.py:265-266, 314-315, 435-436). -/
def Scan.finish (s : Scan) : List (Nat × Nat) :=
  match s.start with
  | some st => if s.offset ≠ st then s.runs ++ [(st, s.offset)] else s.runs
  | none => s.runs

/-- Runs of enabled bytes of a one-dword I/O access (rc.py:322-344, 384-406; endpoint.py:246-266, 295-315). -/
def ioRuns (t : Tlp) : List (Nat × Nat) := (Scan.dword t.first_be {}).finish

/-- Runs of enabled bytes of a memory write (rc.py:503-553; endpoint.py:388-436). -/
def memRuns (t : Tlp) : List (Nat × Nat) :=
  let s := Scan.dword t.first_be {}
  let s := if t.length > 2 then
      { s with start := some (s.start.getD s.offset), offset := s.offset + (t.length - 2) * 4 }
    else s
  let s := if t.length > 1 then Scan.dword t.last_be s else s
  s.finish

/-- Completion settings of a completer: `32 << max_payload_size`, read completion boundary 128 or 64,
`split_on_all_rcb`, and the completer's own ID (`PcieId(0, 0, 0)` for the root complex). -/
structure CplCfg where
  id : PcieId := ⟨0, 0, 0⟩
  mps : Nat := 0
  rcb128 : Bool := false
  splitAll : Bool := false
deriving DecidableEq, Repr

/-- rc.py:466-468; endpoint.py:355 (always 128). -/
def CplCfg.rcb (c : CplCfg) : Nat := if c.rcb128 then 128 else 64

/-- rc.py:474-482: dwords of the next completion; endpoint.py:361-365 is the case `splitAll = false`. -/
def CplCfg.chunk (c : CplCfg) (remaining addr : Nat) : Nat :=
  let max_payload_dw := 32 <<< c.mps
  let rcb_mask := (c.rcb - 1) &&& 0xfc
  if c.splitAll then min remaining ((c.rcb - (addr &&& rcb_mask)) >>> 2)
  else if remaining > max_payload_dw then max_payload_dw - ((addr &&& rcb_mask) >>> 2)
  else remaining

theorem CplCfg.chunk_pos (c : CplCfg) (r a : Nat) (h : 0 < r) : 0 < c.chunk r a := by
  have h1 : a &&& ((c.rcb - 1) &&& 0xfc) ≤ (c.rcb - 1) &&& 0xfc := Nat.and_le_right
  have h2 : c.rcb = 128 ∨ c.rcb = 64 := by unfold rcb; split <;> simp
  have h3 : 32 ≤ 32 <<< c.mps := by
    rw [Nat.shiftLeft_eq]; exact Nat.le_mul_of_pos_right _ (Nat.two_pow_pos _)
  have h4 : (c.rcb - 1) &&& 0xfc ≤ c.rcb - 4 := by rcases h2 with h | h <;> rw [h] <;> decide
  unfold chunk
  simp only [Nat.shiftRight_eq_div_pow]
  split
  · omega
  · split <;> omega

/-- rc.py:471-493, endpoint.py:358-376: the completion loop. `m`: dwords done, `n`: bytes done, `addr`: address of the
next byte. -/
def cplLoop (c : CplCfg) (t : Tlp) (data : List UInt8) (dw_length byte_length m n addr : Nat) : List Tlp :=
  if h : m < dw_length then
    let k := c.chunk (dw_length - m) addr
    let cpl := t.createCompletionData c.id
    let cpl := { cpl with byte_count := byte_length - n, lower_address := addr &&& 0x7f }
    let cpl := cpl.setData (slice data (m * 4) ((m + k) * 4))
    cpl :: cplLoop c t data dw_length byte_length (m + k) (n + (k * 4 - (addr &&& 3))) (addr + (k * 4 - (addr &&& 3)))
  else []
termination_by dw_length - m
decreasing_by
  have := c.chunk_pos (dw_length - m) addr (by omega)
  omega

/-- rc.py:459-493, endpoint.py:348-376: the completions for a memory read whose dwords are `data`. -/
def memReadCpls (c : CplCfg) (t : Tlp) (data : List UInt8) : List Tlp :=
  cplLoop c t data t.length t.beByteCount 0 0 (t.address + t.firstBeOffset)

namespace Rc

/-- rc.py:426-493 `handle_mem_read_tlp`: the completions sent. -/
def handleMemRead (c : CplCfg) (s : AddrSpace) (t : Tlp) : List Tlp :=
  if ¬ s.covers t.address (t.length * 4) then [t.createUr c.id]
  else if t.length * 4 > 0x1000 - (t.address &&& 0xfff) then []
  else match s.read t.address (t.length * 4) with
    | .error _ => [t.createCa c.id]
    | .ok data => memReadCpls c t data

/-- rc.py:555-561 / 408-419: the list of writes, stopping at the first exception.
The flag says whether all of them succeeded. -/
def applyRuns (base : Nat) (data : List UInt8) : List (Nat × Nat) → AddrSpace → AddrSpace × Bool
  | [], s => (s, true)
  | (a, b) :: rest, s =>
    match s.write (base + a) (slice data a b) with
    | .error _ => (s, false)
    | .ok s => applyRuns base data rest s

/-- rc.py:495-561 `handle_mem_write_tlp`: the new address space (nothing is sent). -/
def handleMemWrite (s : AddrSpace) (t : Tlp) : AddrSpace :=
  if ¬ s.covers t.address (t.length * 4) then s
  else if t.length * 4 > 0x1000 - (t.address &&& 0xfff) then s
  else (applyRuns t.address t.data (memRuns t) s).1

/-- rc.py:346-357: the reads of the enabled runs into the 4-byte buffer. -/
def readRuns (s : AddrSpace) (base : Nat) : List (Nat × Nat) → List UInt8 → Py (List UInt8)
  | [], data => .ok data
  | (a, b) :: rest, data => do
    let d ← s.read (base + a) (b - a)
    readRuns s base rest (data.take a ++ d ++ data.drop b)

/-- rc.py:304-364 `handle_io_read_tlp`; `.error` is the failing assertion of line 317. -/
def handleIoRead (id : PcieId) (s : AddrSpace) (t : Tlp) : Py (List Tlp) :=
  if ¬ s.covers t.address (t.length * 4) then .ok [t.createUr id]
  else if t.length ≠ 1 then .error "AssertionError"
  else match readRuns s t.address (ioRuns t) [0, 0, 0, 0] with
    | .error _ => .ok [t.createCa id]
    | .ok data =>
      let cpl := (t.createCompletionData id).setData data
      .ok [{ cpl with byte_count := 4, length := 1 }]

/-- rc.py:366-424 `handle_io_write_tlp`. -/
def handleIoWrite (id : PcieId) (s : AddrSpace) (t : Tlp) : Py (AddrSpace × List Tlp) :=
  if ¬ s.covers t.address (t.length * 4) then .ok (s, [t.createUr id])
  else if t.length ≠ 1 then .error "AssertionError"
  else match applyRuns t.address t.data (ioRuns t) s with
    | (s, false) => .ok (s, [t.createCa id])
    | (s, true) => .ok (s, [{ t.createCompletion id with byte_count := 4 }])

end Rc

/-- State of a `MemoryEndpoint` (endpoint.py:169-182). Simplification: only `mmap` regions are modelled; a region given
by user callbacks (endpoint.py:194) is user code. -/
structure MemEp where
  bars : List BarReg := List.replicate 6 {}
  regions : List (Option Buf) := List.replicate 6 none
  barPtr : Nat := 0
  id : PcieId := ⟨0, 0, 0⟩
  mps : Nat := 0

namespace MemEp

/-- endpoint.py:184-199 `add_region` (with `read = write = None`; `mmap.mmap` fills with zeros). -/
def addRegion (e : MemEp) (size : Nat) (ext prefetch io : Bool) : Py MemEp :=
  if e.barPtr > 5 ∨ (ext ∧ e.barPtr > 4) then .error "No more BARs available"
  else do
    let bars ← configureBar e.bars e.barPtr size ext prefetch io
    .ok { e with bars := bars, regions := e.regions.set e.barPtr (some ⟨size, fun _ => 0⟩),
                 barPtr := e.barPtr + (if ext then 2 else 1) }

/-- endpoint.py:201-208 `add_io_region`, `add_mem_region`, `add_prefetchable_mem_region`. -/
def addIoRegion (e : MemEp) (size : Nat) : Py MemEp := e.addRegion size false false true
@[inherit_doc addIoRegion] def addMemRegion (e : MemEp) (size : Nat) : Py MemEp := e.addRegion size false false false
@[inherit_doc addIoRegion] def addPrefetchableMemRegion (e : MemEp) (size : Nat) : Py MemEp :=
  e.addRegion size true true false

/-- endpoint.py:210-216 `read_region`. -/
def readRegion (e : MemEp) (region addr length : Nat) : Py (List UInt8) :=
  match e.regions[region]? with
  | some (some b) => .ok (b.read addr length)
  | _ => .error "Invalid region"

/-- endpoint.py:218-224 `write_region`. -/
def writeRegion (e : MemEp) (region addr : Nat) (data : List UInt8) : Py MemEp :=
  match e.regions[region]? with
  | some (some b) => do .ok { e with regions := e.regions.set region (some (← b.write addr data)) }
  | _ => .error "Invalid region"

/-- endpoint.py:346 (completion settings used by `handle_mem_read_tlp`). -/
def cplCfg (e : MemEp) : CplCfg := { id := e.id, mps := e.mps, rcb128 := true, splitAll := false }

/-- endpoint.py:322-376 `handle_mem_read_tlp`. -/
def handleMemRead (e : MemEp) (t : Tlp) : Py (List Tlp) := do
  match ← matchBar e.bars t.address with
  | none => .ok [t.createUr e.id]
  | some (region, addr) =>
    if t.length * 4 > 0x1000 - (addr &&& 0xfff) then .ok []
    else
      let data ← e.readRegion region addr (t.length * 4)
      .ok (memReadCpls e.cplCfg t data)

/-- The writes of the enabled runs (endpoint.py:402-436, 303-315). -/
def applyRuns (region base : Nat) (data : List UInt8) : List (Nat × Nat) → MemEp → Py MemEp
  | [], e => .ok e
  | (a, b) :: rest, e => do applyRuns region base data rest (← e.writeRegion region (base + a) (slice data a b))

/-- endpoint.py:378-436 `handle_mem_write_tlp`. -/
def handleMemWrite (e : MemEp) (t : Tlp) : Py MemEp := do
  match ← matchBar e.bars t.address with
  | none => .ok e
  | some (region, addr) =>
    if t.length * 4 > 0x1000 - (addr &&& 0xfff) then .ok e
    else applyRuns region addr t.data (memRuns t) e

/-- endpoint.py:251-266: the reads of the enabled runs into the 4-byte buffer. -/
def readRuns (e : MemEp) (region base : Nat) : List (Nat × Nat) → List UInt8 → Py (List UInt8)
  | [], data => .ok data
  | (a, b) :: rest, data => do
    let d ← e.readRegion region (base + a) (b - a)
    readRuns e region base rest (data.take a ++ d ++ data.drop b)

/-- endpoint.py:226-273 `handle_io_read_tlp`. -/
def handleIoRead (e : MemEp) (t : Tlp) : Py (List Tlp) := do
  match ← matchBar e.bars t.address true with
  | none => .ok [t.createUr e.id]
  | some (region, addr) =>
    if t.length ≠ 1 then .error "AssertionError"
    else
      let data ← e.readRuns region addr (ioRuns t) [0, 0, 0, 0]
      let cpl := (t.createCompletionData e.id).setData data
      .ok [{ cpl with byte_count := 4, length := 1 }]

/-- endpoint.py:275-320 `handle_io_write_tlp`. -/
def handleIoWrite (e : MemEp) (t : Tlp) : Py (MemEp × List Tlp) := do
  match ← matchBar e.bars t.address true with
  | none => .ok (e, [t.createUr e.id])
  | some (region, addr) =>
    if t.length ≠ 1 then .error "AssertionError"
    else
      let e ← applyRuns region addr t.data (ioRuns t) e
      .ok (e, [{ t.createCompletion e.id with byte_count := 4 }])

end MemEp
end Pcie
