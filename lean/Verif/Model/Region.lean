/-
Requesters: `MemoryTlpRegion` and `IoTlpRegion` (region.py), and the completion collection of
`perform_nonposted_operation` (function.py:510-545, rc.py:267-302).
-/
import Verif.Model.Mem
namespace Pcie

/-- What a requester reads from its owner (region.py:34-39): its ID, `bus_master_enable`, and the configured
`max_payload_size` / `max_read_request_size`. -/
structure ReqCfg where
  id : PcieId := ⟨0, 0, 0⟩
  busMasterEnable : Bool := true
  mps : Nat := 0
  mrrs : Nat := 2
deriving DecidableEq, Repr

namespace Region

/-- region.py:132-135: bytes of the next write TLP. -/
def writeLen (c : ReqCfg) (addr remaining : Nat) : Nat :=
  let first_pad := addr % 4
  let byte_length := min remaining ((128 <<< c.mps) - first_pad)
  min byte_length (0x1000 - (addr &&& 0xfff))

theorem writeLen_pos (c : ReqCfg) (addr r : Nat) (h : 0 < r) : 0 < writeLen c addr r := by
  unfold writeLen
  have h1 : addr &&& 0xfff ≤ 0xfff := Nat.and_le_right
  have h2 : 128 ≤ 128 <<< c.mps := by
    rw [Nat.shiftLeft_eq]; exact Nat.le_mul_of_pos_right _ (Nat.two_pow_pos _)
  have h3 : addr % 4 < 4 := Nat.mod_lt _ (by omega)
  simp only; omega

/-- region.py:123-139: one write TLP (`chunk` is `data[n:n+byte_length]`). -/
def writeTlp (c : ReqCfg) (attr tc : Nat) (zero_len : Bool) (addr : Nat) (chunk : List UInt8) : Tlp :=
  let req : Tlp := {}
  let req := if addr > 0xffffffff then req.setFmtType .MEM_WRITE_64 else req.setFmtType .MEM_WRITE
  let req := { req with requester_id := c.id, attr := attr, tc := tc }
  let req := req.setAddrBeData addr chunk
  if zero_len then { req with first_be := 0 } else req

/-- region.py:122-144: the loop of `write` (`n` bytes already sent). -/
def writeLoop (c : ReqCfg) (attr tc : Nat) (zero_len : Bool) (data : List UInt8) (n addr : Nat) : List Tlp :=
  if h : n < data.length then
    let byte_length := writeLen c addr (data.length - n)
    writeTlp c attr tc zero_len addr (slice data n (n + byte_length)) ::
      writeLoop c attr tc zero_len data (n + byte_length) (addr + byte_length)
  else []
termination_by data.length - n
decreasing_by
  have := writeLen_pos c addr (data.length - n) (by omega)
  omega

/-- region.py:112-144 `MemoryTlpRegion.write`: the TLPs passed to `perform_posted_operation`, in order. -/
def write (c : ReqCfg) (addr : Nat) (data : List UInt8) (attr tc : Nat := 0) : Py (List Tlp) :=
  let zero_len := data.length = 0
  let data := if zero_len then [0] else data
  if ¬ c.busMasterEnable then .error "Bus mastering not enabled"
  else .ok (writeLoop c attr tc zero_len data 0 addr)

/-- region.py:64-72: bytes requested by the next read TLP. -/
def readLen (c : ReqCfg) (addr remaining : Nat) : Nat :=
  let first_pad := addr % 4
  let byte_length := remaining
  let byte_length := if byte_length > (128 <<< c.mrrs) - first_pad then
      min byte_length ((128 <<< c.mrrs) - (addr &&& 0x7f)) else byte_length
  min byte_length (0x1000 - (addr &&& 0xfff))

theorem readLen_pos (c : ReqCfg) (addr r : Nat) (h : 0 < r) : 0 < readLen c addr r := by
  unfold readLen
  have h1 : addr &&& 0xfff ≤ 0xfff := Nat.and_le_right
  have h0 : addr &&& 0x7f ≤ 0x7f := Nat.and_le_right
  have h2 : 128 ≤ 128 <<< c.mrrs := by
    rw [Nat.shiftLeft_eq]; exact Nat.le_mul_of_pos_right _ (Nat.two_pow_pos _)
  have h3 : addr % 4 < 4 := Nat.mod_lt _ (by omega)
  simp only; split <;> omega

/-- region.py:55-76: one read request. -/
def readTlp (c : ReqCfg) (attr tc : Nat) (zero_len : Bool) (addr byte_length : Nat) : Tlp :=
  let req : Tlp := {}
  let req := if addr > 0xffffffff then req.setFmtType .MEM_READ_64 else req.setFmtType .MEM_READ
  let req := { req with requester_id := c.id, attr := attr, tc := tc }
  let req := (req.setAddrBe addr byte_length).1
  if zero_len then { req with first_be := 0 } else req

/-- region.py:54-81: the request loop of `read`: `op_list` as `(byte_length, request)` pairs. -/
def readLoop (c : ReqCfg) (attr tc : Nat) (zero_len : Bool) (length n addr : Nat) : List (Nat × Tlp) :=
  if h : n < length then
    let byte_length := readLen c addr (length - n)
    (byte_length, readTlp c attr tc zero_len addr byte_length) ::
      readLoop c attr tc zero_len length (n + byte_length) (addr + byte_length)
  else []
termination_by length - n
decreasing_by
  have := readLen_pos c addr (length - n) (by omega)
  omega

/-- region.py:86-105: consuming the completions of one request; `m` bytes already taken.
Structural on the completion list: every iteration pops one completion. -/
def consume (byte_length : Nat) : (m : Nat) → List Tlp → (data : List UInt8) → Py (List UInt8)
  | m, cpl_list, data =>
    if m < byte_length then
      match cpl_list with
      | [] => .error "Timeout"
      | cpl :: rest =>
        if cpl.status ≠ CplStatus.SC then .error "Unsuccessful completion"
        else if ¬ (cpl.byte_count + 3 + (cpl.lower_address &&& 3) ≥ cpl.length * 4) then .error "AssertionError"
        else if ¬ (cpl.byte_count = max (byte_length - m) 1) then .error "AssertionError"
        else
          let d := cpl.data
          let offset := cpl.lower_address &&& 3
          consume byte_length (m + (d.length - offset)) rest (data ++ slice d offset (offset + cpl.byte_count))
    else .ok data
termination_by _ cpl_list _ => cpl_list.length

/-- region.py:83-105: the outer loop over the operations; `op` gives what `perform_nonposted_operation` returned for
each request. -/
def consumeAll (op : Tlp → List Tlp) : List (Nat × Tlp) → List UInt8 → Py (List UInt8)
  | [], data => .ok data
  | (byte_length, req) :: rest, data => do
    consumeAll op rest (← consume byte_length 0 (op req) data)

/-- The requests issued by `MemoryTlpRegion.read` (region.py:45-81). -/
def readReqs (c : ReqCfg) (addr length : Nat) (attr tc : Nat := 0) : Py (List (Nat × Tlp)) :=
  let zero_len := length = 0
  let length := if zero_len then 1 else length
  if ¬ c.busMasterEnable then .error "Bus mastering not enabled"
  else .ok (readLoop c attr tc zero_len length 0 addr)

/-- region.py:41-110 `MemoryTlpRegion.read`; the operations run concurrently, `op` is the result of each. -/
def read (c : ReqCfg) (op : Tlp → List Tlp) (addr length : Nat) (attr tc : Nat := 0) : Py (List UInt8) := do
  let reqs ← readReqs c addr length attr tc
  let data ← consumeAll op reqs []
  if length = 0 then .ok [] else .ok (data.take length)

/-- function.py:517-541 (rc.py:274-298): the loop of `perform_nonposted_operation` on the stream of completions that
arrive for its tag; the end of the list is a timeout (`recv_cpl` returns None). The result is the collected
completions and the completions left in the queue. -/
def collect (isMemRead : Bool) : List Tlp → List Tlp × List Tlp
  | [] => ([], [])
  | cpl :: rest =>
    if cpl.status ≠ CplStatus.SC then ([cpl], rest)
    else if isMemRead then
      -- `cpl.length*4 - (cpl.lower_address & 3)` may be negative in Python: written with the offset moved left
      if cpl.byte_count + (cpl.lower_address &&& 3) ≤ cpl.length * 4 then ([cpl], rest)
      else if cpl.fmtType = some .CPL ∨ cpl.fmtType = some .CPL_LOCKED then ([cpl], rest)
      else
        let (got, left) := collect isMemRead rest
        (cpl :: got, left)
    else ([cpl], rest)

/-- The condition `req.fmt_type in {MEM_READ, MEM_READ_64}` (function.py:528). -/
def isMemRead (t : Tlp) : Bool := t.fmtType = some .MEM_READ ∨ t.fmtType = some .MEM_READ_64

end Region

namespace IoRegion

/-- region.py:171 and 219: bytes of the next I/O request. -/
def len (addr remaining : Nat) : Nat := min remaining (4 - addr % 4)

theorem len_pos (addr r : Nat) (h : 0 < r) : 0 < len addr r := by unfold len; omega

/-- region.py:166-175: one I/O read request. -/
def readTlp (c : ReqCfg) (zero_len : Bool) (addr byte_length : Nat) : Tlp :=
  let req : Tlp := {}
  let req := { req.setFmtType .IO_READ with requester_id := c.id }
  let req := (req.setAddrBe addr byte_length).1
  if zero_len then { req with first_be := 0 } else req

/-- region.py:165-180: `op_list` as `(first_pad, request)` pairs. -/
def readLoop (c : ReqCfg) (zero_len : Bool) (length n addr : Nat) : List (Nat × Tlp) :=
  if h : n < length then
    let byte_length := len addr (length - n)
    (addr % 4, readTlp c zero_len addr byte_length) ::
      readLoop c zero_len length (n + byte_length) (addr + byte_length)
  else []
termination_by length - n
decreasing_by
  have := len_pos addr (length - n) (by omega)
  omega

/-- region.py:182-194. -/
def consumeAll (op : Tlp → List Tlp) : List (Nat × Tlp) → List UInt8 → Py (List UInt8)
  | [], data => .ok data
  | (first_pad, req) :: rest, data =>
    match op req with
    | [] => .error "Timeout"
    | cpl :: _ =>
      if cpl.status ≠ CplStatus.SC then .error "Unsuccessful completion"
      else if cpl.length ≠ 1 then .error "AssertionError"
      else consumeAll op rest (data ++ cpl.data.drop first_pad)

/-- The requests issued by `IoTlpRegion.read` (region.py:156-180). -/
def readReqs (c : ReqCfg) (addr length : Nat) : Py (List (Nat × Tlp)) :=
  let zero_len := length = 0
  let length := if zero_len then 1 else length
  if ¬ c.busMasterEnable then .error "Bus mastering not enabled"
  else .ok (readLoop c zero_len length 0 addr)

/-- region.py:152-199 `IoTlpRegion.read`. -/
def read (c : ReqCfg) (op : Tlp → List Tlp) (addr length : Nat) : Py (List UInt8) := do
  let reqs ← readReqs c addr length
  let data ← consumeAll op reqs []
  if length = 0 then .ok [] else .ok (data.take length)

/-- region.py:214-223: one I/O write request. -/
def writeTlp (c : ReqCfg) (zero_len : Bool) (addr : Nat) (chunk : List UInt8) : Tlp :=
  let req : Tlp := {}
  let req := { req.setFmtType .IO_WRITE with requester_id := c.id }
  let req := req.setAddrBeData addr chunk
  if zero_len then { req with first_be := 0 } else req

/-- region.py:213-228. -/
def writeLoop (c : ReqCfg) (zero_len : Bool) (data : List UInt8) (n addr : Nat) : List Tlp :=
  if h : n < data.length then
    let byte_length := len addr (data.length - n)
    writeTlp c zero_len addr (slice data n (n + byte_length)) ::
      writeLoop c zero_len data (n + byte_length) (addr + byte_length)
  else []
termination_by data.length - n
decreasing_by
  have := len_pos addr (data.length - n) (by omega)
  omega

/-- The requests issued by `IoTlpRegion.write` (region.py:204-228). -/
def writeReqs (c : ReqCfg) (addr : Nat) (data : List UInt8) : Py (List Tlp) :=
  let zero_len := data.length = 0
  let data := if zero_len then [0] else data
  if ¬ c.busMasterEnable then .error "Bus mastering not enabled"
  else .ok (writeLoop c zero_len data 0 addr)

/-- region.py:230-236: checking the results of the writes (the list of completions each operation returned). -/
def checkAll : List (List Tlp) → Py Unit
  | [] => .ok ()
  | cpl_list :: rest =>
    match cpl_list with
    | [] => .error "Timeout"
    | cpl :: _ => if cpl.status ≠ CplStatus.SC then .error "Unsuccessful completion" else checkAll rest

end IoRegion
end Pcie
