/-
Configuration requests: the root complex as requester (rc.py:565-646) and a function as completer (function.py:547-600).
-/
import Verif.Model.System
import Verif.Model.Config
namespace Pcie
namespace Cfg

/-- rc.py:570-577: one configuration read request. -/
def readTlp (dev : PcieId) (addr byte_length : Nat) : Tlp :=
  let req : Tlp := {}
  let req := { req.setFmtType .CFG_READ_1 with requester_id := ⟨0, 0, 0⟩, completer_id := dev }
  (req.setAddrBe addr byte_length).1

/-- rc.py:569-602: the requests of `config_read`, each with its `first_pad`. They do not depend on the answers. -/
def readReqs (dev : PcieId) (length n addr : Nat) : List (Nat × Tlp) :=
  if h : n < length then
    let byte_length := IoRegion.len addr (length - n)
    (addr % 4, readTlp dev addr byte_length) :: readReqs dev length (n + byte_length) (addr + byte_length)
  else []
termination_by length - n
decreasing_by
  have := IoRegion.len_pos addr (length - n) (by omega)
  omega

/-- rc.py:581-597: the dword `d` taken from the collected completions. `ingress` is `ingress_port` of the first
completion: `none` when unset, otherwise its `crs_software_visibility_enable`. -/
def dword (req : Tlp) (cpls : List Tlp) (ingress : Option Bool) : Py (List UInt8) :=
  match cpls with
  | [] => .ok [0xff, 0xff, 0xff, 0xff]
  | c :: _ =>
    if c.status = CplStatus.CRS ∧ req.address = 0 ∧ ingress.isSome then
      if ingress = some true then .ok [0x01, 0x00, 0xff, 0xff] else .ok [0xff, 0xff, 0xff, 0xff]
    else if c.status ≠ CplStatus.SC then .ok [0xff, 0xff, 0xff, 0xff]
    else if c.length ≠ 1 then .error "AssertionError"
    else .ok c.data

/-- The rest of the system, as seen by the root complex: what `perform_nonposted_operation` returns for a request in
state `W` (collected completions, and `ingress_port` as in `dword`), and the state afterwards. -/
abbrev Op (W : Type) := W → Tlp → W × List Tlp × Option Bool

/-- rc.py:579-602: perform the requests one after the other and accumulate the data. -/
def readAll {W : Type} (op : Op W) : W → List (Nat × Tlp) → List UInt8 → Py (W × List UInt8)
  | w, [], data => .ok (w, data)
  | w, (first_pad, req) :: rest, data =>
    let (w, cpls, ingress) := op w req
    match dword req cpls ingress with
    | .error e => .error e
    | .ok d => readAll op w rest (data ++ d.drop first_pad)

/-- rc.py:565-603 `RootComplex.config_read`. -/
def read {W : Type} (op : Op W) (w : W) (dev : PcieId) (addr length : Nat) : Py (W × List UInt8) :=
  match readAll op w (readReqs dev length 0 addr) [] with
  | .error e => .error e
  | .ok (w, data) => .ok (w, data.take length)

/-- rc.py:634-641: one configuration write request. -/
def writeTlp (dev : PcieId) (addr : Nat) (chunk : List UInt8) : Tlp :=
  let req : Tlp := {}
  let req := { req.setFmtType .CFG_WRITE_1 with requester_id := ⟨0, 0, 0⟩, completer_id := dev }
  req.setAddrBeData addr chunk

/-- rc.py:633-646: the requests of `config_write`. -/
def writeReqs (dev : PcieId) (data : List UInt8) (n addr : Nat) : List Tlp :=
  if h : n < data.length then
    let byte_length := IoRegion.len addr (data.length - n)
    writeTlp dev addr (slice data n (n + byte_length)) :: writeReqs dev data (n + byte_length) (addr + byte_length)
  else []
termination_by data.length - n
decreasing_by
  have := IoRegion.len_pos addr (data.length - n) (by omega)
  omega

/-- rc.py:630-646 `RootComplex.config_write`: the completions are ignored. -/
def write {W : Type} (op : Op W) (w : W) (dev : PcieId) (addr : Nat) (data : List UInt8) : W :=
  (writeReqs dev data 0 addr).foldl (fun w req => (op w req).1) w

/-- `struct.pack('<L', v)`. -/
def packLE (v : Nat) : Py (List UInt8) :=
  if v < 2 ^ 32 then
    .ok [UInt8.ofNat v, UInt8.ofNat (v >>> 8), UInt8.ofNat (v >>> 16), UInt8.ofNat (v >>> 24)]
  else .error "struct.error"

/-- `struct.unpack('<L', d)`: the buffer must be exactly four bytes. -/
def unpackLE (d : List UInt8) : Py Nat :=
  match d with
  | [a, b, c, d] => .ok (a.toNat ||| b.toNat <<< 8 ||| c.toNat <<< 16 ||| d.toNat <<< 24)
  | _ => .error "struct.error"

/-- A function as a configuration completer: its ID and its registers. -/
structure Fn (σ : Type) where
  id : PcieId
  regs : σ

/-- function.py:547-572 `handle_config_0_read_tlp`: the function afterwards and the completion sent. -/
def Fn.handleRead {σ} (ops : CapOps σ) (f : Fn σ) (t : Tlp) : Py (Fn σ × List Tlp) :=
  if t.completer_id.device = f.id.device ∧ t.completer_id.function = f.id.function then
    let f := if f.id.bus ≠ t.completer_id.bus then { f with id := { f.id with bus := t.completer_id.bus } } else f
    match packLE (ops.read f.regs (t.address >>> 2)) with
    | .error e => .error e
    | .ok d => .ok (f, [{ (t.createCompletionData f.id).setData d with byte_count := 4 }])
  else .ok (f, [t.createUr f.id])

/-- function.py:574-600 `handle_config_0_write_tlp`. -/
def Fn.handleWrite {σ} (ops : CapOps σ) (f : Fn σ) (t : Tlp) : Py (Fn σ × List Tlp) :=
  if t.completer_id.device = f.id.device ∧ t.completer_id.function = f.id.function then
    let f := if f.id.bus ≠ t.completer_id.bus then { f with id := { f.id with bus := t.completer_id.bus } } else f
    match unpackLE t.data with
    | .error e => .error e
    | .ok d =>
      let f := { f with regs := ops.write f.regs (t.address >>> 2) d t.first_be }
      .ok (f, [t.createCompletion f.id])
  else .ok (f, [t.createUr f.id])

/-- The type 1 request as the bridge above the target bus hands it down: type 0 (bridge.py:341-347), with the tag that
the root complex assigned (rc.py:268). -/
def toType0 (tag : Nat) (t : Tlp) : Tlp :=
  let t := { t with tag := tag }
  if t.fmtType = some .CFG_READ_1 then t.setFmtType .CFG_READ_0
  else if t.fmtType = some .CFG_WRITE_1 then t.setFmtType .CFG_WRITE_0 else t

/-- A function reached through bridges that route the request to it and the completion back. An exception in its handler
means that no completion is sent. -/
def Fn.op {σ} (ops : CapOps σ) (tag : Tlp → Nat) : Op (Fn σ) := fun f t =>
  let t0 := toType0 (tag t) t
  let r := if t0.fmtType = some .CFG_READ_0 then f.handleRead ops t0
    else if t0.fmtType = some .CFG_WRITE_0 then f.handleWrite ops t0
    else .ok (f, [])
  match r with
  | .error _ => (f, [], none)
  | .ok (f, cpls) => (f, (Region.collect (Region.isMemRead t) cpls).1, none)

end Cfg
end Pcie
