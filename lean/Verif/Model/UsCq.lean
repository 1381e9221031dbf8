import Verif.Model.UsTlp
import Verif.Model.Route
/-
Model of the completer side of the Xilinx hard IP models (xilinx/us/us_model.py, xilinx/us/usp_model.py): which requests from the link are handed to the user, with which
base address register, and the credits for non-posted requests. The line numbers are those of us_model.py; usp_model.py has the same code (usp_model.py:912-1086
`upstream_recv`, 1117-1153 `_run_cq_logic`).
-/
namespace Pcie

/-- us_model.py:328-358: the device as far as requests from the link are concerned; `enable` is `config_space_enable`. -/
structure UsDev extends Dev where
  enable : Bool := true
deriving DecidableEq, Repr

/-- What becomes of a request: the function with this position gets it, it is put into the queue for the user, it is answered, or dropped. -/
inductive CqFate where
  | function (k : Nat) (es : List Eff)
  | user (u : UsTlp)
  | answer (c : Tlp)
  | drop
deriving DecidableEq, Repr

namespace UsDev

/-- us_model.py:888-890, 912-914: the first function with a base address register that matches: its position and the number of the register. -/
def findBar (io : Bool) (addr : Nat) : Nat → List RFn → Py (Option (Nat × Nat))
  | _, [] => .ok none
  | k, f :: rest =>
    match matchBar f.bars addr io with
    | .error e => .error e
    | .ok (some (idx, _)) => .ok (some (k, idx))
    | .ok none => findBar io addr (k + 1) rest

/-- us_model.py:897 and 923: `(~self.functions[0].bar_mask[idx] & 0xffffffff).bit_length()`. -/
def aperture32 (bars : List BarReg) (idx : Nat) : Py Nat :=
  match bars[idx]? with
  | none => .error "IndexError"
  | some b => .ok (bitLength (andNot 0xffffffff b.mask))

/-- us_model.py:919-923: the aperture of a memory register. -/
def apertureMem (bars : List BarReg) (idx : Nat) : Py Nat :=
  match bars[idx]? with
  | none => .error "IndexError"
  | some b =>
    if b.val &&& 4 ≠ 0 then
      match bars[idx + 1]? with
      | none => .error "IndexError"
      | some b2 => .ok (bitLength (andNot 0xffffffffffffffff (b.mask ||| b2.mask <<< 32)))
    else .ok (bitLength (andNot 0xffffffff b.mask))

/-- `self.functions[0]`. -/
def bars0 (d : UsDev) : List BarReg :=
  match d.fns with
  | [] => []
  | f :: _ => f.bars

/-- us_model.py:938-942: the answer to an unsupported request, 774-782: the one of a device that is not configurable yet. `upstream_send` (device.py:157-160) checks it. -/
def answered (d : UsDev) (c : Tlp) : Py (UsDev × CqFate) :=
  match assertCheck c with
  | .error e => .error e
  | .ok () => .ok (d, .answer c)

/-- us_model.py:886-905: an I/O request. -/
def recvIo (d : UsDev) (t : Tlp) : Py (UsDev × CqFate) :=
  match findBar true t.address 0 d.fns with
  | .error e => .error e
  | .ok (some (k, idx)) =>
    match aperture32 d.bars0 idx, d.fns[k]? with
    | .error e, _ => .error e
    | .ok _, none => .error "unreachable"
    | .ok a, some f =>
      .ok (d, .user { tlp := { t.copy with completer_id := f.id }, barId := idx, barAperture := a })
  | .ok none => d.answered (t.createUr ⟨d.bus, 0, 0⟩)

/-- us_model.py:908-935: a memory request. -/
def recvMem (d : UsDev) (t : Tlp) : Py (UsDev × CqFate) :=
  match findBar false t.address 0 d.fns with
  | .error e => .error e
  | .ok (some (_, idx)) =>
    match apertureMem d.bars0 idx with
    | .error e => .error e
    | .ok a =>
      .ok (d, .user { tlp := { t.copy with completer_id := { t.completer_id with bus := d.bus } }, barId := idx, barAperture := a })
  | .ok none =>
    if t.fmtType = some .MEM_WRITE ∨ t.fmtType = some .MEM_WRITE_64 then .ok (d, .drop)
    else d.answered (t.createUr ⟨d.bus, 0, 0⟩)

/-- us_model.py:789-792: the function with this ID. -/
def findId (id : PcieId) : Nat → List RFn → Option Nat
  | _, [] => none
  | k, f :: rest => if f.id = id then some k else findId id (k + 1) rest

/-- us_model.py:771-796: a configuration request of type 0. -/
def recvCfg (d : UsDev) (t : Tlp) : Py (UsDev × CqFate) :=
  if d.enable then
    let d := { d with toDev := d.toDev.setBus t.completer_id.bus }
    match findId t.completer_id 0 d.fns with
    | none => d.answered (t.createUr ⟨d.bus, 0, 0⟩)
    | some k =>
      match d.fns[k]? with
      | none => .error "unreachable"
      | some f => match f.upstreamRecv t with
        | .error e => .error e
        | .ok (f, es) => .ok ({ d with fns := d.fns.set k f }, .function k es)
  else d.answered (t.createCrs ⟨d.bus, 0, 0⟩)

/-- us_model.py:768-942 `upstream_recv` without completions, which are modelled in `Hip.cplRecv`: for them, `none`. -/
def recv (d : UsDev) (t : Tlp) : Option (Py (UsDev × CqFate)) :=
  match t.fmtType with
  | none => some (.error "ValueError")
  | some ty =>
    if ty.isCfg0 then some (d.recvCfg t)
    else if ty.isCfg1 then some (d.answered (t.createUr ⟨d.bus, 0, 0⟩))
    else if ty.isCpl then none
    else if ty.isIo then some (d.recvIo t)
    else if ty.isMem then some (d.recvMem t)
    else some (.error "TODO")

end UsDev

/-- Where `_run_cq_logic` is: waiting for the clock, or waiting until the streaming interface takes a request, in the first or in the second loop. -/
inductive CqSt where
  | idle
  | draining (u : UsTlp) (f : UsFrame)
  | serving (u : UsTlp) (f : UsFrame)
deriving DecidableEq, Repr

/-- What can be seen from outside (a history, not part of the code): a request arrived that is for the user, `pcie_cq_np_req` was high at a clock edge, a frame was handed to
the streaming interface. -/
inductive CqObs where
  | arrived (u : UsTlp)
  | granted
  | sent (u : UsTlp) (f : UsFrame)
deriving DecidableEq, Repr

/-- us_model.py:331-333: the queues and the credit count; `out` is the output `pcie_cq_np_req_count`. -/
structure Cq where
  dev : UsDev := {}
  queue : List UsTlp := []
  npq : List UsTlp := []
  count : Nat := 0
  st : CqSt := .idle
  out : Nat := 0
  hist : List CqObs := []
deriving DecidableEq, Repr

namespace Cq

/-- us_model.py:998: the test for a non-posted request. -/
def isNp (u : UsTlp) : Bool :=
  u.tlp.fmtType = some .IO_READ ∨ u.tlp.fmtType = some .IO_WRITE ∨ u.tlp.fmtType = some .MEM_READ ∨ u.tlp.fmtType = some .MEM_READ_64

/-- us_model.py:995-1013: the second loop, until it waits. The second argument is the part of `cq_queue` that is left. -/
def serve (s : Cq) : List UsTlp → Py Cq
  | [] => .ok { s with queue := [], st := .idle, out := s.count }
  | u :: rest =>
    if isNp u then
      if 0 < s.count then
        match u.packCq with
        | .error e => .error e
        | .ok f => .ok { s with queue := rest, count := s.count - 1, st := .serving u f }
      else serve { s with npq := s.npq ++ [u] } rest
    else
      match u.packCq with
      | .error e => .error e
      | .ok f => .ok { s with queue := rest, st := .serving u f }

/-- us_model.py:989-992: the first loop, until it waits, and what follows. -/
def drain (s : Cq) : Py Cq :=
  match s.npq with
  | [] => s.serve s.queue
  | u :: rest =>
    if 0 < s.count then
      match u.packCq with
      | .error e => .error e
      | .ok f => .ok { s with npq := rest, count := s.count - 1, st := .draining u f }
    else s.serve s.queue

end Cq

/-- What can happen, each an uninterrupted stretch of one task. -/
inductive CqEv where
  /-- a TLP that is not a completion arrives from the link -/
  | recv (t : Tlp)
  /-- a clock edge with this value of `pcie_cq_np_req` (`true` if there is no such signal) -/
  | clock (npReq : Bool)
  /-- the streaming interface takes the frame -/
  | taken
  /-- the configuration of the device is changed -/
  | cfg (d : UsDev)
deriving DecidableEq, Repr

namespace Cq

/-- One stretch; `none` means that it cannot happen in this state. us_model.py:768-942, 977-1013. Simplification: the task always waits for the streaming interface,
although `send` returns at once if there is room; so the model has more interleavings. -/
def step (s : Cq) : CqEv → Option (Py Cq)
  | .recv t =>
    match s.dev.recv t with
    | none => none
    | some (.error e) => some (.error e)
    | some (.ok (d, .user u)) => some (.ok { s with dev := d, queue := s.queue ++ [u], hist := s.hist ++ [.arrived u] })
    | some (.ok (d, _)) => some (.ok { s with dev := d })
  | .clock npReq =>
    let s := if npReq then { s with hist := s.hist ++ [.granted] } else s
    match s.st with
    | .idle => some (drain { s with count := if npReq then min (s.count + 1) 32 else s.count })
    | _ => some (.ok s)
  | .taken =>
    match s.st with
    | .idle => none
    | .draining u f => some (drain { s with st := .idle, hist := s.hist ++ [.sent u f] })
    | .serving u f => some (serve { s with st := .idle, hist := s.hist ++ [.sent u f] } s.queue)
  | .cfg d => some (.ok { s with dev := d })

/-- A history. -/
def run (s : Cq) : List CqEv → Option (Py Cq)
  | [] => some (.ok s)
  | e :: es => match s.step e with
    | none => none
    | some (.error x) => some (.error x)
    | some (.ok s) => s.run es

end Cq
end Pcie
