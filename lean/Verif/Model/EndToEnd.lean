/-
The whole system: the hierarchy of `Model/Fabric.lean` with the memories behind it, and memory and I/O accesses from one end
to the other: the requests of a transfer (region.py), their way through the switches, the handlers of the completer, and the
way of the completions back to the operation that waits for them.

Simplification: a request is followed with its completions before the next one; links, queues and tags, which keep the
requests of concurrent operations apart, are modelled in `Port`, `SwitchArb` and `Tag`. Only `mmap` regions of memory
endpoints are modelled (`Model/Completer.lean`); bridges have no handlers for memory and I/O requests (bridge.py:52-53).
-/
import Verif.Model.System
import Verif.Model.Fabric
namespace Pcie
variable {σ : Type}

/-- Who makes an access: the root complex, or function `k` of the device at `path`. -/
inductive Agent where
  | root
  | fn (path : List Nat) (k : Nat)
deriving DecidableEq, Repr

/-- The system: the hierarchy; the settings and the address spaces of the root complex (rc.py:98-99); the regions of the memory
endpoints (endpoint.py:171) and their maximum payload sizes. -/
structure Sys (σ : Type) where
  net : Node σ
  cfg : CplCfg := {}
  mem : AddrSpace
  io : AddrSpace
  regions : List Nat → Nat → List (Option Buf)
  mps : List Nat → Nat → Nat := fun _ _ => 0

/-- Function `k` of the device at `path`. -/
def Node.fn? : Node σ → List Nat → Nat → Option (EpFn σ)
  | .dev _ fns, [], k => fns[k]?
  | .sw _ ports, j :: path, k =>
    match ports.list[j]? with
    | some (_, n) => n.fn? path k
    | Option.none => Option.none
  | _, _, _ => Option.none

/-- What is done to the component at `path` has its end below it. -/
def Node.within : Node σ → (path : List Nat) → (start : Node σ → Py Fate) → Py Fate
  | n, [], start => start n
  | .sw _ ports, j :: path, start =>
    match ports.list[j]? with
    | Option.none => .error "unreachable"
    | some (_, n) =>
      match n.within path start with
      | .error e => .error e
      | .ok f => .ok (f.under j)
  | _, _ :: _, _ => .error "unreachable"

/-- bridge.py:303-314: the bridge of downstream port `j` of the switch at `path` sends a TLP on its link. -/
def Node.sendDown (n : Node σ) (path : List Nat) (j : Nat) (t : Tlp) : Py Fate :=
  n.within path fun
    | .sw _ ports =>
      match ports.list[j]? with
      | some (_, m) =>
        match m.recv t.copy with
        | .error e => .error e
        | .ok f => .ok (f.under j)
      | Option.none => .error "unreachable"
    | _ => .error "unreachable"

/-- switch.py:222-225: the switch at `path` answers on its downstream port `j`: `upstream_recv` of the bridge of the port. -/
def Node.answerDown (n : Node σ) (path : List Nat) (j : Nat) (t : Tlp) : Py Fate :=
  n.within path fun
    | .sw _ ports => ports.recv 0 j t
    | _ => .error "unreachable"

namespace Sys

/-- The memory endpoint at `path`, as its handlers see it (endpoint.py:169-182). -/
def ep (s : Sys σ) (path : List Nat) (k : Nat) (f : EpFn σ) : MemEp :=
  { bars := f.bars, regions := s.regions path k, id := f.id, mps := s.mps path k }

/-- The system with other regions in one endpoint. -/
def put (s : Sys σ) (path : List Nat) (k : Nat) (r : List (Option Buf)) : Sys σ :=
  { s with regions := fun p j => if p = path ∧ j = k then r else s.regions p j }

/-- rc.py:201-220: the root complex gets a request: the system afterwards and the completions. -/
def rootGets (s : Sys σ) (t : Tlp) : Py (Sys σ × List Tlp) :=
  match t.fmtType with
  | some .MEM_READ | some .MEM_READ_64 => .ok (s, Rc.handleMemRead s.cfg s.mem t)
  | some .MEM_WRITE | some .MEM_WRITE_64 => .ok ({ s with mem := Rc.handleMemWrite s.mem t }, [])
  | some .IO_READ => do .ok (s, ← Rc.handleIoRead s.cfg.id s.io t)
  | some .IO_WRITE => do
    let (io, cpls) ← Rc.handleIoWrite s.cfg.id s.io t
    .ok ({ s with io := io }, cpls)
  | _ => .error "Unhandled TLP"

/-- function.py:451-463, endpoint.py:175-182: a memory endpoint gets a request. -/
def fnGets (s : Sys σ) (path : List Nat) (k : Nat) (f : EpFn σ) (t : Tlp) : Py (Sys σ × List Tlp) :=
  match t.fmtType with
  | some .MEM_READ | some .MEM_READ_64 => do .ok (s, ← (s.ep path k f).handleMemRead t)
  | some .MEM_WRITE | some .MEM_WRITE_64 => do
    let e ← (s.ep path k f).handleMemWrite t
    .ok (s.put path k e.regions, [])
  | some .IO_READ => do .ok (s, ← (s.ep path k f).handleIoRead t)
  | some .IO_WRITE => do
    let (e, cpls) ← (s.ep path k f).handleIoWrite t
    .ok (s.put path k e.regions, cpls)
  | _ => .error "not modelled"

/-- What happens where the way of a request ends: the system afterwards, and what becomes of the completions. -/
def settle (s : Sys σ) : Fate → Py (Sys σ × List (Py Fate))
  | .exit t => do
    let (s', cs) ← s.rootGets t
    .ok (s', cs.map s.net.recv)
  | .fn path k [.release, .handler t] =>
    match s.net.fn? path k with
    | some f => do
      let (s', cs) ← s.fnGets path k f t
      .ok (s', cs.map (s.net.send path))
    | none => .error "unreachable"
  | .dev path [.release, .up c] => .ok (s, [s.net.send path c])
  | .up path [.release, .up c] => .ok (s, [s.net.send path c])
  | .port path j [.release, .up c] => .ok (s, [s.net.sendPort path j c])
  | .port path j [.release, .down c] => .ok (s, [s.net.sendDown path j c])
  | .refused path 0 cs => .ok (s, cs.map (s.net.answerUp path))
  | .refused path (j + 1) cs => .ok (s, cs.map (s.net.answerDown path j))
  | _ => .ok (s, [])

/-- rc.py:206-208, function.py:452-455: the completion if it gets to the agent. -/
def arrived : Agent → Py Fate → Option Tlp
  | .root, .ok (.exit c) =>
    match c.fmtType with
    | some .CPL | some .CPL_DATA | some .CPL_LOCKED | some .CPL_LOCKED_DATA => some c
    | _ => none
  | .fn path k, .ok (.fn path' k' [.queue c]) => if path = path' ∧ k = k' then some c else none
  | _, _ => none

/-- rc.py:196-199, function.py:427-431: the agent sends a TLP. -/
def emit (n : Node σ) : Agent → Tlp → Py Fate
  | .root, t => n.recv t
  | .fn path _, t => n.send path t

/-- A request of the agent: the system afterwards, and the completions that are put into the queue of its tag
(rc.py:206-208), in order. -/
def request (s : Sys σ) (a : Agent) (t : Tlp) : Py (Sys σ × List Tlp) := do
  let fate ← emit s.net a t
  let (s', fs) ← s.settle fate
  .ok (s', (fs.filterMap (arrived a)).filter fun c => c.tag = t.tag)

/-- function.py:510-545, rc.py:267-302 `perform_nonposted_operation` for a request that changes nothing; `tag` is the tag that
it gets. If a component raises an exception, no completion comes. -/
def op (s : Sys σ) (a : Agent) (tag : Tlp → Nat) (t : Tlp) : List Tlp :=
  match s.request a { t with tag := tag t } with
  | .ok (_, cs) => (Region.collect (Region.isMemRead t) cs).1
  | .error _ => []

/-- region.py:41-110 `MemoryTlpRegion.read` of the agent. -/
def memRead (s : Sys σ) (a : Agent) (c : ReqCfg) (tag : Tlp → Nat) (addr length : Nat) (attr tc : Nat := 0) : Py (List UInt8) :=
  Region.read c (s.op a tag) addr length attr tc

/-- region.py:112-144 `MemoryTlpRegion.write` of the agent. -/
def memWrite (s : Sys σ) (a : Agent) (c : ReqCfg) (addr : Nat) (data : List UInt8) (attr tc : Nat := 0) : Py (Sys σ) := do
  let tlps ← Region.write c addr data attr tc
  tlps.foldlM (fun s t => do .ok (← s.request a t).1) s

/-- region.py:152-199 `IoTlpRegion.read` of the agent. -/
def ioRead (s : Sys σ) (a : Agent) (c : ReqCfg) (tag : Tlp → Nat) (addr length : Nat) : Py (List UInt8) :=
  IoRegion.read c (s.op a tag) addr length

/-- The I/O write requests one after the other; what each operation returned. -/
def ioWriteAll (a : Agent) (tag : Tlp → Nat) : Sys σ → List Tlp → Py (Sys σ × List (List Tlp))
  | s, [] => .ok (s, [])
  | s, t :: ts => do
    let (s, cpls) ← s.request a { t with tag := tag t }
    let (s, r) ← ioWriteAll a tag s ts
    .ok (s, (Region.collect (Region.isMemRead t) cpls).1 :: r)

/-- region.py:201-236 `IoTlpRegion.write` of the agent. -/
def ioWrite (s : Sys σ) (a : Agent) (c : ReqCfg) (tag : Tlp → Nat) (addr : Nat) (data : List UInt8) : Py (Sys σ) := do
  let reqs ← IoRegion.writeReqs c addr data
  let (s', rs) ← ioWriteAll a tag s reqs
  IoRegion.checkAll rs
  .ok s'

end Sys
end Pcie
