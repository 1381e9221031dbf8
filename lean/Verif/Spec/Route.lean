/-
Specification: where TLPs are addressed to (PCI Express base specification 2.2 and 2.3), and who they are for.
-/
import Verif.Model.Route
namespace Pcie.Spec
open Pcie

/-- What a TLP is routed by. -/
inductive Target where
  | cfg0 (id : PcieId)
  | cfg1 (id : PcieId)
  | cpl (id : PcieId)
  | io (addr : Nat)
  | mem (addr : Nat)
deriving DecidableEq, Repr

/-- The target of a TLP of type `ty`; `none`: messages, locked reads, atomic operations and prefixes. -/
def target (t : Tlp) : TlpType → Option Target
  | .CFG_READ_0 | .CFG_WRITE_0 => some (.cfg0 t.completer_id)
  | .CFG_READ_1 | .CFG_WRITE_1 => some (.cfg1 t.completer_id)
  | .CPL | .CPL_DATA | .CPL_LOCKED | .CPL_LOCKED_DATA => some (.cpl t.requester_id)
  | .IO_READ | .IO_WRITE => some (.io t.address)
  | .MEM_READ | .MEM_READ_64 | .MEM_WRITE | .MEM_WRITE_64 => some (.mem t.address)
  | _ => none

/-- Requests that need a completion. -/
def NonPosted : TlpType → Bool
  | .MEM_READ | .MEM_READ_64 | .IO_READ | .IO_WRITE | .CFG_READ_0 | .CFG_WRITE_0 | .CFG_READ_1 | .CFG_WRITE_1 => true
  | _ => false

/-- Completions. -/
def Completion : TlpType → Bool
  | .CPL | .CPL_DATA | .CPL_LOCKED | .CPL_LOCKED_DATA => true
  | _ => false

/-- The address is decoded by one of the base address registers (see C28). -/
def Decodes (bars : List BarReg) (io : Bool) (addr : Nat) : Prop := ∃ hit, matchBar bars addr io = .ok (some hit)

/-- The registers do not end with half a 64-bit BAR, so that decoding never raises. -/
def GoodBars (bars : List BarReg) : Prop := ∀ addr io, ∃ r, matchBar bars addr io = .ok r

/-- The target is a function with this ID and these base address registers. -/
def ForFn (id : PcieId) (bars : List BarReg) : Target → Prop
  | .cfg0 i => i.device = id.device ∧ i.function = id.function
  | .cfg1 _ => False
  | .cpl i => i = id
  | .io addr => Decodes bars true addr
  | .mem addr => Decodes bars false addr

/-- The ID is on one of the buses behind the bridge. 0:0.0 is the root complex, wherever one looks from. -/
def BusBehind {σ} (b : BrFn σ) (i : PcieId) : Prop := b.secBus ≤ i.bus ∧ i.bus ≤ b.subBus ∧ i ≠ ⟨0, 0, 0⟩

/-- The target is behind the bridge: in one of its windows, or on one of its buses. -/
def ForSecondary {σ} (b : BrFn σ) : Target → Prop
  | .cfg0 _ => False
  | .cfg1 i => BusBehind b i
  | .cpl i => BusBehind b i
  | .io addr => b.ioBase ≤ addr ∧ addr ≤ b.ioLimit
  | .mem addr => (b.memBase ≤ addr ∧ addr ≤ b.memLimit) ∨ (b.prefBase ≤ addr ∧ addr ≤ b.prefLimit)

/-- Whether a TLP that the bridge itself makes is for the secondary side, including messages: by ID, to all, or to the root complex, to the receiver, gathered; `none`: no
route is defined. -/
def SendsDown {σ} (b : BrFn σ) (t : Tlp) (ty : TlpType) : Option Prop :=
  match target t ty with
  | some tg => some (ForSecondary b tg)
  | none => match ty with
    | .MSG_ID | .MSG_DATA_ID => some (BusBehind b t.completer_id)
    | .MSG_BCAST | .MSG_DATA_BCAST => some True
    | .MSG_TO_RC | .MSG_DATA_TO_RC | .MSG_LOCAL | .MSG_DATA_LOCAL | .MSG_GATHER | .MSG_DATA_GATHER => some False
    | _ => none

/-- `cpl` is the unsupported request completion for `t`. -/
structure IsUr (cpl t : Tlp) (completer : PcieId) : Prop where
  kind : cpl.fmtType = some .CPL
  status : cpl.status = 1
  requester : cpl.requester_id = t.requester_id
  tag : cpl.tag = t.tag
  completer : cpl.completer_id = completer
  tc : cpl.tc = t.tc
  attr : cpl.attr = t.attr
  length : cpl.length = 0
  data : cpl.data = []

/-- What happens to a TLP that nobody takes: its credits are released, and a non-posted request is answered with one
unsupported request completion. `send` is the direction in which the answer is sent. -/
def Dropped (send : Tlp → Eff) (ty : TlpType) (t : Tlp) (completer : PcieId) (es : List Eff) : Prop :=
  if NonPosted ty then ∃ cpl, IsUr cpl t completer ∧ es = [.release, send cpl] else es = [.release]

/-- A TLP is taken by a function: a completion is queued for the operation that waits for it (which releases its credits
when it takes it from the queue), a request is released and passed to its handler. -/
def Taken (ty : TlpType) (t : Tlp) (es : List Eff) : Prop :=
  if Completion ty then es = [.queue t] else es = [.release, .handler t]

/-- `t'` is the TLP as the bridge hands it down: a type 1 configuration request for the secondary bus itself becomes a type 0
request with the same content, everything else is unchanged. -/
def Relayed (sec : Nat) (ty : TlpType) (t t' : Tlp) : Prop :=
  if (ty = .CFG_READ_1 ∨ ty = .CFG_WRITE_1) ∧ t.completer_id.bus = sec then
    t'.fmtType = some (if ty = .CFG_READ_1 then .CFG_READ_0 else .CFG_WRITE_0) ∧ { t' with fmt := t.fmt, type := t.type } = t
  else t' = t

/-- A switch port takes a TLP: it is for the port's bridge itself, or behind a downstream port, or not behind the upstream
port. -/
def PortTakes {σ} (p : SwPort σ) (tg : Target) : Prop :=
  ForFn p.bridge.id p.bridge.bars tg ∨ (if p.upstream then ¬ ForSecondary p.bridge tg else ForSecondary p.bridge tg)

/-- The function is prepared for the TLP: the type has a handler, a completion tag is below 256. -/
def Prepared (handlers : List TlpType) (ty : TlpType) (t : Tlp) : Prop :=
  if Completion ty then t.tag < 256 else ty ∈ handlers

/-- The bus number of a device after it got the TLP: a device learns it from type 0 configuration requests. -/
def busAfter (bus : Nat) : Target → Nat
  | .cfg0 i => i.bus
  | _ => bus

/-- A switch as the enumeration leaves it: the first port is the upstream port, every range of a downstream port lies in a
range of the upstream port, and the ranges of different downstream ports do not overlap. -/
structure SwitchOk {σ} (ports : List (SwPort σ)) : Prop where
  bars : ∀ p ∈ ports, GoodBars p.bridge.bars
  root : ∀ p ∈ ports, p.bridge.root = false
  up : ∀ p, ports[0]? = some p → p.upstream = true
  down : ∀ j p, 0 < j → ports[j]? = some p → p.upstream = false
  nested : ∀ j p p0 tg, 0 < j → ports[j]? = some p → ports[0]? = some p0 → ForSecondary p.bridge tg → ForSecondary p0.bridge tg
  disjoint : ∀ i j p q tg, 0 < i → 0 < j → i ≠ j → ports[i]? = some p → ports[j]? = some q →
    ForSecondary p.bridge tg → ¬ ForSecondary q.bridge tg

end Pcie.Spec
