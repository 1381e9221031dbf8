/-
Specification: a hierarchy of switches and devices whose registers are set up.
-/
import Verif.Spec.Route
import Verif.Spec.Scan
import Verif.Spec.Enum
import Verif.Model.Enumerate
namespace Pcie.Spec
open Pcie
variable {σ : Type}

/-- `f` is function `k` of the device at `path`. -/
inductive FnAt : Node σ → (path : List Nat) → (k : Nat) → EpFn σ → Prop
  | dev {bus fns k f} : fns[k]? = some f → FnAt (.dev bus fns) [] k f
  | sw {up ports j b n path k f} : ports.list[j]? = some (b, n) → FnAt n path k f → FnAt (.sw up ports) (j :: path) k f

/-- `m` is what is connected at `path`. -/
inductive NodeAt : Node σ → List Nat → Node σ → Prop
  | here {n} : NodeAt n [] n
  | sw {up ports j b n path m} : ports.list[j]? = some (b, n) → NodeAt n path m → NodeAt (.sw up ports) (j :: path) m

/-- `b` is a bridge of the hierarchy. -/
inductive BrIn : Node σ → BrFn σ → Prop
  | up {up ports} : BrIn (.sw up ports) up
  | port {up ports b n} : (b, n) ∈ ports.list → BrIn (.sw up ports) b
  | deeper {up ports b n b'} : (b, n) ∈ ports.list → BrIn n b' → BrIn (.sw up ports) b'

/-- Requests to addresses and completions, which no bridge changes. -/
def Routed : Target → Prop
  | .io _ | .mem _ | .cpl _ => True
  | .cfg0 _ | .cfg1 _ => False

/-- The target is this function. -/
def EpFn.For (f : EpFn σ) (tg : Target) : Prop := ForFn f.id f.bars tg

/-- The registers are set up for this target: not two functions of a device decode the address or have the ID; if what has
it is behind a downstream port of a switch, it is in the ranges of the bridge of the port, which are also in those of the
upstream bridge; it is in the ranges of one port only. The host bridge (`root`) can only be at the top. -/
inductive Configured (tg : Target) : Node σ → Prop
  | none : Configured tg .none
  | dev (bus fns) : (∀ f ∈ fns, GoodBars f.bars) → (fns.Pairwise fun f g => ¬ (EpFn.For f tg ∧ EpFn.For g tg)) →
      Configured tg (.dev bus fns)
  | sw (up ports) : GoodBars up.bars →
      (∀ x ∈ ports.list, GoodBars x.1.bars ∧ x.1.root = false) →
      (∀ x ∈ ports.list, ForSecondary x.1 tg → ForSecondary up tg) →
      (ports.list.Pairwise fun x y => ¬ (ForSecondary x.1 tg ∧ ForSecondary y.1 tg)) →
      (∀ x ∈ ports.list, ∀ path k f, FnAt x.2 path k f → EpFn.For f tg → ForSecondary x.1 tg) →
      (∀ x ∈ ports.list, ∀ u ps, x.2 = .sw u ps → u.root = false ∧ (ForSecondary u tg → ForSecondary x.1 tg)) →
      (∀ x ∈ ports.list, Configured tg x.2) → Configured tg (.sw up ports)

mutual
/-- The functions know their IDs: the node is connected to bus `m`, and a function on a bus has the number of that bus in its
ID (C26: it takes it from the configuration requests it gets). The functions of one device have different IDs
(device.py:86-88). No bridge but the one at the top is the host bridge. -/
def FabNodeIds (m : Nat) : Node σ → Prop
  | .none => True
  | .dev _ fns => (∀ f ∈ fns, f.id.bus = m) ∧ fns.Pairwise fun f g => f.id ≠ g.id
  | .sw up ports => up.id.bus = m ∧ up.root = false ∧ FabPortIds up.secBus ports
@[inherit_doc FabNodeIds] def FabPortIds (m : Nat) : Ports σ → Prop
  | .nil => True
  | .cons b n rest => b.id.bus = m ∧ b.root = false ∧ FabNodeIds b.secBus n ∧ FabPortIds m rest
end

/-- The TLP has not been changed, apart from the TPH bit, which the links lose. -/
def Intact (t t' : Tlp) : Prop := t' = t ∨ t' = { t with th := false }

/-- The TLP is not passed to a function: some component on its way drops it, and answers a non-posted request with exactly
one unsupported request completion. -/
inductive Refused (n : Node σ) (ty : TlpType) (t : Tlp) : Fate → Prop
  | dev {path bus fns es id} : NodeAt n path (.dev bus fns) → Dropped .up ty t id es → Refused n ty t (.dev path es)
  | up {path up ports es id} : NodeAt n path (.sw up ports) → Dropped .up ty t id es → Refused n ty t (.up path es)
  | switch {path up ports as id} : NodeAt n path (.sw up ports) →
      (if NonPosted ty then ∃ cpl, IsUr cpl t id ∧ as = [cpl] else as = []) → Refused n ty t (.refused path 0 as)

/-- What becomes of the answer to a TLP, sent by the component that has dropped it. -/
def answer (n : Node σ) : Fate → Option (Py Fate)
  | .dev path [.release, .up c] | .up path [.release, .up c] => some (n.send path c)
  | .refused path 0 [c] => some (n.answerUp path c)
  | _ => none

/-! ### A hierarchy before and after enumeration -/

/-- The root complex with what is connected to its root ports, after reset. The functions on each bus are as the PCI
specification requires, no bridge has a bus number, `rs` are the regions that the BARs and expansion ROMs stand for, each
smaller than 4 GiB, and the bits of the bridge windows that are not writable are zero. The host bridge is 0:0.0, with all
buses behind it and without BARs (bridge.py:505-530). -/
structure AfterReset (host : BrFn σ) (ports : Ports σ) (rs : List Region) : Prop where
  bus0 : BusOk true false (top ports.bus)
  buses : BusesOk ports.bus
  fresh : NoNumbers ports.bus
  bars : Tree Any ports.bus.bus rs
  small : ∀ x ∈ rs, x.size < 2 ^ 32
  clean : BrsClean ports.bus.bus
  ports : ∀ x ∈ ports.list, x.1.root = false ∧ ∀ b, BrIn x.2 b → b.root = false
  root : host.root = true
  id : host.id = ⟨0, 0, 0⟩
  bus : host.secBus = 0 ∧ host.subBus = 255
  noBars : ∀ r ∈ host.bars, r = {}

/-- The address space is large enough: I/O and memory below 4 GiB end below 4 GiB, and there is less than 3 GiB of
prefetchable memory. -/
def Fits (l : Limits) : Prop := l.io ≤ 2 ^ 32 ∧ l.mem < 2 ^ 32 ∧ l.pref ≤ 2 ^ 63 + 0xc0000000

/-- Completions, and addresses that a 32-bit BAR cannot mistake for its own: below 4 GiB, or with the lower 32 bits below
the addresses that 32-bit BARs get. -/
def Sound : Target → Prop
  | .io a => a < 2 ^ 32
  | .mem a => a < 2 ^ 32 ∨ (a < 2 ^ 64 ∧ a % 2 ^ 32 < 0xc0000000)
  | .cpl _ => True
  | .cfg0 _ | .cfg1 _ => False

/-- The target is the root complex: a completion for 0:0.0, or an address that is not in the ranges of the host bridge. -/
def ForRoot (l : Limits) : Target → Prop
  | .io a => a < 0x80000000 ∨ l.io < a
  | .mem a => (a < 0xc0000000 ∨ l.mem < a) ∧ (a < 2 ^ 63 ∨ l.pref < a)
  | .cpl i => i = ⟨0, 0, 0⟩
  | .cfg0 _ | .cfg1 _ => False

end Pcie.Spec
