/-
Configuration of the maximum payload size during enumeration (pci.py:721-786), over a hierarchy of functions.

Register accesses to the device control register (`get_mps`, `set_mps`) are reads and updates of the field `mps`.
-/
import Verif.Model.Tlp
namespace Pcie

/-- What `configure_mps` looks at in a `PciDevice`: whether it has a PCI Express capability, the device/port type, the
supported maximum payload size and the configured one (both as the exponent: 128 << x bytes). -/
structure MFn where
  pcie : Bool := true
  ptype : Nat
  mpss : Nat
  mps : Nat := 0
deriving DecidableEq, Repr

/-- The functions on a bus; `child` is the bus behind a bridge (`nil` for an endpoint). -/
inductive MTree where
  | nil
  | fn (f : MFn) (child rest : MTree)
deriving DecidableEq, Repr

/-- pci.py:779-788 `set_mps`. -/
def MFn.setMps (f : MFn) (v : Nat) : Py MFn :=
  if 5 < v ∨ f.mpss < v then .error "ValueError" else .ok { f with mps := v }

/-- pci.py:721-756 `configure_mps` of `f`. `bridge` is the bridge above its bus (`none` on the root bus, whose `bridge` is
the host bridge with `max_payload_size` = `host`); it may be changed too. -/
def configureMps (host : Nat) (bridge : Option MFn) (f : MFn) : Py (Option MFn × MFn) :=
  if ¬ f.pcie then .ok (bridge, f)
  else if f.ptype = 9 then
    match f.setMps f.mpss with
    | .error e => .error e
    | .ok f => .ok (bridge, f)
  else if f.ptype = 4 then
    match bridge with
    | some _ => .error "AttributeError"
    | none => match f.setMps host with
      | .error e => .error e
      | .ok f => .ok (bridge, f)
  else
    match bridge with
    | none => .ok (bridge, f)
    | some b =>
      if ¬ b.pcie then .ok (bridge, f)
      else if f.mps = b.mps then .ok (bridge, f)
      else
        match (if f.mpss < b.mps ∧ b.ptype = 4 then b.setMps (min f.mpss b.mpss) else .ok b : Py MFn) with
        | .error e => .error e
        | .ok b => match f.setMps (min b.mps f.mpss) with
          | .error e => .error e
          | .ok f => .ok (some b, f)

/-- pci.py:169-189: the functions found on one bus are set up one after the other. -/
def configBus (host : Nat) : Option MFn → List MFn → Py (Option MFn × List MFn)
  | b, [] => .ok (b, [])
  | b, f :: fs =>
    match configureMps host b f with
    | .error e => .error e
    | .ok (b, f) => match configBus host b fs with
      | .error e => .error e
      | .ok (b, fs) => .ok (b, f :: fs)

/-- The functions on the bus itself. -/
def MTree.fns : MTree → List MFn
  | nil => []
  | fn f _ rest => f :: rest.fns

/-- pci.py:195-199: the recursion into the buses behind the bridges, after the functions of this bus, which are now `fs`,
were set up. -/
def configBelow (host : Nat) : List MFn → MTree → Py MTree
  | f :: fs, .fn _ child rest =>
    match configBus host (some f) child.fns with
    | .error e => .error e
    | .ok (b, cs) => match configBelow host cs child with
      | .error e => .error e
      | .ok child => match configBelow host fs rest with
        | .error e => .error e
        | .ok rest => .ok (.fn (b.getD f) child rest)
  | _, _ => .ok .nil

/-- The whole hierarchy, from the root bus. -/
def configTree (host : Nat) (t : MTree) : Py MTree :=
  match configBus host none t.fns with
  | .error e => .error e
  | .ok (_, fs) => configBelow host fs t

end Pcie
