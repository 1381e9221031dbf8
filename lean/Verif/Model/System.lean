/-
Requester and completer put together: what `perform_nonposted_operation` returns when the request is carried to a
completer and its completions come back in order.  The links in between are modelled and proved separately.
-/
import Verif.Model.Region
import Verif.Model.Completer
namespace Pcie

/-- function.py:510-545 with the root complex as completer (rc.py:426-493); `tag` is the allocated tag. -/
def rcAnswer (cfg : CplCfg) (s : AddrSpace) (tag : Tlp → Nat) (t : Tlp) : List Tlp :=
  (Region.collect (Region.isMemRead t) (Rc.handleMemRead cfg s { t with tag := tag t })).1

/-- rc.py:267-302 with a memory endpoint as completer (endpoint.py:322-376). An exception in the handler kills the
task of that handler: no completion is sent. -/
def epAnswer (e : MemEp) (tag : Tlp → Nat) (t : Tlp) : List Tlp :=
  (Region.collect (Region.isMemRead t) (match e.handleMemRead { t with tag := tag t } with
    | .ok cpls => cpls
    | .error _ => [])).1

/-- I/O reads with the root complex as completer (rc.py:304-364). -/
def rcIoReadAnswer (id : PcieId) (s : AddrSpace) (tag : Tlp → Nat) (t : Tlp) : List Tlp :=
  (Region.collect (Region.isMemRead t) (match Rc.handleIoRead id s { t with tag := tag t } with
    | .ok cpls => cpls
    | .error _ => [])).1

/-- I/O reads with a memory endpoint as completer (endpoint.py:226-273). -/
def epIoReadAnswer (e : MemEp) (tag : Tlp → Nat) (t : Tlp) : List Tlp :=
  (Region.collect (Region.isMemRead t) (match e.handleIoRead { t with tag := tag t } with
    | .ok cpls => cpls
    | .error _ => [])).1

/-- The I/O write requests, carried in order to the root complex (rc.py:366-424); the new address space and what each
operation returned. -/
def rcIoWriteAll (id : PcieId) (tag : Tlp → Nat) : AddrSpace → List Tlp → Py (AddrSpace × List (List Tlp))
  | s, [] => .ok (s, [])
  | s, t :: ts => do
    let (s, cpls) ← Rc.handleIoWrite id s { t with tag := tag t }
    let (s, r) ← rcIoWriteAll id tag s ts
    .ok (s, (Region.collect (Region.isMemRead t) cpls).1 :: r)

/-- The I/O write requests, carried in order to a memory endpoint (endpoint.py:275-320). -/
def epIoWriteAll (tag : Tlp → Nat) : MemEp → List Tlp → Py (MemEp × List (List Tlp))
  | e, [] => .ok (e, [])
  | e, t :: ts => do
    let (e, cpls) ← e.handleIoWrite { t with tag := tag t }
    let (e, r) ← epIoWriteAll tag e ts
    .ok (e, (Region.collect (Region.isMemRead t) cpls).1 :: r)

end Pcie
