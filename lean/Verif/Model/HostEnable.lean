/-
`enable_device`, `disable_device`, `set_master` and `clear_master` of the host software (pci.py) as programs of configuration
accesses.
-/
import Verif.Model.HostProg
namespace Pcie
namespace Host

/-- `enable_cnt` and `is_busmaster` of the devices (pci.py:343-344). -/
structure EnSt where
  cnt : PcieId → Int := fun _ => 0
  master : PcieId → Bool := fun _ => false

/-- pci.py:343-344: the counter of one device changes. -/
def EnSt.setCnt (s : EnSt) (id : PcieId) (v : Int) : EnSt := { s with cnt := fun x => if x = id then v else s.cnt x }
/-- pci.py:595: `is_busmaster` of one device changes. -/
def EnSt.setMaster (s : EnSt) (id : PcieId) (v : Bool) : EnSt := { s with master := fun x => if x = id then v else s.master x }

/-- pci.py:401-404 `upstream_bridge`, again and again: the bridges above a device, the nearest first. -/
def Tree.above (id : PcieId) : Tree → Option (List PcieId)
  | .nil => none
  | .fn p rest => if p.id = id then some [] else rest.above id
  | .bridge p child rest =>
    if p.id = id then some []
    else match child.above id with
      | some as => some (as ++ [p.id])
      | none => rest.above id

/-- pci.py:564-574 `enable_resources`. -/
def enableResources (id : PcieId) : CfgProg Unit := do
  let old ← readWord id (4 * 1)
  let cmd := old ||| 1 <<< 0 ||| 1 <<< 1
  if cmd ≠ old then writeWord id (4 * 1) cmd else pure ()

/-- pci.py:584-595 `set_master`; pci.py:597-598 `clear_master` with `enable` false. -/
def setMaster (id : PcieId) (enable : Bool) (s : EnSt) : CfgProg EnSt := do
  let old ← readWord id (4 * 1)
  let cmd := if enable then old ||| 1 <<< 2 else andNot old (1 <<< 2)
  if cmd ≠ old then writeWord id (4 * 1) cmd else pure ()
  pure (s.setMaster id enable)

/-- pci.py:539-550 `enable_bridge` of the first bridge of the list, the others being those above it; `enable_device`
(pci.py:552-562) of the bridge is written out. If the bridge is enabled but not a bus master, `self.set_master()` makes a
coroutine that is not awaited, which does nothing. -/
def enableBridge : List PcieId → EnSt → CfgProg EnSt
  | [], s => pure s
  | b :: as, s => do
    let s ← enableBridge as s
    if 0 < s.cnt b then pure s
    else do
      let s := s.setCnt b (s.cnt b + 1)
      let s ← if 1 < s.cnt b then pure s
        else do
          let s ← enableBridge as s
          enableResources b
          pure s
      setMaster b true s

/-- pci.py:552-562 `enable_device`; `as` are the bridges above the device. -/
def enableDevice (id : PcieId) (as : List PcieId) (s : EnSt) : CfgProg EnSt :=
  let s := s.setCnt id (s.cnt id + 1)
  if 1 < s.cnt id then pure s
  else do
    let s ← enableBridge as s
    enableResources id
    pure s

/-- pci.py:576-582 `disable_device`. -/
def disableDevice (id : PcieId) (s : EnSt) : CfgProg EnSt :=
  let s := s.setCnt id (s.cnt id - 1)
  if 0 < s.cnt id then pure s else setMaster id false s

/-- The calls (pci.py:552, 576, 584, 597), with the device. -/
inductive Call
  | enable (id : PcieId)
  | disable (id : PcieId)
  | setMaster (id : PcieId)
  | clearMaster (id : PcieId)
deriving DecidableEq, Repr

/-- pci.py:552-598: one call. There are no calls for devices that were not found. -/
def call (t : Tree) (s : EnSt) : Call → CfgProg EnSt
  | .enable id => match t.above id with
    | none => .raise "no device"
    | some as => enableDevice id as s
  | .disable id => disableDevice id s
  | .setMaster id => setMaster id true s
  | .clearMaster id => setMaster id false s

/-- pci.py:552-598: calls, one after another. -/
def calls (t : Tree) : List Call → EnSt → CfgProg EnSt
  | [], s => pure s
  | c :: cs, s => do
    let s ← call t s c
    calls t cs s

end Host
end Pcie
