/-
Devices that are not ready yet: the host asks again (core/pci.py:124-193, 600-612), and a device that answers configuration requests with completion retry status
for a while (us_model.py:773-777, usp_model.py:917-921).
-/
import Verif.Model.HostCfg
import Verif.Model.HostProg
namespace Pcie
namespace Crs
variable {W α : Type}

/-- rc.py:565-646: accesses to the configuration space of one function. -/
def busIo (op : Cfg.Op W) (id : PcieId) : ByteIo W where
  read w addr length := Cfg.read op w id addr length
  write w addr data := .ok (Cfg.write op w id addr data)

/-- A program of the host, with the accesses carried out by `op`; `dsp` is as in `CfgProg` (HostProg.lean). -/
def exec (op : Cfg.Op W) (dsp : W → PcieId → Bool) : CfgProg α → W → Py (W × α)
  | .ret a, w => .ok (w, a)
  | .raise e, _ => .error e
  | .rd id addr len k, w =>
    match Cfg.read op w id addr len with
    | .error e => .error e
    | .ok (w, d) => exec op dsp (k d) w
  | .wr id addr data k, w => exec op dsp k (Cfg.write op w id addr data)
  | .dsp id k, w => exec op dsp (k (dsp w id)) w

/-- pci.py:124-143 `wait_crs`, from the moment at which `delay` has been doubled `k` times: it is 10 then, 20, 40 and so on. `wait` lets microseconds pass.
The result is whether the device is ready. -/
def waitCrs (op : Cfg.Op W) (wait : Nat → W → W) (id : PcieId) (k : Nat) (w : W) : Py (W × Bool) :=
  if h : 10000 < 10 * 2 ^ k then .ok (w, false)
  else
    match (busIo op id).readDword (wait (10 * 2 ^ k) w) 0 with
    | .error e => .error e
    | .ok (w, val) => if val = 0xffff0001 then waitCrs op wait id (k + 1) w else .ok (w, true)
termination_by 10 - k
decreasing_by
  have : k < 10 := by
    rcases Nat.lt_or_ge k 10 with hk | hk
    · exact hk
    · have : 2 ^ 10 ≤ 2 ^ k := Nat.pow_le_pow_right (by omega) hk
      omega
  omega

/-- pci.py:172-186: a function as `scan` records it: number, vendor ID, device ID, and what `setup` (an arbitrary program) has found out about it. -/
structure Found (α : Type) where
  id : PcieId
  vendor : Nat
  device : Nat
  info : α
deriving DecidableEq, Repr

/-- pci.py:172-190: the loop over the functions; `setup` also returns `multifunction`. -/
def scanFns (op : Cfg.Op W) (dsp : W → PcieId → Bool) (setup : PcieId → CfgProg (α × Bool)) (n d : Nat) : List Nat → W → Py (W × List (Found α))
  | [], w => .ok (w, [])
  | f :: fs, w =>
    match (busIo op ⟨n, d, f⟩).readDword w 0 with
    | .error e => .error e
    | .ok (w, val) =>
      if val = 0xffffffff then scanFns op dsp setup n d fs w
      else
        match exec op dsp (setup ⟨n, d, f⟩) w with
        | .error e => .error e
        | .ok (w, info, multi) =>
          let dev : Found α := ⟨⟨n, d, f⟩, val &&& 0xffff, val >>> 16 &&& 0xffff, info⟩
          if multi then
            match scanFns op dsp setup n d fs w with
            | .error e => .error e
            | .ok (w, l) => .ok (w, dev :: l)
          else .ok (w, [dev])

/-- pci.py:154-190: one device number in `scan`. `none`: no device (`continue`). -/
def scanDev (op : Cfg.Op W) (dsp : W → PcieId → Bool) (wait : Nat → W → W) (setup : PcieId → CfgProg (α × Bool)) (n d : Nat) (w : W) :
    Py (W × Option (List (Found α))) :=
  let fns (w : W) := (scanFns op dsp setup n d (List.range 8) w).map fun x => (x.1, some x.2)
  match (busIo op ⟨n, d, 0⟩).readDword w 0 with
  | .error e => .error e
  | .ok (w, val) =>
    if val = 0 ∨ val = 0xffffffff ∨ val = 0xffff0000 ∨ val = 0x0000ffff then .ok (w, none)
    else if val = 0xffff0001 then
      match waitCrs op wait ⟨n, d, 0⟩ 0 w with
      | .error e => .error e
      | .ok (w, false) => .ok (w, none)
      | .ok (w, true) => fns w
    else fns w

/-- A device that is not ready before the time `readyAt`. Times are in ns. -/
structure Late (W : Type) where
  clock : Nat
  readyAt : Nat
  inner : W

/-- us_model.py:773-777, usp_model.py:917-921: until it is ready, the device answers configuration requests with completion retry status; from then on as
`op`. A request takes `(lat ..).1` ns to the device, and the answer `(lat ..).2` ns back; we assume that this is less than the time-out of the host. `visible` is
`crs_software_visibility_enable` of the root port the answer comes in at, and `cid` the number that the device gives as completer. -/
def Late.op (op : Cfg.Op W) (lat : Nat → Tlp → Nat × Nat) (visible : Bool) (cid : PcieId) : Cfg.Op (Late W) := fun w t =>
  let now := w.clock + (lat w.clock t).1
  let done := now + (lat w.clock t).2
  if now < w.readyAt then ({ w with clock := done }, (Region.collect (Region.isMemRead t) [t.createCrs cid]).1, some visible)
  else
    let (inner, ans) := op w.inner t
    ({ w with clock := done, inner }, ans)

/-- `Timer(delay, 'us')`. -/
def Late.wait (us : Nat) (w : Late W) : Late W := { w with clock := w.clock + 1000 * us }

end Crs

namespace CfgPort
variable {S : Type}

/-- pci.py:600-612 `enable_crs`. -/
def enableCrs (p : CfgPort S) : Py (CfgPort S) :=
  if ¬ p.has 0x10 then .ok p
  else do
    let (fn, rootCap) ← (p.io 0x10).readDword p.fn 0x1e
    if rootCap &&& 1 = 0 then return { p with fn }
    let (fn, old) ← (p.io 0x10).readWord fn 0x1c
    let ctrl := old ||| 0x10
    let fn ← if ctrl ≠ old then (p.io 0x10).writeWord fn 0x1c ctrl else .ok fn
    return { p with fn }

end CfgPort
end Pcie
