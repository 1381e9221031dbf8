/-
Enumeration: BAR sizing and assignment, bridge windows (pci.py).

The host's view of a function is a `PciDevice`. Its configuration accesses are modelled as accesses to the registers of
the function (`CapOps` gives the register read and write operations): `config_read_dword(4*r)` is a read of register
`r`, `config_write_dword(4*r, v)` a write with all four byte enables. That the accesses through TLPs amount to this is
C17. The address space windows (`create_window`, package cocotbext-axi) and the log are not modelled.
-/
import Verif.Model.Config
namespace Pcie

/-- `bar_raw[bar]` and `bar_size[bar]` (pci.py:322-326). -/
structure BarInfo where
  raw : Nat
  size : Nat
deriving DecidableEq, Repr

/-- The fields of `PciDevice` used here (pci.py:322-331); an entry of the Python lists that is still `None` is `none`. -/
structure DevBars where
  info : Nat → Option BarInfo := fun _ => none
  addr : Nat → Option Nat := fun _ => none
  rom : Option BarInfo := none
  romAddr : Option Nat := none

/-- `self.bar_raw[bar] = raw; self.bar_size[bar] = size`. -/
def DevBars.setInfo (d : DevBars) (bar raw size : Nat) : DevBars :=
  { d with info := fun j => if j = bar then some ⟨raw, size⟩ else d.info j }

/-- pci.py:1069-1124: the `while bar < bar_cnt` loop of `read_bars`; `n` is `bar_cnt - bar`. The original code reads
`orig_bar2` from the register of the *lower* half (line 1104). -/
def readBarsFrom {τ} (ops : CapOps τ) : (n bar : Nat) → τ → DevBars → Py (τ × DevBars)
  | 0, _, s, d => .ok (s, d)
  | n + 1, bar, s, d =>
    let orig := ops.read s (4 + bar)
    let s := ops.write s (4 + bar) 0xffffffff 0xf
    let val := ops.read s (4 + bar)
    let s := ops.write s (4 + bar) orig 0xf
    if val = 0 then readBarsFrom ops n (bar + 1) s (d.setInfo bar 0 0)
    else if val &&& 1 ≠ 0 then
      let mask := andNot 0xffffffff val ||| 3
      readBarsFrom ops n (bar + 1) s (d.setInfo bar orig (mask + 1))
    else if val &&& 4 ≠ 0 then
      match n with
      | 0 => .error "Invalid BAR configuration"
      | n + 1 =>
        let orig2 := ops.read s (4 + bar)
        let s := ops.write s (4 + (bar + 1)) 0xffffffff 0xf
        let val2 := ops.read s (4 + (bar + 1))
        let s := ops.write s (4 + (bar + 1)) orig2 0xf
        let val := val ||| val2 <<< 32
        let mask := andNot 0xffffffffffffffff val ||| 0xf
        readBarsFrom ops n (bar + 2) s (d.setInfo bar (orig ||| orig2 <<< 32) (mask + 1))
    else
      let mask := andNot 0xffffffff val ||| 0xf
      readBarsFrom ops n (bar + 1) s (d.setInfo bar orig (mask + 1))

/-- pci.py:1126-1151: sizing of the expansion ROM, whose register is number `rom`. -/
def readRomInfo {τ} (ops : CapOps τ) (rom : Nat) (s : τ) (d : DevBars) : τ × DevBars :=
  let orig := ops.read s rom
  let s := ops.write s rom 0xfffff800 0xf
  let val := ops.read s rom
  let s := ops.write s rom orig 0xf
  if val ≠ 0 then (s, { d with rom := some ⟨orig, (andNot 0xffffffff val ||| 0x7ff) + 1⟩ })
  else (s, { d with rom := some ⟨0, 0⟩ })

/-- pci.py:1063-1067: clear I/O and memory enable (a two-byte access to register 1). -/
def disableDecode {τ} (ops : CapOps τ) (s : τ) : τ :=
  let old := ops.read s 1 &&& 0xffff
  let cmd := andNot old 3
  if cmd ≠ old then ops.write s 1 cmd 3 else s

/-- pci.py:1062-1151 `read_bars`. -/
def readBars {τ} (ops : CapOps τ) (cnt rom : Nat) (s : τ) (d : DevBars) : Py (τ × DevBars) :=
  match readBarsFrom ops cnt 0 (disableDecode ops s) d with
  | .error e => .error e
  | .ok (s, d) => .ok (readRomInfo ops rom s d)

/-- The allocation pointers of the bridge above a bus: `io_limit`, `mem_limit`, `prefetchable_mem_limit`. -/
structure Limits where
  io : Nat
  mem : Nat
  pref : Nat
deriving DecidableEq, Repr

/-- A dword configuration write: `int.to_bytes(4)` raises when the value does not fit (pci.py:444-454). -/
def writeDword {τ} (ops : CapOps τ) (s : τ) (reg v : Nat) : Py τ :=
  if v < 2 ^ 32 then .ok (ops.write s reg v 0xf) else .error "OverflowError"

/-- pci.py:1173-1178, 1228-1231: the assigned raw value and address of a BAR. -/
def DevBars.setAddr (d : DevBars) (bar raw size addr : Nat) : DevBars :=
  { (d.setInfo bar raw size) with addr := fun j => if j = bar then some addr else d.addr j }

/-- pci.py:1205-1209: likewise for a 64-bit BAR; the upper half goes to `bar_raw[bar+1]`, whose `bar_size` stays
`None`, so that `info (bar+1)`, which stands for the pair, is left alone. -/
def DevBars.setAddr64 (d : DevBars) (bar raw size addr : Nat) : DevBars :=
  { (d.setInfo bar (raw &&& 0xffffffff) size) with addr := fun j => if j = bar then some addr else d.addr j }

/-- pci.py:1153-1250: the loop of `assign_bars`; `n` is `bar_cnt - bar`. -/
def assignBarsFrom {τ} (ops : CapOps τ) : (n bar : Nat) → τ → DevBars → Limits → Py (τ × DevBars × Limits)
  | 0, _, s, d, l => .ok (s, d, l)
  | n + 1, bar, s, d, l =>
    match d.info bar with
    | none => .error "TypeError"
    | some ⟨raw, size⟩ =>
      if size = 0 then assignBarsFrom ops n (bar + 1) s d l
      else if raw &&& 1 ≠ 0 then
        let addr := align l.io (size - 1)
        let raw := raw &&& 3 ||| addr
        match writeDword ops s (4 + bar) raw with
        | .error e => .error e
        | .ok s => assignBarsFrom ops n (bar + 1) s (d.setAddr bar raw size addr) { l with io := addr + size }
      else if raw &&& 4 ≠ 0 then
        match n with
        | 0 => .error "Invalid BAR configuration"
        | n + 1 =>
          let addr := if raw &&& 8 ≠ 0 then align l.pref (size - 1) else align l.mem (size - 1)
          let l := if raw &&& 8 ≠ 0 then { l with pref := addr + size } else { l with mem := addr + size }
          let raw := raw &&& 0xf ||| addr
          let s := ops.write s (4 + bar) (raw &&& 0xffffffff) 0xf
          let s := ops.write s (4 + (bar + 1)) (raw >>> 32 &&& 0xffffffff) 0xf
          assignBarsFrom ops n (bar + 2) s (d.setAddr64 bar raw size addr) l
      else
        let addr := align l.mem (size - 1)
        let raw := raw &&& 0xf ||| addr
        match writeDword ops s (4 + bar) raw with
        | .error e => .error e
        | .ok s => assignBarsFrom ops n (bar + 1) s (d.setAddr bar raw size addr) { l with mem := addr + size }

/-- pci.py:1252-1275: assignment of the expansion ROM. -/
def assignRom {τ} (ops : CapOps τ) (rom : Nat) (s : τ) (d : DevBars) (l : Limits) : Py (τ × DevBars × Limits) :=
  match d.rom with
  | none => .ok (s, d, l)
  | some ⟨raw, size⟩ =>
    if size = 0 then .ok (s, d, l)
    else
      let addr := align l.mem (size - 1)
      let raw := raw &&& 0x7ff ||| addr
      match writeDword ops s rom raw with
      | .error e => .error e
      | .ok s => .ok (s, { d with rom := some ⟨raw, size⟩, romAddr := some addr }, { l with mem := addr + size })

/-- pci.py:1153-1275 `assign_bars`. -/
def assignBars {τ} (ops : CapOps τ) (cnt rom : Nat) (s : τ) (d : DevBars) (l : Limits) : Py (τ × DevBars × Limits) :=
  match assignBarsFrom ops cnt 0 s d l with
  | .error e => .error e
  | .ok (s, d, l) => assignRom ops rom s d l

/-- The register operations of an endpoint and of a bridge. -/
def Ep.regs {σ} (ops : CapOps σ) : CapOps (Ep σ) := ⟨Ep.read ops, Ep.write ops⟩
def Br.regs {σ} (ops : CapOps σ) : CapOps (Br σ) := ⟨Br.read ops, Br.write ops⟩

/-- `struct.pack('<HH', a, b)` as the register value, or `struct.error` (`b` is `none` when negative). -/
def packHH (a : Nat) (b : Option Nat) : Py Nat :=
  match b with
  | some b => if a < 2 ^ 16 ∧ b < 2 ^ 16 then .ok (a ||| b <<< 16) else .error "struct.error"
  | none => .error "struct.error"

/-- `struct.pack('<L', a)`, or `struct.error`. -/
def packL1 (a : Option Nat) : Py Nat :=
  match a with
  | some a => if a < 2 ^ 32 then .ok a else .error "struct.error"
  | none => .error "struct.error"

/-- `(limit - 1) >> k`; `none` when it is negative (`limit = 0`). -/
def pred_shr (limit k : Nat) : Option Nat := if limit = 0 then none else some ((limit - 1) >>> k)

/-- `((limit - 1) >> k) & m` for a mask `m`; for `limit = 0` the left operand is -1 and the result `m`. -/
def pred_shr_and (limit k m : Nat) : Nat := if limit = 0 then m else (limit - 1) >>> k &&& m

/-- pci.py:255-259 and 1277-1296: program the windows of a bridge. `b` are the bases and `e` the aligned limits before
the `-= 1`. -/
def setupBridge {σ} (ops : CapOps σ) (f : Br σ) (b e : Limits) : Py (Br σ) := do
  let f := f.write ops 7 (b.io >>> 8 &&& 0xf0 ||| pred_shr_and e.io 8 0xf0 <<< 8) 3
  let v ← packHH (b.io >>> 16) (pred_shr e.io 16)
  let f := f.write ops 12 v 0xf
  let f := f.write ops 8 (b.mem >>> 16 &&& 0xfff0 ||| pred_shr_and e.mem 16 0xfff0 <<< 16) 0xf
  let f := f.write ops 9 (b.pref >>> 16 &&& 0xfff0 ||| pred_shr_and e.pref 16 0xfff0 <<< 16) 0xf
  let v ← packL1 (some (b.pref >>> 32))
  let f := f.write ops 10 v 0xf
  let v ← packL1 (pred_shr e.pref 32)
  return f.write ops 11 v 0xf

/-- The devices found on a bus, in order, with what is behind the bridges among them (`PciBus.devices`,
`PciDevice.subordinate`), together with the registers of the functions. Only type 0 and type 1 headers. -/
inductive Bus (σ : Type) where
  | nil
  | ep (f : Ep σ) (d : DevBars) (rest : Bus σ)
  | br (f : Br σ) (d : DevBars) (child rest : Bus σ)

/-- pci.py:246-249: align the limits to the granularity of the bridge registers. -/
def Limits.alignBridge (l : Limits) : Limits := ⟨align l.io 0xfff, align l.mem 0xfffff, align l.pref 0xfffff⟩

/-- pci.py:232-259 `PciBus.assign_resources`; `l` are the limits of the bridge above the bus, before and after. -/
def assignBus {σ} (ops : CapOps σ) : Bus σ → Limits → Py (Bus σ × Limits)
  | .nil, l => .ok (.nil, l)
  | .ep f d rest, l => do
    let (f, d, l) ← assignBars (Ep.regs ops) 6 12 f d l
    let (rest, l) ← assignBus ops rest l
    return (.ep f d rest, l)
  | .br f d child rest, l => do
    let (f, d, l) ← assignBars (Br.regs ops) 2 14 f d l
    let (child, lc) ← assignBus ops child l
    let e := lc.alignBridge
    let f ← setupBridge ops f l e
    let (rest, l) ← assignBus ops rest e
    return (.br f d child rest, l)

/-- pci.py:623-679 `PciDevice.setup` for all devices of the tree, restricted to `read_bars`. -/
def readBus {σ} (ops : CapOps σ) : Bus σ → Py (Bus σ)
  | .nil => .ok .nil
  | .ep f d rest => do
    let (f, d) ← readBars (Ep.regs ops) 6 12 f d
    let rest ← readBus ops rest
    return .ep f d rest
  | .br f d child rest => do
    let (f, d) ← readBars (Br.regs ops) 2 14 f d
    let child ← readBus ops child
    let rest ← readBus ops rest
    return .br f d child rest

/-- rc.py:76-81, 874-879: the limits the host bridge starts with. -/
def hostLimits : Limits := ⟨0x80000000, 0xc0000000, 0x8000000000000000⟩

end Pcie
