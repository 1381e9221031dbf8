/-
Message signalled interrupts on their way: the memory write of the function (caps/msi.py), the hierarchy, the handler of the
root complex (rc.py), its address space, in which the MSI region lies (rc.py:123-125), and the callbacks (core/msi.py).
-/
import Verif.Model.Msi
import Verif.Model.EndToEnd
import Verif.Model.CfgAccess
namespace Pcie
variable {σ : Type}

/-- The system with its interrupts: `place f` is where function `f` of the interrupt model is (device and function number there),
`cfg f` its settings as a requester. -/
structure IrqNet (σ : Type) where
  sys : Sys σ
  irq : IrqSys
  cfg : Nat → ReqCfg
  place : Nat → List Nat × Nat

namespace IrqNet

/-- `find_regions` of the address space of the root complex, with the MSI region (16 bytes, rc.py:123-125). -/
def covers (x : IrqNet σ) (a n : Nat) : Bool :=
  x.sys.mem.covers a n || decide (a < x.irq.region.base + 16 ∧ x.irq.region.base < a + n)

/-- A write of the address space (external code): one that begins in the MSI region is `MsiRegion.write` (core/msi.py:67-76), others go to
memory. Writes that begin elsewhere and go on into the MSI region are not split. -/
def put (x : IrqNet σ) (a : Nat) (d : List UInt8) : Py (IrqNet σ × List Nat) :=
  if x.irq.region.base ≤ a ∧ a < x.irq.region.base + 16 then
    if d.length ≠ 4 then .error "AssertionError"
    else do
      let number ← Cfg.unpackLE d
      .ok (x, ← x.irq.deliver (a, number))
  else do
    let m ← x.sys.mem.write a d
    .ok ({ x with sys := { x.sys with mem := m } }, [])

/-- rc.py:555-563: the writes, up to the first that raises an exception. -/
def puts (base : Nat) (data : List UInt8) : List (Nat × Nat) → IrqNet σ → List Nat → IrqNet σ × List Nat
  | [], x, hs => (x, hs)
  | (a, b) :: rest, x, hs =>
    match x.put (base + a) (slice data a b) with
    | .error _ => (x, hs)
    | .ok (x, h) => puts base data rest x (hs ++ h)

/-- rc.py:495-561 `handle_mem_write_tlp`: the system afterwards and the handlers that are started. -/
def rootWrite (x : IrqNet σ) (t : Tlp) : IrqNet σ × List Nat :=
  if ¬ x.covers t.address (t.length * 4) then (x, [])
  else if t.length * 4 > 0x1000 - (t.address &&& 0xfff) then (x, [])
  else puts t.address t.data (memRuns t) x []

/-- Function `f` sends a memory write request. -/
def request (x : IrqNet σ) (f : Nat) (t : Tlp) : Py (IrqNet σ × List Nat) := do
  match ← Sys.emit x.sys.net (.fn (x.place f).1 (x.place f).2) t with
  | .exit t' =>
    match t'.fmtType with
    | some .MEM_WRITE | some .MEM_WRITE_64 => .ok (x.rootWrite t')
    | _ => .error "not modelled"
  | fate => do
    let (s, _) ← x.sys.settle fate
    .ok ({ x with sys := s }, [])

/-- function.py:686-687, region.py:112-144: a memory write of function `f`: the system afterwards and the handlers that are started. -/
def memWrite (x : IrqNet σ) (f addr : Nat) (data : List UInt8) (attr tc : Nat := 0) : Py (IrqNet σ × List Nat) := do
  let ts ← Region.write (x.cfg f) addr data attr tc
  ts.foldlM (fun p t => do
    let (y, h) ← p.1.request f t
    .ok (y, p.2 ++ h)) (x, [])

/-- caps/msi.py:163-175 `issue_msi_interrupt`. -/
def msi (x : IrqNet σ) (f n : Nat) (attr tc : Nat := 0) : Py (IrqNet σ × List Nat) :=
  match (x.irq.fns f).msi with
  | none => .error "no capability"
  | some c => do
    let m ← c.issue n
    x.memWrite f m.1 (← Cfg.packLE m.2) attr tc

/-- caps/msi.py:231-235 `issue_msix_interrupt`, with the address and data of entry `n` of the table. -/
def msix (x : IrqNet σ) (f n : Nat) (attr tc : Nat := 0) : Py (IrqNet σ × List Nat) :=
  match (x.irq.fns f).msix with
  | none => .error "no capability"
  | some c => do
    let mem := (x.irq.fns f).mem (c.tableBir &&& 7)
    let e := (c.tableOffset &&& 0xfffffff8) + n * 16
    let m ← c.issue (mem e ||| mem (e + 4) <<< 32) (mem (e + 8))
    x.memWrite f m.1 (← Cfg.packLE m.2) attr tc

end IrqNet
end Pcie
