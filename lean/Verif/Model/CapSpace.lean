import Verif.Model.CfgAccess
import Verif.Model.Scan
import Verif.Model.Caps
/-
The capabilities of a function as a part of its configuration space (core/function.py:251-257, 296-330, core/caps/common.py), and how the host finds them and
accesses their registers (core/pci.py:406-415, 473-512, 679-714).
-/
namespace Pcie

/-- function.py:60-61: the two capability lists of a function. `st` and `stx` are what is stored in the capabilities themselves. -/
structure CapSpace (S : Type) where
  pci : CapList
  ext : CapList
  st : Nat → S
  stx : Nat → S

namespace CapSpace
variable {S : Type}

/-- The list, where the registers of the capabilities (`_read_register`) read as `r` says. -/
def fill (l : CapList) (r : Nat → Nat → Nat) : CapList := { l with objs := fun c => { l.objs c with regs := r c } }

/-- caps/common.py:169-172 `write_register`, 113-114: the capability that has the register writes it (`_write_register`). -/
def writeList (beh : Nat → CapOps S) (l : CapList) (st : Nat → S) (reg data mask : Nat) : Nat → S :=
  match l.findByReg reg with
  | none => st
  | some c => fun k => if k = c then (beh c).write (st c) (reg - l.off c) data mask else st k

/-- function.py:251-257, 302-303, 319-320: reading a register from 16 on; `beh` and `behx` are what the capabilities do (`_read_register`, `_write_register`). -/
def read (beh behx : Nat → CapOps S) (s : CapSpace S) (reg : Nat) : Nat :=
  if reg < 64 then (fill s.pci fun c => (beh c).read (s.st c)).read reg
  else (fill s.ext fun c => (behx c).read (s.stx c)).readExt reg

/-- function.py:295-300, 305-306, 322-323: writing a register from 16 on. -/
def write (beh behx : Nat → CapOps S) (s : CapSpace S) (reg data mask : Nat) : CapSpace S :=
  if reg < 64 then { s with st := writeList beh s.pci s.st reg data mask }
  else { s with stx := writeList behx s.ext s.stx reg data mask }

/-- The registers from 16 on of a function with these capabilities. -/
def ops (beh behx : Nat → CapOps S) : CapOps (CapSpace S) := ⟨read beh behx, write beh behx⟩

end CapSpace

/-- `write_config_register` of the function. -/
def Fn.write {σ} (ops : CapOps σ) : Fn σ → Nat → Nat → Nat → Fn σ
  | .ep f, r, d, m => .ep (f.write ops r d m)
  | .br p f, r, d, m => .br p (f.write ops r d m)

/-- The attributes that endpoints and bridges have in common. -/
def Fn.common {σ} : Fn σ → Common σ
  | .ep f => f.toCommon
  | .br _ f => f.toCommon

/-- The registers of a function. -/
def Fn.ops {σ} (ops : CapOps σ) : CapOps (Fn σ) := ⟨Fn.read ops, Fn.write ops⟩

namespace HostCaps
variable {W : Type}

/-- pci.py:684-697: the loop over the capabilities. The loop in the code has no bound: an error when `fuel` rounds are not enough. -/
def walkFrom (op : Cfg.Op W) (dev : PcieId) : (fuel : Nat) → W → (ptr : Nat) → Py (W × List (Nat × Nat))
  | fuel, w, ptr =>
    if ptr = 0 then .ok (w, [])
    else match fuel with
      | 0 => .error "endless loop"
      | fuel + 1 =>
        match Cfg.read op w dev ptr 2 with
        | .error e => .error e
        | .ok (w, [b0, b1]) =>
          match walkFrom op dev fuel w (b1.toNat &&& 0xfc) with
          | .error e => .error e
          | .ok (w, l) => .ok (w, (b0.toNat, ptr) :: l)
        | .ok _ => .error "IndexError"

/-- pci.py:679-697: the capabilities, as pairs of ID and address. -/
def walk (op : Cfg.Op W) (dev : PcieId) (fuel : Nat) (w : W) : Py (W × List (Nat × Nat)) :=
  match Cfg.read op w dev 0x34 1 with
  | .error e => .error e
  | .ok (w, [b]) => walkFrom op dev fuel w (b.toNat &&& 0xfc)
  | .ok _ => .error "IndexError"

/-- pci.py:701-714: the loop over the extended capabilities. `config_read_dword` is little endian. -/
def walkExtFrom (op : Cfg.Op W) (dev : PcieId) : (fuel : Nat) → W → (ptr : Nat) → Py (W × List (Nat × Nat))
  | fuel, w, ptr =>
    if ptr = 0 then .ok (w, [])
    else match fuel with
      | 0 => .error "endless loop"
      | fuel + 1 =>
        match Cfg.read op w dev ptr 4 with
        | .error e => .error e
        | .ok (w, d) =>
          match Cfg.unpackLE d with
          | .error e => .error e
          | .ok val =>
            if val = 0 ∨ val = 0xffffffff then .ok (w, [])
            else
              match walkExtFrom op dev fuel w (val >>> 20 &&& 0xffc) with
              | .error e => .error e
              | .ok (w, l) => .ok (w, (val &&& 0xffff, ptr) :: l)

/-- pci.py:699-714. -/
def walkExt (op : Cfg.Op W) (dev : PcieId) (fuel : Nat) (w : W) : Py (W × List (Nat × Nat)) := walkExtFrom op dev fuel w 0x100

/-- pci.py:406-415 `get_capability_offset`, in the list for the type of the ID. -/
def offset (l : List (Nat × Nat)) (id : Nat) : Option Nat := (l.find? fun p => p.1 = id).map Prod.snd

/-- pci.py:473-479 `capability_read`. -/
def read (op : Cfg.Op W) (w : W) (dev : PcieId) (l : List (Nat × Nat)) (id addr length : Nat) : Py (W × List UInt8) :=
  match offset l id with
  | none => .error "Capability not found"
  | some o => if o = 0 then .error "Capability not found" else Cfg.read op w dev (addr + o) length

/-- pci.py:506-512 `capability_write`. -/
def write (op : Cfg.Op W) (w : W) (dev : PcieId) (l : List (Nat × Nat)) (id addr : Nat) (data : List UInt8) : Py W :=
  match offset l id with
  | none => .error "Capability not found"
  | some o => if o = 0 then .error "Capability not found" else .ok (Cfg.write op w dev (addr + o) data)

end HostCaps
end Pcie
