import Verif.Model.MsiSetup
import Verif.Spec.CapSpace
import Verif.Spec.Msi
/- Specification of the set-up of interrupts through configuration space. -/
namespace Pcie.Spec
open Pcie
variable {S : Type}

/-- The registers of a capability are those of a value `a` stored as `emb a`: reads are `read`, writes are `write`. -/
structure Behaves {α : Type} (ops : CapOps S) (emb : α → S) (read : α → Nat → Nat) (write : α → Nat → Nat → Nat → α) : Prop where
  read : ∀ a k, ops.read (emb a) k = read a k
  write : ∀ a k d m, ops.write (emb a) k d m = emb (write a k d m)

/-- Capability `c` of the function is the one that the host has found for `id`; it has `len` registers or more. -/
structure CapFound (p : IrqPort S) (id c len : Nat) : Prop where
  found : HostCaps.offset p.caps id = some (4 * p.fn.regs.common.caps.pci.off c)
  isId : (p.fn.regs.common.caps.pci.objs c).capId = id
  lies : Lies p.fn.regs.common.caps.pci c 16 64
  len : len ≤ p.fn.regs.common.caps.pci.len c

/-- The function has an MSI capability with the content `m`, and the host has found it. -/
def HasMsi (p : IrqPort S) (m : MsiCap) : Prop :=
  ∃ c emb, CapFound p 0x05 c 6 ∧ Behaves (p.beh c) emb (fun m k => (m.read k).getD 0) MsiCap.write ∧ p.fn.regs.common.caps.st c = emb m

/-- The same for MSI-X. -/
def HasMsix (p : IrqPort S) (m : MsixCap) : Prop :=
  ∃ c emb, CapFound p 0x11 c 3 ∧ Behaves (p.beh c) emb (fun m k => (m.read k).getD 0) MsixCap.write ∧ p.fn.regs.common.caps.st c = emb m

/-- The function, with what the host knows about it, has the interrupts that `f` describes. Its registers outside of the MSI and MSI-X capabilities are `B`. -/
structure Shows (B : Nat → Nat) (p : IrqPort S) (f : IrqFn) : Prop where
  dev : p.dev.device = p.fn.id.device ∧ p.dev.function = p.fn.id.function
  noShare : NoShare p.fn.regs.common.caps.pci
  msi : ∀ m, f.msi = some m → HasMsi p m
  msix : ∀ m, f.msix = some m → HasMsix p m
  noMsi : f.msi = none → p.has 0x05 = false ∧ p.msiEnabled = false
  noMsix : f.msix = none → p.has 0x11 = false ∧ p.msixEnabled = false
  mem : f.mem = p.mem
  vecs : f.vecs = p.vecs
  msiEnabled : f.msiEnabled = p.msiEnabled
  msixEnabled : f.msixEnabled = p.msixEnabled
  rest : ∀ reg, (∀ c, CapFound p 0x05 c 6 → ¬ (reg < 64 ∧ Occupies p.fn.regs.common.caps.pci c reg)) →
    (∀ c, CapFound p 0x11 c 3 → ¬ (reg < 64 ∧ Occupies p.fn.regs.common.caps.pci c reg)) →
    (Fn.ops (CapSpace.ops p.beh p.behx)).read p.fn.regs reg = B reg

/-- The same for the host with all functions. -/
structure ShowsAll (B : Nat → Nat → Nat) (x : IrqHost S) (s : IrqSys) : Prop where
  region : s.region = x.region
  cbs : s.cbs = x.cbs
  fns : ∀ k, Shows (B k) (x.fns k) (s.fns k)

end Pcie.Spec
