import Verif.Model.Crs
import Verif.Spec.HostCfg
/- Specification of what the host does about devices that are not ready. -/
namespace Pcie.Spec
open Pcie
variable {W S : Type}

/-- What the host does: it lets time pass, in µs, or makes a configuration request about a function at an address. -/
inductive HostEv
  | waited (us : Nat)
  | asked (id : PcieId) (addr : Nat)
deriving DecidableEq, Repr

/-- The rest of the system, with a record of what the host does. -/
def traceOp (op : Cfg.Op W) : Cfg.Op (W × List HostEv) := fun w t => (((op w.1 t).1, w.2 ++ [.asked t.completer_id t.address]), (op w.1 t).2)
@[inherit_doc traceOp] def traceWait (wait : Nat → W → W) (us : Nat) (w : W × List HostEv) : W × List HostEv := (wait us w.1, w.2 ++ [.waited us])

/-- The first `m` rounds: waiting 10 µs, 20 µs, 40 µs and so on, and reading register 0 after each. -/
def rounds (id : PcieId) (m : Nat) : List HostEv := (List.range m).flatMap fun k => [.waited (10 * 2 ^ k), .asked id 0]

/-- The time from the first to the last look at a device, in ns, if the requests themselves take none. -/
def patience : Nat := 1000 * ((List.range 10).map fun k => 10 * 2 ^ k).sum

/-- A vendor and device ID that the host takes for a device. -/
def ValidId (v : Nat) : Prop := v ∉ [0, 0xffffffff, 0xffff0000, 0x0000ffff, 0xffff0001]

/-- Root control (bits 0 to 15) and root capabilities (bits 16 to 31). -/
def rootReg (p : CfgPort S) : Nat := (HostCaps.offset p.caps 0x10).getD 0 / 4 + 7

end Pcie.Spec
