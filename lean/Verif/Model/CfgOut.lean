import Verif.Model.CapRegs
import Verif.Model.Config
import Verif.Model.Bar
import Verif.Model.Msi
/-
Model of the configuration output ports: `tl_cfg_*` of the Intel hard IP models (`_run_cfg_out_logic*` of intel/s10/s10_model.py and intel/ptile/ptile_model.py) and the status outputs of the
Xilinx hard IP models (`_run_cfg_status_logic` of xilinx/us/us_model.py and usp_model.py).
-/
namespace Pcie
open CapRegs

/-- s10_model.py:60-110, ptile_model.py:60-110: a function of the device: its ID, the registers common to all functions, and its capabilities. -/
structure CfgFn where
  id : PcieId := ⟨0, 0, 0⟩
  fn : Common Unit
  pm : Attrs
  pcie : Attrs
  aer : Attrs
  msi : MsiCap
  msix : MsixCap

/-- The objects whose attributes are shown. -/
inductive CfgObj | id | fn | pm | pcie | aer | msi | msix
deriving DecidableEq, Repr

/-- The attributes of an object, with the names of the code; only those that are shown. -/
def CfgFn.attrs (f : CfgFn) : CfgObj → Attrs
  | .id => fun a => if a = ("bus", 0) then f.id.bus else if a = ("device", 0) then f.id.device else 0
  | .fn => fun a =>
    if a = ("memory_space_enable", 0) then f.fn.memEnable.toNat
    else if a = ("bus_master_enable", 0) then f.fn.busMaster.toNat
    else if a = ("parity_error_response_enable", 0) then f.fn.parityResp.toNat
    else if a = ("serr_enable", 0) then f.fn.serr.toNat
    else if a = ("interrupt_disable", 0) then f.fn.intDisable.toNat
    else 0
  | .pm => f.pm
  | .pcie => f.pcie
  | .aer => f.aer
  | .msi => fun a =>
    if a = ("msi_enable", 0) then f.msi.enable.toNat
    else if a = ("msi_multiple_message_enable", 0) then f.msi.mme
    else if a = ("msi_64bit_address_capable", 0) then f.msi.cap64.toNat
    else if a = ("msi_extended_message_data_enable", 0) then f.msi.extEnable.toNat
    else if a = ("msi_message_address", 0) then f.msi.addr
    else if a = ("msi_message_data", 0) then f.msi.data
    else if a = ("msi_mask_bits", 0) then f.msi.maskBits
    else 0
  | .msix => fun a =>
    if a = ("msix_enable", 0) then f.msix.enable.toNat
    else if a = ("msix_function_mask", 0) then f.msix.functionMask.toNat
    else 0

/-- The statements that make a value: `val |= ...` with an attribute as in the registers of the capabilities (`rd`), `(x.a >> shift) & mask` (`sl`), `x.a` (`raw`),
`await func.aer_ext_cap.read_register(reg)` (`aer`), the same saved as `val` of which the lower 16 bits are shown (`aerLo`), and the upper 16 bits of `val` (`savedHi`). -/
inductive OutS
  | rd (o : CfgObj) (r : RdS)
  | sl (o : CfgObj) (a : Attrib) (shift mask : Nat)
  | raw (o : CfgObj) (a : Attrib)
  | aer (reg : Nat)
  | aerLo (reg : Nat)
  | savedHi
deriving DecidableEq, Repr

/-- The value that a statement adds; `saved` is `val` of the register before. -/
def OutS.eval (f : CfgFn) (saved : Nat) : OutS → Nat
  | rd o r => r.eval (f.attrs o)
  | sl o a k m => (f.attrs o a >>> k) &&& m
  | raw o a => f.attrs o a
  | aer reg => CapRegs.aer.read f.aer reg
  | aerLo reg => CapRegs.aer.read f.aer reg &&& 0xffff
  | savedHi => (saved >>> 16) &&& 0xffff

/-- The value of an output register. -/
def evalOut (f : CfgFn) (saved : Nat) (l : List OutS) : Nat := l.foldl (fun v s => v ||| s.eval f saved) 0

/-- What is saved as `val` for the next register. -/
def savedAfter (f : CfgFn) (saved : Nat) : List OutS → Nat
  | [.aerLo reg] => CapRegs.aer.read f.aer reg
  | _ => saved

/-- s10_model.py:853-943 `_run_cfg_out_logic_htile`: the values of `tl_cfg_ctl` for `tl_cfg_add` = 0, 1, ... -/
def htileOut : List (List OutS) := [
  [.rd .pcie (.flag ("ido_request_enable", 0) 31),
   .rd .pcie (.flag ("enable_no_snoop", 0) 30),
   .rd .pcie (.flag ("enable_relaxed_ordering", 0) 29),
   .rd .id (.num ("device", 0) 0x1f 24),
   .rd .id (.num ("bus", 0) 0xff 16),
   .rd .fn (.flag ("memory_space_enable", 0) 15),
   .rd .pcie (.flag ("ido_completion_enable", 0) 14),
   .rd .fn (.flag ("parity_error_response_enable", 0) 13),
   .rd .fn (.flag ("serr_enable", 0) 12),
   .rd .pcie (.flag ("fatal_error_reporting_enable", 0) 11),
   .rd .pcie (.flag ("non_fatal_error_reporting_enable", 0) 10),
   .rd .pcie (.flag ("correctable_error_reporting_enable", 0) 9),
   .rd .pcie (.flag ("unsupported_request_reporting_enable", 0) 8),
   .rd .fn (.flag ("bus_master_enable", 0) 7),
   .rd .pcie (.flag ("extended_tag_field_enable", 0) 6),
   .rd .pcie (.num ("max_read_request_size", 0) 0x7 3),
   .rd .pcie (.num ("max_payload_size", 0) 0x7 0)],
  [.rd .pm (.flag ("no_soft_reset", 0) 15),
   .rd .pcie (.flag ("read_completion_boundary", 0) 14),
   .rd .fn (.flag ("interrupt_disable", 0) 13),
   .rd .pcie (.num ("interrupt_message_number", 0) 0x1f 8),
   .rd .pcie (.flag ("power_controller_control", 0) 4),
   .rd .pcie (.num ("attention_indicator_control", 0) 0x3 2),
   .rd .pcie (.num ("power_indicator_control", 0) 0x3 0)],
  [.rd .pcie (.num ("current_link_speed", 0) 0xf 28),
   .rd .pcie (.flag ("ari_forwarding_enable", 0) 7),
   .rd .pcie (.flag ("atomic_op_requester_enable", 0) 6)],
  [.rd .msi (.num ("msi_message_address", 0) 0xffffffff 0)],
  [.sl .msi ("msi_message_address", 0) 32 0xffffffff],
  [.raw .msi ("msi_mask_bits", 0)],
  [.rd .msi (.num ("msi_message_data", 0) 0xffff 16),
   .rd .pcie (.flag ("system_error_on_fatal_error_enable", 0) 15),
   .rd .pcie (.flag ("system_error_on_non_fatal_error_enable", 0) 14),
   .rd .pcie (.flag ("system_error_on_correctable_error_enable", 0) 13),
   .rd .aer (.num ("advanced_error_interrupt_message_number", 0) 0x1f 8),
   .rd .msix (.flag ("msix_function_mask", 0) 6),
   .rd .msix (.flag ("msix_enable", 0) 5),
   .rd .msi (.num ("msi_multiple_message_enable", 0) 0x7 2),
   .rd .msi (.flag ("msi_64bit_address_capable", 0) 1),
   .rd .msi (.flag ("msi_enable", 0) 0)],
  [.aer 2],
  [.aer 5],
  [.aer 3]]

/-- s10_model.py:945-1020 `_run_cfg_out_logic_ltile`. -/
def ltileOut : List (List OutS) := [
  [.rd .pcie (.flag ("ido_request_enable", 0) 31),
   .rd .pcie (.flag ("enable_no_snoop", 0) 30),
   .rd .pcie (.flag ("enable_relaxed_ordering", 0) 29),
   .rd .id (.num ("device", 0) 0x1f 24),
   .rd .id (.num ("bus", 0) 0xff 16),
   .rd .fn (.flag ("memory_space_enable", 0) 15),
   .rd .pcie (.flag ("ido_completion_enable", 0) 14),
   .rd .pcie (.num ("negotiated_link_width", 0) 0x3f 8),
   .rd .fn (.flag ("bus_master_enable", 0) 7),
   .rd .pcie (.flag ("extended_tag_field_enable", 0) 6),
   .rd .pcie (.num ("max_read_request_size", 0) 0x7 3),
   .rd .pcie (.num ("max_payload_size", 0) 0x7 0)],
  [.rd .pcie (.flag ("system_error_on_fatal_error_enable", 0) 31),
   .rd .pcie (.flag ("system_error_on_non_fatal_error_enable", 0) 30),
   .rd .pcie (.flag ("system_error_on_correctable_error_enable", 0) 29),
   .rd .aer (.num ("advanced_error_interrupt_message_number", 0) 0x1f 28),
   .rd .pcie (.num ("negotiated_link_width", 0) 0x3f 18),
   .rd .pm (.flag ("no_soft_reset", 0) 17),
   .rd .pcie (.flag ("read_completion_boundary", 0) 16),
   .rd .fn (.flag ("interrupt_disable", 0) 13),
   .rd .pcie (.num ("interrupt_message_number", 0) 0x1f 8),
   .rd .pcie (.flag ("power_controller_control", 0) 4),
   .rd .pcie (.num ("attention_indicator_control", 0) 0x3 2),
   .rd .pcie (.num ("power_indicator_control", 0) 0x3 0)],
  [.rd .pcie (.num ("current_link_speed", 0) 0xf 12),
   .rd .pcie (.flag ("ari_forwarding_enable", 0) 5),
   .rd .pcie (.flag ("atomic_op_requester_enable", 0) 4)],
  [.rd .msi (.num ("msi_message_address", 0) 0xffffffff 0)],
  [.sl .msi ("msi_message_address", 0) 32 0xffffffff],
  [.raw .msi ("msi_mask_bits", 0)],
  [.rd .msi (.num ("msi_message_data", 0) 0xffff 16),
   .rd .msix (.flag ("msix_function_mask", 0) 6),
   .rd .msix (.flag ("msix_enable", 0) 5),
   .rd .msi (.num ("msi_multiple_message_enable", 0) 0x7 2),
   .rd .msi (.flag ("msi_64bit_address_capable", 0) 1),
   .rd .msi (.flag ("msi_enable", 0) 0)],
  [.rd .pcie (.num ("current_link_speed", 0) 0xf 6),
   .rd .pcie (.num ("negotiated_link_width", 0) 0x3f 0)]]

/-- ptile_model.py:987-1180 `_run_cfg_out_logic`. -/
def ptileOut : List (List OutS) := [
  [.rd .fn (.flag ("memory_space_enable", 0) 15),
   .rd .pcie (.flag ("ido_completion_enable", 0) 14),
   .rd .fn (.flag ("parity_error_response_enable", 0) 13),
   .rd .fn (.flag ("serr_enable", 0) 12),
   .rd .pcie (.flag ("fatal_error_reporting_enable", 0) 11),
   .rd .pcie (.flag ("non_fatal_error_reporting_enable", 0) 10),
   .rd .pcie (.flag ("correctable_error_reporting_enable", 0) 9),
   .rd .pcie (.flag ("unsupported_request_reporting_enable", 0) 8),
   .rd .fn (.flag ("bus_master_enable", 0) 7),
   .rd .pcie (.flag ("extended_tag_field_enable", 0) 6),
   .rd .pcie (.num ("max_read_request_size", 0) 0x7 3),
   .rd .pcie (.num ("max_payload_size", 0) 0x7 0)],
  [.rd .pcie (.flag ("ido_request_enable", 0) 15),
   .rd .pcie (.flag ("enable_no_snoop", 0) 14),
   .rd .pcie (.flag ("enable_relaxed_ordering", 0) 13),
   .rd .id (.num ("device", 0) 0x1f 8),
   .rd .id (.num ("bus", 0) 0xff 0)],
  [.rd .pm (.flag ("no_soft_reset", 0) 15),
   .rd .pcie (.flag ("read_completion_boundary", 0) 14),
   .rd .fn (.flag ("interrupt_disable", 0) 13),
   .rd .pcie (.num ("interrupt_message_number", 0) 0x1f 8),
   .rd .pcie (.flag ("power_controller_control", 0) 4),
   .rd .pcie (.num ("attention_indicator_control", 0) 0x3 2),
   .rd .pcie (.num ("power_indicator_control", 0) 0x3 0)],
  [],
  [.rd .pcie (.flag ("atomic_op_egress_blocking", 0) 14),
   .rd .pcie (.flag ("ari_forwarding_enable", 0) 7),
   .rd .pcie (.flag ("atomic_op_requester_enable", 0) 6)],
  [.rd .pcie (.num ("current_link_speed", 0) 0xf 12)],
  [.rd .msi (.num ("msi_message_address", 0) 0xffff 0)],
  [.sl .msi ("msi_message_address", 0) 16 0xffff],
  [.sl .msi ("msi_message_address", 0) 32 0xffff],
  [.sl .msi ("msi_message_address", 0) 48 0xffff],
  [.rd .msi (.num ("msi_mask_bits", 0) 0xffff 0)],
  [.sl .msi ("msi_mask_bits", 0) 16 0xffff],
  [.rd .pcie (.flag ("system_error_on_fatal_error_enable", 0) 15),
   .rd .pcie (.flag ("system_error_on_non_fatal_error_enable", 0) 14),
   .rd .pcie (.flag ("system_error_on_correctable_error_enable", 0) 13),
   .rd .aer (.num ("advanced_error_interrupt_message_number", 0) 0x1f 8),
   .rd .msi (.flag ("msi_extended_message_data_enable", 0) 7),
   .rd .msix (.flag ("msix_function_mask", 0) 6),
   .rd .msix (.flag ("msix_enable", 0) 5),
   .rd .msi (.num ("msi_multiple_message_enable", 0) 0x7 2),
   .rd .msi (.flag ("msi_64bit_address_capable", 0) 1),
   .rd .msi (.flag ("msi_enable", 0) 0)],
  [.rd .msi (.num ("msi_message_data", 0) 0xffff 0)],
  [.aerLo 2],
  [.savedHi],
  [.aerLo 5],
  [.savedHi],
  [.aerLo 3],
  [.savedHi],
  [],
  [],
  [],
  [],
  [],
  [],
  [],
  [],
  [.rd .pcie (.num ("negotiated_link_width", 0) 0x3f 0)],
  [.sl .msi ("msi_message_data", 0) 16 0xffff],
  [],
  []]

/-- The outputs during one clock cycle. -/
structure CfgOut where
  func : Nat
  add : Nat
  ctl : Nat
deriving DecidableEq, Repr

/-- The position of the task: function, register, and `val`. -/
structure CfgPos where
  k : Nat := 0
  r : Nat := 0
  saved : Nat := 0
  /-- `tl_cfg_func` -/
  func : Nat := 0
deriving DecidableEq, Repr

/-- One clock cycle: s10_model.py:853-943, 945-1020, ptile_model.py:987-1180: the loops over the functions and the registers `regs`. `none` if the position does not exist. -/
def CfgPos.step (regs : List (List OutS)) (p : CfgPos) (fns : List CfgFn) : Option (CfgOut × CfgPos) :=
  match fns[p.k]?, regs[p.r]? with
  | some f, some l =>
    let func := if p.r = 0 then f.id.function else p.func
    some (⟨func, p.r, evalOut f p.saved l⟩,
      { k := if p.r + 1 < regs.length then p.k else if p.k + 1 < fns.length then p.k + 1 else 0
        r := if p.r + 1 < regs.length then p.r + 1 else 0
        saved := savedAfter f p.saved l
        func := func })
  | _, _ => none

/-- The position after `n` cycles; `fns n` are the functions in cycle `n`. -/
def cfgPos (regs : List (List OutS)) (fns : Nat → List CfgFn) : Nat → Option CfgPos
  | 0 => some {}
  | n + 1 => match cfgPos regs fns n with
    | none => none
    | some p => (p.step regs (fns n)).map (·.2)

/-- The outputs in cycle `n`. -/
def cfgOutAt (regs : List (List OutS)) (fns : Nat → List CfgFn) (n : Nat) : Option CfgOut :=
  match cfgPos regs fns n with
  | none => none
  | some p => (p.step regs (fns n)).map (·.1)

/-! ### The status outputs of the Xilinx models -/

/-- us_model.py:1230-1268, usp_model.py:1380-1423: the outputs that depend on configuration registers. -/
structure UsStatus where
  width : Nat
  speed : Nat
  payload : Nat
  readReq : Nat
  function : Nat
  rcb : Nat
deriving DecidableEq, Repr

/-- us_model.py:1239-1245, usp_model.py:1389-1396: `cfg_function_status`, from function `k` on. -/
def functionStatus (k : Nat) : List CfgFn → Nat
  | [] => 0
  | f :: fs => (if f.fn.busMaster then 0x07 <<< (k * 4) else 0) ||| (if f.fn.intDisable then 0x08 <<< (k * 4) else 0) ||| functionStatus (k + 1) fs

/-- us_model.py:1262-1267, usp_model.py:1418-1423: `cfg_rcb_status`. -/
def rcbStatus (k : Nat) : List CfgFn → Nat
  | [] => 0
  | f :: fs => (if f.pcie ("read_completion_boundary", 0) = 0 then 0 else 1 <<< k) ||| rcbStatus (k + 1) fs

/-- us_model.py:1210-1267 `_run_cfg_status_logic`. `none`: there is no function 0. -/
def usStatus (fns : List CfgFn) : Option UsStatus :=
  fns.head?.map fun f =>
    { width := f.pcie ("negotiated_link_width", 0)
      speed := (1 <<< (f.pcie ("current_link_speed", 0) &&& 3)) >>> 1
      payload := f.pcie ("max_payload_size", 0)
      readReq := f.pcie ("max_read_request_size", 0)
      function := functionStatus 0 fns
      rcb := rcbStatus 0 fns }

/-- usp_model.py:1361-1423 `_run_cfg_status_logic`. `max(x - 1, 0)` is subtraction of natural numbers. -/
def uspStatus (fns : List CfgFn) : Option UsStatus :=
  fns.head?.map fun f =>
    { width := min (bitLength (f.pcie ("negotiated_link_width", 0)) - 1) 4
      speed := min (f.pcie ("current_link_speed", 0) - 1) 3
      payload := f.pcie ("max_payload_size", 0) &&& 3
      readReq := f.pcie ("max_read_request_size", 0)
      function := functionStatus 0 fns
      rcb := rcbStatus 0 fns }

end Pcie
