import Verif.Model.Utils
/-
Model of the registers of the capabilities: caps/pm.py, caps/pcie.py, caps/aer.py. The code of each register is a list of statements of a few
forms; here it is that list, with the meaning of each form. The names of the attributes are those of the code.
-/
namespace Pcie
namespace CapRegs

/-- An attribute of a capability object; an element of a list attribute has its index, other attributes 0. -/
abbrev Attrib := String × Nat

/-- The attributes of a capability object. `False` and `True` are 0 and 1. -/
abbrev Attrs := Attrib → Nat

/-- `self.f = v`. -/
def Attrs.set (s : Attrs) (f : Attrib) (v : Nat) : Attrs := fun g => if g = f then v else s g

/-- The statements of `_read_register` (caps/pcie.py:253-456 and others): `val |= v`, `val |= bool(self.f) << shift`,
`val |= (self.f & mask) << shift` and `val |= (self.f & mask) >> shift`. -/
inductive RdS
  | const (v : Nat)
  | flag (f : Attrib) (shift : Nat)
  | num (f : Attrib) (mask shift : Nat)
  | shr (f : Attrib) (mask shift : Nat)
deriving DecidableEq, Repr

/-- The value that a statement adds. -/
def RdS.eval (s : Attrs) : RdS → Nat
  | const v => v
  | flag f k => (if s f = 0 then 0 else 1) <<< k
  | num f m k => (s f &&& m) <<< k
  | shr f m k => (s f &&& m) >>> k

/-- The value of a register. -/
def evalRd (s : Attrs) (l : List RdS) : Nat := l.foldl (fun v r => v ||| r.eval s) 0

/-- The statements of `_write_register` (caps/pcie.py:458-586 and others). `be` is the byte enable in the condition `mask & be`. In this order:
`self.f = bool(data & 1 << bit)`, `self.f = (data >> shift) & m`, `if data & 1 << bit: self.f = False`, `self.f = self.f & keep | (data >> shift) & m`,
and `self.f = byte_mask_update(self.f, mask, self.f & ~data) & 0xffffffff`. The calls `initiate_function_level_reset` and `initiate_retrain_link`
do nothing (caps/pcie.py:588-592). -/
inductive WrS
  | flag (be : Nat) (f : Attrib) (bit : Nat)
  | num (be : Nat) (f : Attrib) (shift m : Nat)
  | clear (be : Nat) (f : Attrib) (bit : Nat)
  | merge (be : Nat) (f : Attrib) (keep shift m : Nat)
  | clearMask (f : Attrib)
deriving DecidableEq, Repr

/-- The effect of a statement. -/
def WrS.exec (data mask : Nat) (s : Attrs) : WrS → Attrs
  | flag be f bit => if mask &&& be ≠ 0 then s.set f (if data &&& 1 <<< bit ≠ 0 then 1 else 0) else s
  | num be f shift m => if mask &&& be ≠ 0 then s.set f ((data >>> shift) &&& m) else s
  | clear be f bit => if mask &&& be ≠ 0 then if data &&& 1 <<< bit ≠ 0 then s.set f 0 else s else s
  | merge be f keep shift m => if mask &&& be ≠ 0 then s.set f ((s f &&& keep) ||| ((data >>> shift) &&& m)) else s
  | clearMask f => s.set f (byteMaskUpdate (s f) mask (andNot (s f) data) &&& 0xffffffff)

/-- The attributes after a write. -/
def execWr (data mask : Nat) (s : Attrs) (l : List WrS) : Attrs := l.foldl (WrS.exec data mask) s

/-- A class of capabilities. -/
structure RegCap where
  ext : Bool
  rd : Nat → List RdS
  wr : Nat → List WrS

/-- caps/common.py:112-116 (`PciCap.read_register`) and 138-141 (`PciExtCap.read_register`). -/
def RegCap.read (c : RegCap) (s : Attrs) (reg : Nat) : Nat :=
  if c.ext then
    if reg = 0 then (s ("next_cap", 0) &&& 0xfff) <<< 20 ||| (s ("cap_ver", 0) &&& 0xf) <<< 16 ||| (s ("cap_id", 0) &&& 0xffff)
    else evalRd s (c.rd reg)
  else if reg = 0 then (evalRd s (c.rd reg) &&& 0xffff0000) ||| (s ("next_cap", 0) &&& 0xff) <<< 8 ||| (s ("cap_id", 0) &&& 0xff)
  else evalRd s (c.rd reg)

/-- caps/common.py:118-119: `write_register`. -/
def RegCap.write (c : RegCap) (s : Attrs) (reg data mask : Nat) : Attrs := execWr data mask s (c.wr reg)

/-- caps/pm.py:65-89: `PmCapability._read_register`. -/
def pmRd (reg : Nat) : List RdS :=
  if reg = 0 then [
    .const (3 <<< 16),
    .flag ("pme_clock", 0) 19,
    .flag ("immediate_readiness_on_return_to_d0", 0) 20,
    .flag ("device_specific_initialization", 0) 21,
    .num ("aux_current", 0) 0x7 22,
    .flag ("d1_support", 0) 25,
    .flag ("d2_support", 0) 26,
    .num ("pme_support", 0) 0x1f 27]
  else if reg = 1 then [
    .num ("power_state", 0) 0x3 0,
    .flag ("no_soft_reset", 0) 3,
    .flag ("pme_enable", 0) 8,
    .num ("data_select", 0) 0xf 9,
    .num ("data_scale", 0) 0x3 13,
    .flag ("pme_status", 0) 15,
    .num ("pm_data", 0) 0xff 24]
  else []

/-- caps/pm.py:91-101: `PmCapability._write_register`. -/
def pmWr (reg : Nat) : List WrS :=
  if reg = 1 then [
    .num 0x1 ("power_state", 0) 0 0x3,
    .flag 0x2 ("pme_enable", 0) 8,
    .num 0x2 ("data_select", 0) 9 0xf,
    .num 0x2 ("data_scale", 0) 13 0x3,
    .clear 0x2 ("pme_status", 0) 15]
  else []

/-- caps/pcie.py:253-456: `PcieCapability._read_register`. -/
def pcieRd (reg : Nat) : List RdS :=
  if reg = 0 then [
    .const (2 <<< 16),
    .num ("pcie_device_type", 0) 0xf 20,
    .flag ("pcie_slot_implemented", 0) 24,
    .num ("interrupt_message_number", 0) 0x1f 25]
  else if reg = 1 then [
    .num ("max_payload_size_supported", 0) 0x7 0,
    .num ("phantom_functions_supported", 0) 0x3 3,
    .flag ("extended_tag_supported", 0) 5,
    .num ("endpoint_l0s_acceptable_latency", 0) 0x7 6,
    .num ("endpoint_l1_acceptable_latency", 0) 7 9,
    .flag ("role_based_error_reporting", 0) 15,
    .num ("captured_slot_power_limit_value", 0) 0xff 18,
    .num ("captured_slot_power_limit_scale", 0) 0x3 26,
    .flag ("function_level_reset_capability", 0) 28]
  else if reg = 2 then [
    .flag ("correctable_error_reporting_enable", 0) 0,
    .flag ("non_fatal_error_reporting_enable", 0) 1,
    .flag ("fatal_error_reporting_enable", 0) 2,
    .flag ("unsupported_request_reporting_enable", 0) 3,
    .flag ("enable_relaxed_ordering", 0) 4,
    .num ("max_payload_size", 0) 0x7 5,
    .flag ("extended_tag_field_enable", 0) 8,
    .flag ("phantom_functions_enable", 0) 9,
    .flag ("aux_power_pm_enable", 0) 10,
    .flag ("enable_no_snoop", 0) 11,
    .num ("max_read_request_size", 0) 0x7 12,
    .flag ("correctable_error_detected", 0) 16,
    .flag ("nonfatal_error_detected", 0) 17,
    .flag ("fatal_error_detected", 0) 18,
    .flag ("unsupported_request_detected", 0) 19,
    .flag ("aux_power_detected", 0) 20,
    .flag ("transactions_pending", 0) 21,
    .flag ("emergency_power_reduction_detected", 0) 22]
  else if reg = 3 then [
    .num ("max_link_speed", 0) 0xf 0,
    .shr ("max_link_width", 0) 0x3f 4,
    .shr ("aspm_support", 0) 0x3 10,
    .shr ("l0s_exit_latency", 0) 0x7 12,
    .shr ("l1_exit_latency", 0) 0x7 15,
    .flag ("clock_power_management", 0) 18,
    .flag ("surprise_down_error_reporting_capability", 0) 19,
    .flag ("data_link_layer_link_active_reporting_capable", 0) 20,
    .flag ("link_bandwidth_notification_capability", 0) 21,
    .flag ("aspm_optionality_compliance", 0) 22,
    .num ("port_number", 0) 0xff 24]
  else if reg = 4 then [
    .num ("aspm_control", 0) 0x3 0,
    .flag ("read_completion_boundary", 0) 3,
    .flag ("link_disable", 0) 4,
    .flag ("common_clock_configuration", 0) 6,
    .flag ("extended_synch", 0) 7,
    .flag ("enable_clock_power_management", 0) 8,
    .flag ("hardware_autonomous_width_disable", 0) 9,
    .flag ("link_bandwidth_management_interrupt_enable", 0) 10,
    .flag ("link_autonomous_bandwidth_interrupt_enable", 0) 11,
    .num ("drs_signalling_control", 0) 0x3 14,
    .num ("current_link_speed", 0) 0xf 16,
    .num ("negotiated_link_width", 0) 0x3f 20,
    .flag ("link_training", 0) 27,
    .flag ("slot_clock_configuration", 0) 28,
    .flag ("data_link_layer_link_active", 0) 29,
    .flag ("link_bandwidth_management_status", 0) 30,
    .flag ("link_autonomous_bandwidth_status", 0) 31]
  else if reg = 5 then [
    .flag ("attention_button_present", 0) 0,
    .flag ("power_controller_present", 0) 1,
    .flag ("mrl_sensor_present", 0) 2,
    .flag ("attention_indicator_present", 0) 3,
    .flag ("power_indicator_present", 0) 4,
    .flag ("hot_plug_surprise", 0) 5,
    .flag ("hot_plug_capable", 0) 6,
    .num ("slot_power_limit_value", 0) 0xff 7,
    .num ("slot_power_limit_scale", 0) 0x3 15,
    .flag ("electromechanical_interlock_present", 0) 17,
    .flag ("no_command_completed_support", 0) 18,
    .num ("physical_slot_number", 0) 0x1fff 19]
  else if reg = 6 then [
    .flag ("attention_button_pressed_enable", 0) 0,
    .flag ("power_fault_detected_enable", 0) 1,
    .flag ("mrl_sensor_changed_enable", 0) 2,
    .flag ("presence_detect_changed_enable", 0) 3,
    .flag ("command_completed_interrupt_enable", 0) 4,
    .flag ("hot_plug_interrupt_enable", 0) 5,
    .num ("attention_indicator_control", 0) 0x3 6,
    .num ("power_indicator_control", 0) 0x3 8,
    .flag ("power_controller_control", 0) 10,
    .flag ("electromechanical_interlock_control", 0) 11,
    .flag ("data_link_layer_state_changed_enable", 0) 12,
    .flag ("auto_slot_power_limit_disable", 0) 13,
    .flag ("attention_button_pressed", 0) 16,
    .flag ("power_fault_detected", 0) 17,
    .flag ("mrl_sensor_changed", 0) 18,
    .flag ("presence_detect_changed", 0) 19,
    .flag ("command_completed", 0) 20,
    .flag ("mrl_sensor_state", 0) 21,
    .flag ("presence_detect_state", 0) 22,
    .flag ("electromechanical_interlock_status", 0) 23,
    .flag ("data_link_layer_state_changed", 0) 24]
  else if reg = 7 then [
    .flag ("system_error_on_correctable_error_enable", 0) 0,
    .flag ("system_error_on_non_fatal_error_enable", 0) 1,
    .flag ("system_error_on_fatal_error_enable", 0) 2,
    .flag ("pme_interrupt_enable", 0) 3,
    .flag ("crs_software_visibility_enable", 0) 4,
    .flag ("crs_software_visibility", 0) 16]
  else if reg = 8 then [
    .num ("pme_requester_id", 0) 0xffff 0,
    .flag ("pme_status", 0) 16,
    .flag ("pme_pending", 0) 17]
  else if reg = 9 then [
    .num ("completion_timeout_ranges_supported", 0) 0xf 0,
    .flag ("completion_timeout_disable_supported", 0) 4,
    .flag ("ari_forwarding_supported", 0) 5,
    .flag ("atomic_op_forwarding_supported", 0) 6,
    .flag ("atomic_op_32_bit_completer_supported", 0) 7,
    .flag ("atomic_op_64_bit_completer_supported", 0) 8,
    .flag ("cas_128_bit_completer_supported", 0) 9,
    .flag ("no_ro_enabled_pr_pr_passing", 0) 10,
    .flag ("ltr_mechanism_supported", 0) 11,
    .num ("tph_completer_supported", 0) 0x3 12,
    .num ("obff_supported", 0) 0x3 18,
    .flag ("extended_fmt_field_supported", 0) 20,
    .flag ("end_end_tlp_prefix_supported", 0) 21,
    .num ("max_end_end_tlp_prefix", 0) 0x3 22,
    .num ("emergency_power_reduction_supported", 0) 0x3 24,
    .flag ("emergency_power_reduction_initialization_required", 0) 26,
    .flag ("frs_supported", 0) 31]
  else if reg = 10 then [
    .num ("completion_timeout_value", 0) 0xf 0,
    .flag ("completion_timeout_disable", 0) 4,
    .flag ("ari_forwarding_enable", 0) 5,
    .flag ("atomic_op_requester_enable", 0) 6,
    .flag ("atomic_op_egress_blocking", 0) 7,
    .flag ("ido_request_enable", 0) 8,
    .flag ("ido_completion_enable", 0) 9,
    .flag ("ltr_mechanism_enable", 0) 10,
    .flag ("emergency_power_reduction_request", 0) 11,
    .flag ("ten_bit_tag_requester_enable", 0) 12,
    .num ("obff_enable", 0) 0x3 13,
    .flag ("end_end_tlp_prefix_blocking", 0) 15]
  else if reg = 11 then [
    .num ("supported_link_speeds", 0) 0x7f 1,
    .flag ("crosslink_supported", 0) 8,
    .num ("lower_skp_os_generation_supported_speeds", 0) 0x7f 9,
    .num ("lower_skp_os_reception_supported_speeds", 0) 0x7f 16,
    .flag ("retimer_presence_detect_supported", 0) 23,
    .flag ("two_retimers_presence_detect_supported", 0) 24,
    .flag ("drs_supported", 0) 31]
  else if reg = 12 then [
    .num ("target_link_speed", 0) 0xf 0,
    .flag ("enter_compliance", 0) 4,
    .flag ("hardware_autonomous_speed_disable", 0) 5,
    .flag ("selectable_deemphasis", 0) 6,
    .num ("transmit_margin", 0) 0x7 7,
    .flag ("enter_modified_compliance", 0) 10,
    .flag ("compliance_sos", 0) 11,
    .num ("compliance_preset_deemphasis", 0) 0xf 12,
    .flag ("current_deemphasis_level", 0) 16,
    .flag ("equalization_8gt_complete", 0) 17,
    .flag ("equalization_8gt_phase_1_successful", 0) 18,
    .flag ("equalization_8gt_phase_2_successful", 0) 19,
    .flag ("equalization_8gt_phase_3_successful", 0) 20,
    .flag ("link_equalization_8gt_request", 0) 21,
    .flag ("retimer_presence_detected", 0) 22,
    .flag ("two_retimers_presence_detected", 0) 23,
    .num ("crosslink_resolution", 0) 0x3 24,
    .num ("downstream_component_presence", 0) 0x7 27,
    .flag ("drs_message_received", 0) 31]
  else []

/-- caps/pcie.py:458-586: `PcieCapability._write_register`. -/
def pcieWr (reg : Nat) : List WrS :=
  if reg = 2 then [
    .flag 0x1 ("correctable_error_reporting_enable", 0) 0,
    .flag 0x1 ("non_fatal_error_reporting_enable", 0) 1,
    .flag 0x1 ("fatal_error_reporting_enable", 0) 2,
    .flag 0x1 ("unsupported_request_reporting_enable", 0) 3,
    .flag 0x1 ("enable_relaxed_ordering", 0) 4,
    .num 0x1 ("max_payload_size", 0) 5 0x7,
    .flag 0x2 ("extended_tag_field_enable", 0) 8,
    .flag 0x2 ("phantom_functions_enable", 0) 9,
    .flag 0x2 ("aux_power_pm_enable", 0) 10,
    .flag 0x2 ("enable_no_snoop", 0) 11,
    .num 0x2 ("max_read_request_size", 0) 12 0x7,
    .clear 0x4 ("correctable_error_detected", 0) 16,
    .clear 0x4 ("nonfatal_error_detected", 0) 17,
    .clear 0x4 ("fatal_error_detected", 0) 18,
    .clear 0x4 ("unsupported_request_detected", 0) 19,
    .clear 0x4 ("emergency_power_reduction_detected", 0) 22]
  else if reg = 4 then [
    .num 0x1 ("aspm_control", 0) 0 3,
    .flag 0x1 ("read_completion_boundary", 0) 3,
    .flag 0x1 ("link_disable", 0) 4,
    .flag 0x1 ("common_clock_configuration", 0) 6,
    .flag 0x1 ("extended_synch", 0) 7,
    .flag 0x2 ("enable_clock_power_management", 0) 8,
    .flag 0x2 ("hardware_autonomous_width_disable", 0) 9,
    .flag 0x2 ("link_bandwidth_management_interrupt_enable", 0) 10,
    .flag 0x2 ("link_autonomous_bandwidth_interrupt_enable", 0) 11,
    .num 0x2 ("drs_signalling_control", 0) 14 0x3,
    .clear 0x8 ("link_bandwidth_management_status", 0) 30,
    .clear 0x8 ("link_autonomous_bandwidth_status", 0) 31]
  else if reg = 6 then [
    .flag 0x1 ("attention_button_pressed_enable", 0) 0,
    .flag 0x1 ("power_fault_detected_enable", 0) 1,
    .flag 0x1 ("mrl_sensor_changed_enable", 0) 2,
    .flag 0x1 ("presence_detect_changed_enable", 0) 3,
    .flag 0x1 ("command_completed_interrupt_enable", 0) 4,
    .flag 0x1 ("hot_plug_interrupt_enable", 0) 5,
    .num 0x1 ("attention_indicator_control", 0) 6 0x3,
    .num 0x2 ("power_indicator_control", 0) 8 0x3,
    .flag 0x2 ("power_controller_control", 0) 10,
    .flag 0x2 ("electromechanical_interlock_control", 0) 11,
    .flag 0x2 ("data_link_layer_state_changed_enable", 0) 12,
    .flag 0x2 ("auto_slot_power_limit_disable", 0) 13,
    .clear 0x4 ("attention_button_pressed", 0) 16,
    .clear 0x4 ("power_fault_detected", 0) 17,
    .clear 0x4 ("mrl_sensor_changed", 0) 18,
    .clear 0x4 ("presence_detect_changed", 0) 19,
    .clear 0x4 ("command_completed", 0) 20,
    .clear 0x4 ("data_link_layer_state_changed", 0) 24]
  else if reg = 7 then [
    .flag 0x1 ("system_error_on_correctable_error_enable", 0) 0,
    .flag 0x1 ("system_error_on_non_fatal_error_enable", 0) 1,
    .flag 0x1 ("system_error_on_fatal_error_enable", 0) 2,
    .flag 0x1 ("pme_interrupt_enable", 0) 3,
    .flag 0x1 ("crs_software_visibility_enable", 0) 4]
  else if reg = 8 then [
    .clear 0x4 ("pme_status", 0) 16]
  else if reg = 10 then [
    .num 0x1 ("completion_timeout_value", 0) 0 0xf,
    .flag 0x1 ("completion_timeout_disable", 0) 4,
    .flag 0x1 ("ari_forwarding_enable", 0) 5,
    .flag 0x1 ("atomic_op_requester_enable", 0) 6,
    .flag 0x1 ("atomic_op_egress_blocking", 0) 7,
    .flag 0x2 ("ido_request_enable", 0) 8,
    .flag 0x2 ("ido_completion_enable", 0) 9,
    .flag 0x2 ("ltr_mechanism_enable", 0) 10,
    .flag 0x2 ("emergency_power_reduction_request", 0) 11,
    .flag 0x2 ("ten_bit_tag_requester_enable", 0) 12,
    .num 0x2 ("obff_enable", 0) 13 0x3,
    .flag 0x2 ("end_end_tlp_prefix_blocking", 0) 15]
  else if reg = 12 then [
    .num 0x1 ("target_link_speed", 0) 0 0xf,
    .flag 0x1 ("enter_compliance", 0) 4,
    .flag 0x1 ("hardware_autonomous_speed_disable", 0) 5,
    .merge 0x1 ("transmit_margin", 0) 0x6 7 0x1,
    .merge 0x2 ("transmit_margin", 0) 0x1 7 0x6,
    .flag 0x2 ("enter_modified_compliance", 0) 10,
    .flag 0x2 ("compliance_sos", 0) 11,
    .num 0x2 ("compliance_preset_deemphasis", 0) 12 0xff,
    .flag 0x4 ("link_equalization_8gt_request", 0) 21,
    .clear 0x4 ("drs_message_received", 0) 31]
  else []

/-- caps/pcie.py:629-651: `PcieExtendedCapability._read_register`. -/
def exp2Rd (reg : Nat) : List RdS :=
  if reg = 1 then [
    .flag ("perform_equalization", 0) 0,
    .flag ("link_equalization_request_interrupt_enable", 0) 1,
    .num ("enable_lower_skp_os_generation", 0) 0x7f 9]
  else if reg = 2 then [
    .num ("lane_error_status", 0) 0xffffffff 0]
  else if reg < 18 then [
    .num ("downstream_port_8gt_transmitter_preset", (reg - 2) * 2) 0xf 0,
    .num ("downstream_port_8gt_receiver_preset_hint", (reg - 2) * 2) 0x7 4,
    .num ("upstream_port_8gt_transmitter_preset", (reg - 2) * 2) 0xf 8,
    .num ("upstream_port_8gt_receiver_preset_hint", (reg - 2) * 2) 0x7 12,
    .num ("downstream_port_8gt_transmitter_preset", (reg - 2) * 2 + 1) 0xf 16,
    .num ("downstream_port_8gt_receiver_preset_hint", (reg - 2) * 2 + 1) 0x7 20,
    .num ("upstream_port_8gt_transmitter_preset", (reg - 2) * 2 + 1) 0xf 24,
    .num ("upstream_port_8gt_receiver_preset_hint", (reg - 2) * 2 + 1) 0x7 28]
  else []

/-- caps/pcie.py:653-663: `PcieExtendedCapability._write_register`. -/
def exp2Wr (reg : Nat) : List WrS :=
  if reg = 1 then [
    .flag 0x1 ("perform_equalization", 0) 0,
    .flag 0x1 ("link_equalization_request_interrupt_enable", 0) 1,
    .num 0x2 ("enable_lower_skp_os_generation", 0) 9 0x7f]
  else if reg = 2 then [
    .clearMask ("lane_error_status", 0)]
  else []

/-- caps/aer.py:176-300: `AerExtendedCapability._read_register`. -/
def aerRd (reg : Nat) : List RdS :=
  if reg = 1 then [
    .flag ("data_link_protocol_error_status", 0) 4,
    .flag ("surprise_down_error_status", 0) 5,
    .flag ("poisoned_tlp_received_status", 0) 12,
    .flag ("flow_control_protocol_error_status", 0) 13,
    .flag ("completion_timeout_status", 0) 14,
    .flag ("completer_abort_status", 0) 15,
    .flag ("unexpected_completion_status", 0) 16,
    .flag ("receiver_overflow_status", 0) 17,
    .flag ("malformed_tlp_status", 0) 18,
    .flag ("ecrc_error_status", 0) 19,
    .flag ("unsupported_request_error_status", 0) 20,
    .flag ("acs_violation_status", 0) 21,
    .flag ("uncorrectable_internal_error_status", 0) 22,
    .flag ("mc_blocked_tlp_status", 0) 23,
    .flag ("atomicop_egress_blocked_status", 0) 24,
    .flag ("tlp_prefix_blocked_error_status", 0) 25,
    .flag ("poisoned_tlp_egress_blocked_status", 0) 26]
  else if reg = 2 then [
    .flag ("data_link_protocol_error_mask", 0) 4,
    .flag ("surprise_down_error_mask", 0) 5,
    .flag ("poisoned_tlp_received_mask", 0) 12,
    .flag ("flow_control_protocol_error_mask", 0) 13,
    .flag ("completion_timeout_mask", 0) 14,
    .flag ("completer_abort_mask", 0) 15,
    .flag ("unexpected_completion_mask", 0) 16,
    .flag ("receiver_overflow_mask", 0) 17,
    .flag ("malformed_tlp_mask", 0) 18,
    .flag ("ecrc_error_mask", 0) 19,
    .flag ("unsupported_request_error_mask", 0) 20,
    .flag ("acs_violation_mask", 0) 21,
    .flag ("uncorrectable_internal_error_mask", 0) 22,
    .flag ("mc_blocked_tlp_mask", 0) 23,
    .flag ("atomicop_egress_blocked_mask", 0) 24,
    .flag ("tlp_prefix_blocked_error_mask", 0) 25,
    .flag ("poisoned_tlp_egress_blocked_mask", 0) 26]
  else if reg = 3 then [
    .flag ("data_link_protocol_error_severity", 0) 4,
    .flag ("surprise_down_error_severity", 0) 5,
    .flag ("poisoned_tlp_received_severity", 0) 12,
    .flag ("flow_control_protocol_error_severity", 0) 13,
    .flag ("completion_timeout_severity", 0) 14,
    .flag ("completer_abort_severity", 0) 15,
    .flag ("unexpected_completion_severity", 0) 16,
    .flag ("receiver_overflow_severity", 0) 17,
    .flag ("malformed_tlp_severity", 0) 18,
    .flag ("ecrc_error_severity", 0) 19,
    .flag ("unsupported_request_error_severity", 0) 20,
    .flag ("acs_violation_severity", 0) 21,
    .flag ("uncorrectable_internal_error_severity", 0) 22,
    .flag ("mc_blocked_tlp_severity", 0) 23,
    .flag ("atomicop_egress_blocked_severity", 0) 24,
    .flag ("tlp_prefix_blocked_error_severity", 0) 25,
    .flag ("poisoned_tlp_egress_blocked_severity", 0) 26]
  else if reg = 4 then [
    .flag ("receiver_error_status", 0) 0,
    .flag ("bad_tlp_status", 0) 6,
    .flag ("bad_dllp_status", 0) 7,
    .flag ("replay_num_rollover_status", 0) 8,
    .flag ("replay_timer_timeout_status", 0) 12,
    .flag ("advisory_nonfatal_error_status", 0) 13,
    .flag ("corrected_internal_error_status", 0) 14,
    .flag ("header_log_overflow_status", 0) 15]
  else if reg = 5 then [
    .flag ("receiver_error_mask", 0) 0,
    .flag ("bad_tlp_mask", 0) 6,
    .flag ("bad_dllp_mask", 0) 7,
    .flag ("replay_num_rollover_mask", 0) 8,
    .flag ("replay_timer_timeout_mask", 0) 12,
    .flag ("advisory_nonfatal_error_mask", 0) 13,
    .flag ("corrected_internal_error_mask", 0) 14,
    .flag ("header_log_overflow_mask", 0) 15]
  else if reg = 6 then [
    .num ("first_error_pointer", 0) 0xf 0,
    .flag ("ecrc_generation_capable", 0) 5,
    .flag ("ecrc_generation_enable", 0) 6,
    .flag ("ecrc_check_capable", 0) 7,
    .flag ("ecrc_check_enable", 0) 8,
    .flag ("multiple_header_recording_capable", 0) 9,
    .flag ("multiple_header_recording_enable", 0) 10,
    .flag ("tlp_prefix_log_present", 0) 11,
    .flag ("completion_timeout_prefix_header_log_capable", 0) 12]
  else if 7 ≤ reg ∧ reg ≤ 10 then [
    .num ("header_log", reg - 7) 0xffffffff 0]
  else if reg = 11 then [
    .flag ("fatal_error_reporting_enable", 0) 0,
    .flag ("nonfatal_error_reporting_enable", 0) 1,
    .flag ("correctable_error_reporting_enable", 0) 2]
  else if reg = 12 then [
    .flag ("err_cor_received", 0) 0,
    .flag ("multiple_err_cor_received", 0) 1,
    .flag ("err_fatal_nonfatal_received", 0) 2,
    .flag ("multiple_err_fatal_nonfatal_received", 0) 3,
    .flag ("first_uncorrectable_fatal", 0) 4,
    .flag ("nonfatal_error_messages_received", 0) 5,
    .flag ("fatal_error_messages_received", 0) 6,
    .num ("advanced_error_interrupt_message_number", 0) 0x1f 27]
  else if reg = 13 then [
    .num ("err_cor_source_identification", 0) 0xffff 0,
    .num ("err_fatal_nonfatal_source_identification", 0) 0xffff 16]
  else if 14 ≤ reg ∧ reg ≤ 17 then [
    .num ("tlp_prefix_log", reg - 14) 0xffffffff 0]
  else []

/-- caps/aer.py:302-451: `AerExtendedCapability._write_register`. -/
def aerWr (reg : Nat) : List WrS :=
  if reg = 1 then [
    .clear 0x1 ("data_link_protocol_error_status", 0) 4,
    .clear 0x1 ("surprise_down_error_status", 0) 5,
    .clear 0x2 ("poisoned_tlp_received_status", 0) 12,
    .clear 0x2 ("flow_control_protocol_error_status", 0) 13,
    .clear 0x2 ("completion_timeout_status", 0) 14,
    .clear 0x2 ("completer_abort_status", 0) 15,
    .clear 0x4 ("unexpected_completion_status", 0) 16,
    .clear 0x4 ("receiver_overflow_status", 0) 17,
    .clear 0x4 ("malformed_tlp_status", 0) 18,
    .clear 0x4 ("ecrc_error_status", 0) 19,
    .clear 0x4 ("unsupported_request_error_status", 0) 20,
    .clear 0x4 ("acs_violation_status", 0) 21,
    .clear 0x4 ("uncorrectable_internal_error_status", 0) 22,
    .clear 0x4 ("mc_blocked_tlp_status", 0) 23,
    .clear 0x8 ("atomicop_egress_blocked_status", 0) 24,
    .clear 0x8 ("tlp_prefix_blocked_error_status", 0) 25,
    .clear 0x8 ("poisoned_tlp_egress_blocked_status", 0) 26]
  else if reg = 2 then [
    .flag 0x1 ("data_link_protocol_error_mask", 0) 4,
    .flag 0x1 ("surprise_down_error_mask", 0) 5,
    .flag 0x2 ("poisoned_tlp_received_mask", 0) 12,
    .flag 0x2 ("flow_control_protocol_error_mask", 0) 13,
    .flag 0x2 ("completion_timeout_mask", 0) 14,
    .flag 0x2 ("completer_abort_mask", 0) 15,
    .flag 0x4 ("unexpected_completion_mask", 0) 16,
    .flag 0x4 ("receiver_overflow_mask", 0) 17,
    .flag 0x4 ("malformed_tlp_mask", 0) 18,
    .flag 0x4 ("ecrc_error_mask", 0) 19,
    .flag 0x4 ("unsupported_request_error_mask", 0) 20,
    .flag 0x4 ("acs_violation_mask", 0) 21,
    .flag 0x4 ("uncorrectable_internal_error_mask", 0) 22,
    .flag 0x4 ("mc_blocked_tlp_mask", 0) 23,
    .flag 0x8 ("atomicop_egress_blocked_mask", 0) 24,
    .flag 0x8 ("tlp_prefix_blocked_error_mask", 0) 25,
    .flag 0x8 ("poisoned_tlp_egress_blocked_mask", 0) 26]
  else if reg = 3 then [
    .flag 0x1 ("data_link_protocol_error_severity", 0) 4,
    .flag 0x1 ("surprise_down_error_severity", 0) 5,
    .flag 0x2 ("poisoned_tlp_received_severity", 0) 12,
    .flag 0x2 ("flow_control_protocol_error_severity", 0) 13,
    .flag 0x2 ("completion_timeout_severity", 0) 14,
    .flag 0x2 ("completer_abort_severity", 0) 15,
    .flag 0x4 ("unexpected_completion_severity", 0) 16,
    .flag 0x4 ("receiver_overflow_severity", 0) 17,
    .flag 0x4 ("malformed_tlp_severity", 0) 18,
    .flag 0x4 ("ecrc_error_severity", 0) 19,
    .flag 0x4 ("unsupported_request_error_severity", 0) 20,
    .flag 0x4 ("acs_violation_severity", 0) 21,
    .flag 0x4 ("uncorrectable_internal_error_severity", 0) 22,
    .flag 0x4 ("mc_blocked_tlp_severity", 0) 23,
    .flag 0x8 ("atomicop_egress_blocked_severity", 0) 24,
    .flag 0x8 ("tlp_prefix_blocked_error_severity", 0) 25,
    .flag 0x8 ("poisoned_tlp_egress_blocked_severity", 0) 26]
  else if reg = 4 then [
    .clear 0x1 ("receiver_error_status", 0) 0,
    .clear 0x1 ("bad_tlp_status", 0) 6,
    .clear 0x1 ("bad_dllp_status", 0) 7,
    .clear 0x2 ("replay_num_rollover_status", 0) 8,
    .clear 0x2 ("replay_timer_timeout_status", 0) 12,
    .clear 0x2 ("advisory_nonfatal_error_status", 0) 13,
    .clear 0x2 ("corrected_internal_error_status", 0) 14,
    .clear 0x2 ("header_log_overflow_status", 0) 15]
  else if reg = 5 then [
    .flag 0x1 ("receiver_error_mask", 0) 0,
    .flag 0x1 ("bad_tlp_mask", 0) 6,
    .flag 0x1 ("bad_dllp_mask", 0) 7,
    .flag 0x2 ("replay_num_rollover_mask", 0) 8,
    .flag 0x2 ("replay_timer_timeout_mask", 0) 12,
    .flag 0x2 ("advisory_nonfatal_error_mask", 0) 13,
    .flag 0x2 ("corrected_internal_error_mask", 0) 14,
    .flag 0x2 ("header_log_overflow_mask", 0) 15]
  else if reg = 6 then [
    .flag 0x1 ("ecrc_generation_enable", 0) 6,
    .flag 0x2 ("ecrc_check_enable", 0) 8,
    .flag 0x2 ("multiple_header_recording_enable", 0) 10]
  else if reg = 11 then [
    .flag 0x1 ("fatal_error_reporting_enable", 0) 0,
    .flag 0x1 ("nonfatal_error_reporting_enable", 0) 1,
    .flag 0x1 ("correctable_error_reporting_enable", 0) 2]
  else if reg = 12 then [
    .clear 0x1 ("err_cor_received", 0) 0,
    .clear 0x1 ("multiple_err_cor_received", 0) 1,
    .clear 0x1 ("err_fatal_nonfatal_received", 0) 2,
    .clear 0x1 ("multiple_err_fatal_nonfatal_received", 0) 3,
    .clear 0x1 ("first_uncorrectable_fatal", 0) 4,
    .clear 0x1 ("nonfatal_error_messages_received", 0) 5,
    .clear 0x1 ("fatal_error_messages_received", 0) 6]
  else []

/-- caps/pm.py: the power management capability. -/
def pm : RegCap := ⟨false, pmRd, pmWr⟩
/-- caps/pcie.py: the PCI Express capability. -/
def pcie : RegCap := ⟨false, pcieRd, pcieWr⟩
/-- caps/pcie.py: the secondary PCI Express extended capability. -/
def exp2 : RegCap := ⟨true, exp2Rd, exp2Wr⟩
/-- caps/aer.py: the advanced error reporting extended capability. -/
def aer : RegCap := ⟨true, aerRd, aerWr⟩

/-- caps/pm.py:33, caps/pcie.py:35 and 601, caps/aer.py:34: `length`, the number of registers that the capability list passes on
(caps/common.py:157-161). -/
def pmLength : Nat := 2
@[inherit_doc pmLength] def pcieLength : Nat := 15
@[inherit_doc pmLength] def exp2Length : Nat := 4
@[inherit_doc pmLength] def aerLength : Nat := 11

end CapRegs
end Pcie

