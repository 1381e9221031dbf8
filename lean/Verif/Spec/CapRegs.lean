import Verif.Spec.Config
/-
Specification: the registers of the power management, PCI Express, secondary PCI Express and advanced error reporting capabilities
(PCI Power Management specification 3.2; PCI Express base specification 7.5.3, 7.7.3, 7.8.4). A register map says which attribute of the
capability object is at which bits of which register and how software may change it.
-/
namespace Pcie.Spec

/-- How software may change a field: not at all, by writing its value, or by writing ones that clear it. -/
inductive Access | ro | rw | w1c
deriving DecidableEq, Repr

/-- A field of a register: the bits `lsb .. lsb+width-1` show attribute `name` (with its index); a truth value takes one bit. -/
structure RegField where
  name : String × Nat
  lsb : Nat
  width : Nat
  truth : Bool
  acc : Access
deriving DecidableEq, Repr

abbrev RegField.num (name : String) (lsb width : Nat) (acc : Access) : RegField := ⟨(name, 0), lsb, width, false, acc⟩
abbrev RegField.flag (name : String) (lsb : Nat) (acc : Access) : RegField := ⟨(name, 0), lsb, 1, true, acc⟩

/-- The field is at bit `i`. -/
def RegField.covers (f : RegField) (i : Nat) : Bool := decide (f.lsb ≤ i) && decide (i < f.lsb + f.width)

/-- The bit that attribute values `s` put at bit `i`. -/
def RegField.bitOf (f : RegField) (s : String × Nat → Nat) (i : Nat) : Bool :=
  if f.truth then s f.name != 0 else (s f.name).testBit (i - f.lsb)

/-- The fields of each register. -/
abbrev RegMap := Nat → List RegField

/-- Bit `i` of register `reg`: the bit of the field there; bits with no field are zero. -/
def RegMap.reported (m : RegMap) (s : String × Nat → Nat) (reg i : Nat) : Bool :=
  match (m reg).find? (·.covers i) with
  | some f => f.bitOf s i
  | none => false

/-- Software may change bit `i` of register `reg` in this way. -/
def RegMap.hasAcc (m : RegMap) (acc : Access) (reg i : Nat) : Bool :=
  match (m reg).find? (·.covers i) with
  | some f => f.acc == acc
  | none => false

/-- The clause of `Written` for one bit. -/
def WrittenAt (rw w1c : Nat → Bool) (old new data mask i : Nat) : Prop :=
  new.testBit i =
    if mask.testBit (i / 8) then
      if rw i then data.testBit i else if w1c i then old.testBit i && !data.testBit i else old.testBit i
    else old.testBit i

/-- Power management capability. Register 0: capability header and capabilities; 1: control and status, data. -/
def pmMap : RegMap := fun reg =>
  match reg with
  | 0 => [.num "cap_id" 0 8 .ro, .num "next_cap" 8 8 .ro, .num "version" 16 3 .ro, .flag "pme_clock" 19 .ro,
      .flag "immediate_readiness_on_return_to_d0" 20 .ro, .flag "device_specific_initialization" 21 .ro, .num "aux_current" 22 3 .ro,
      .flag "d1_support" 25 .ro, .flag "d2_support" 26 .ro, .num "pme_support" 27 5 .ro]
  | 1 => [.num "power_state" 0 2 .rw, .flag "no_soft_reset" 3 .ro, .flag "pme_enable" 8 .rw, .num "data_select" 9 4 .rw,
      .num "data_scale" 13 2 .ro, .flag "pme_status" 15 .w1c, .num "pm_data" 24 8 .ro]
  | _ => []

/-- PCI Express capability. Registers: 0 header and capabilities, 1 device capabilities, 2 device control and status, 3 link
capabilities, 4 link control and status, 5 slot capabilities, 6 slot control and status, 7 root control and capabilities, 8 root status, 9 device
capabilities 2, 10 device control 2, 11 link capabilities 2, 12 link control 2 and status 2. Initiate function level reset, retrain link and
electromechanical interlock control read as zero. -/
def pcieMap : RegMap := fun reg =>
  match reg with
  | 0 => [.num "cap_id" 0 8 .ro, .num "next_cap" 8 8 .ro, .num "pcie_capability_version" 16 4 .ro, .num "pcie_device_type" 20 4 .ro,
      .flag "pcie_slot_implemented" 24 .ro, .num "interrupt_message_number" 25 5 .ro]
  | 1 => [.num "max_payload_size_supported" 0 3 .ro, .num "phantom_functions_supported" 3 2 .ro, .flag "extended_tag_supported" 5 .ro,
      .num "endpoint_l0s_acceptable_latency" 6 3 .ro, .num "endpoint_l1_acceptable_latency" 9 3 .ro,
      .flag "role_based_error_reporting" 15 .ro, .num "captured_slot_power_limit_value" 18 8 .ro,
      .num "captured_slot_power_limit_scale" 26 2 .ro, .flag "function_level_reset_capability" 28 .ro]
  | 2 => [.flag "correctable_error_reporting_enable" 0 .rw, .flag "non_fatal_error_reporting_enable" 1 .rw,
      .flag "fatal_error_reporting_enable" 2 .rw, .flag "unsupported_request_reporting_enable" 3 .rw,
      .flag "enable_relaxed_ordering" 4 .rw, .num "max_payload_size" 5 3 .rw, .flag "extended_tag_field_enable" 8 .rw,
      .flag "phantom_functions_enable" 9 .rw, .flag "aux_power_pm_enable" 10 .rw, .flag "enable_no_snoop" 11 .rw,
      .num "max_read_request_size" 12 3 .rw, .flag "correctable_error_detected" 16 .w1c, .flag "nonfatal_error_detected" 17 .w1c,
      .flag "fatal_error_detected" 18 .w1c, .flag "unsupported_request_detected" 19 .w1c, .flag "aux_power_detected" 20 .ro,
      .flag "transactions_pending" 21 .ro, .flag "emergency_power_reduction_detected" 22 .w1c]
  | 3 => [.num "max_link_speed" 0 4 .ro, .num "max_link_width" 4 6 .ro, .num "aspm_support" 10 2 .ro, .num "l0s_exit_latency" 12 3 .ro,
      .num "l1_exit_latency" 15 3 .ro, .flag "clock_power_management" 18 .ro, .flag "surprise_down_error_reporting_capability" 19 .ro,
      .flag "data_link_layer_link_active_reporting_capable" 20 .ro, .flag "link_bandwidth_notification_capability" 21 .ro,
      .flag "aspm_optionality_compliance" 22 .ro, .num "port_number" 24 8 .ro]
  | 4 => [.num "aspm_control" 0 2 .rw, .flag "read_completion_boundary" 3 .rw, .flag "link_disable" 4 .rw,
      .flag "common_clock_configuration" 6 .rw, .flag "extended_synch" 7 .rw, .flag "enable_clock_power_management" 8 .rw,
      .flag "hardware_autonomous_width_disable" 9 .rw, .flag "link_bandwidth_management_interrupt_enable" 10 .rw,
      .flag "link_autonomous_bandwidth_interrupt_enable" 11 .rw, .num "drs_signalling_control" 14 2 .rw,
      .num "current_link_speed" 16 4 .ro, .num "negotiated_link_width" 20 6 .ro, .flag "link_training" 27 .ro,
      .flag "slot_clock_configuration" 28 .ro, .flag "data_link_layer_link_active" 29 .ro,
      .flag "link_bandwidth_management_status" 30 .w1c, .flag "link_autonomous_bandwidth_status" 31 .w1c]
  | 5 => [.flag "attention_button_present" 0 .ro, .flag "power_controller_present" 1 .ro, .flag "mrl_sensor_present" 2 .ro,
      .flag "attention_indicator_present" 3 .ro, .flag "power_indicator_present" 4 .ro, .flag "hot_plug_surprise" 5 .ro,
      .flag "hot_plug_capable" 6 .ro, .num "slot_power_limit_value" 7 8 .ro, .num "slot_power_limit_scale" 15 2 .ro,
      .flag "electromechanical_interlock_present" 17 .ro, .flag "no_command_completed_support" 18 .ro,
      .num "physical_slot_number" 19 13 .ro]
  | 6 => [.flag "attention_button_pressed_enable" 0 .rw, .flag "power_fault_detected_enable" 1 .rw, .flag "mrl_sensor_changed_enable" 2 .rw,
      .flag "presence_detect_changed_enable" 3 .rw, .flag "command_completed_interrupt_enable" 4 .rw,
      .flag "hot_plug_interrupt_enable" 5 .rw, .num "attention_indicator_control" 6 2 .rw, .num "power_indicator_control" 8 2 .rw,
      .flag "power_controller_control" 10 .rw, .flag "data_link_layer_state_changed_enable" 12 .rw,
      .flag "auto_slot_power_limit_disable" 13 .rw, .flag "attention_button_pressed" 16 .w1c, .flag "power_fault_detected" 17 .w1c,
      .flag "mrl_sensor_changed" 18 .w1c, .flag "presence_detect_changed" 19 .w1c, .flag "command_completed" 20 .w1c,
      .flag "mrl_sensor_state" 21 .ro, .flag "presence_detect_state" 22 .ro, .flag "electromechanical_interlock_status" 23 .ro,
      .flag "data_link_layer_state_changed" 24 .w1c]
  | 7 => [.flag "system_error_on_correctable_error_enable" 0 .rw, .flag "system_error_on_non_fatal_error_enable" 1 .rw,
      .flag "system_error_on_fatal_error_enable" 2 .rw, .flag "pme_interrupt_enable" 3 .rw, .flag "crs_software_visibility_enable" 4 .rw,
      .flag "crs_software_visibility" 16 .ro]
  | 8 => [.num "pme_requester_id" 0 16 .ro, .flag "pme_status" 16 .w1c, .flag "pme_pending" 17 .ro]
  | 9 => [.num "completion_timeout_ranges_supported" 0 4 .ro, .flag "completion_timeout_disable_supported" 4 .ro,
      .flag "ari_forwarding_supported" 5 .ro, .flag "atomic_op_forwarding_supported" 6 .ro,
      .flag "atomic_op_32_bit_completer_supported" 7 .ro, .flag "atomic_op_64_bit_completer_supported" 8 .ro,
      .flag "cas_128_bit_completer_supported" 9 .ro, .flag "no_ro_enabled_pr_pr_passing" 10 .ro, .flag "ltr_mechanism_supported" 11 .ro,
      .num "tph_completer_supported" 12 2 .ro, .num "obff_supported" 18 2 .ro, .flag "extended_fmt_field_supported" 20 .ro,
      .flag "end_end_tlp_prefix_supported" 21 .ro, .num "max_end_end_tlp_prefix" 22 2 .ro,
      .num "emergency_power_reduction_supported" 24 2 .ro, .flag "emergency_power_reduction_initialization_required" 26 .ro,
      .flag "frs_supported" 31 .ro]
  | 10 => [.num "completion_timeout_value" 0 4 .rw, .flag "completion_timeout_disable" 4 .rw, .flag "ari_forwarding_enable" 5 .rw,
      .flag "atomic_op_requester_enable" 6 .rw, .flag "atomic_op_egress_blocking" 7 .rw, .flag "ido_request_enable" 8 .rw,
      .flag "ido_completion_enable" 9 .rw, .flag "ltr_mechanism_enable" 10 .rw, .flag "emergency_power_reduction_request" 11 .rw,
      .flag "ten_bit_tag_requester_enable" 12 .rw, .num "obff_enable" 13 2 .rw, .flag "end_end_tlp_prefix_blocking" 15 .rw]
  | 11 => [.num "supported_link_speeds" 1 7 .ro, .flag "crosslink_supported" 8 .ro, .num "lower_skp_os_generation_supported_speeds" 9 7 .ro,
      .num "lower_skp_os_reception_supported_speeds" 16 7 .ro, .flag "retimer_presence_detect_supported" 23 .ro,
      .flag "two_retimers_presence_detect_supported" 24 .ro, .flag "drs_supported" 31 .ro]
  | 12 => [.num "target_link_speed" 0 4 .rw, .flag "enter_compliance" 4 .rw, .flag "hardware_autonomous_speed_disable" 5 .rw,
      .flag "selectable_deemphasis" 6 .ro, .num "transmit_margin" 7 3 .rw, .flag "enter_modified_compliance" 10 .rw,
      .flag "compliance_sos" 11 .rw, .num "compliance_preset_deemphasis" 12 4 .rw, .flag "current_deemphasis_level" 16 .ro,
      .flag "equalization_8gt_complete" 17 .ro, .flag "equalization_8gt_phase_1_successful" 18 .ro,
      .flag "equalization_8gt_phase_2_successful" 19 .ro, .flag "equalization_8gt_phase_3_successful" 20 .ro,
      .flag "link_equalization_8gt_request" 21 .w1c, .flag "retimer_presence_detected" 22 .ro,
      .flag "two_retimers_presence_detected" 23 .ro, .num "crosslink_resolution" 24 2 .ro, .num "downstream_component_presence" 28 3 .ro,
      .flag "drs_message_received" 31 .w1c]
  | _ => []

/-- Equalization control of the lane, at bit `lsb`. -/
def laneFields (lane lsb : Nat) : List RegField := [⟨("downstream_port_8gt_transmitter_preset", lane), lsb, 4, false, .ro⟩,
  ⟨("downstream_port_8gt_receiver_preset_hint", lane), lsb + 4, 3, false, .ro⟩, ⟨("upstream_port_8gt_transmitter_preset", lane), lsb + 8, 4, false, .ro⟩,
  ⟨("upstream_port_8gt_receiver_preset_hint", lane), lsb + 12, 3, false, .ro⟩]

/-- Secondary PCI Express extended capability: header, link control 3, lane error status, and the equalization control of two lanes in
each of the registers from 3 on. -/
def exp2Map : RegMap := fun reg =>
  match reg with
  | 0 => [.num "cap_id" 0 16 .ro, .num "cap_ver" 16 4 .ro, .num "next_cap" 20 12 .ro]
  | 1 => [.flag "perform_equalization" 0 .rw, .flag "link_equalization_request_interrupt_enable" 1 .rw,
      .num "enable_lower_skp_os_generation" 9 7 .rw]
  | 2 => [.num "lane_error_status" 0 32 .w1c]
  | r => if r < 19 then laneFields (2 * (r - 3)) 0 ++ laneFields (2 * (r - 3) + 1) 16 else []

/-- The uncorrectable errors and their bits. -/
def uncorrectableErrors : List (String × Nat) := [("data_link_protocol_error", 4), ("surprise_down_error", 5), ("poisoned_tlp_received", 12), ("flow_control_protocol_error", 13), ("completion_timeout", 14), ("completer_abort", 15), ("unexpected_completion", 16), ("receiver_overflow", 17), ("malformed_tlp", 18), ("ecrc_error", 19), ("unsupported_request_error", 20), ("acs_violation", 21), ("uncorrectable_internal_error", 22), ("mc_blocked_tlp", 23), ("atomicop_egress_blocked", 24), ("tlp_prefix_blocked_error", 25), ("poisoned_tlp_egress_blocked", 26)]

/-- The correctable errors and their bits. -/
def correctableErrors : List (String × Nat) := [("receiver_error", 0), ("bad_tlp", 6), ("bad_dllp", 7), ("replay_num_rollover", 8), ("replay_timer_timeout", 12), ("advisory_nonfatal_error", 13), ("corrected_internal_error", 14), ("header_log_overflow", 15)]

/-- Advanced error reporting extended capability: header, uncorrectable error status, mask and severity, correctable error status and mask,
capabilities and control, header log, root error command and status, source identification, TLP prefix log. -/
def aerMap : RegMap := fun reg =>
  match reg with
  | 0 => [.num "cap_id" 0 16 .ro, .num "cap_ver" 16 4 .ro, .num "next_cap" 20 12 .ro]
  | 6 => [.num "first_error_pointer" 0 5 .ro, .flag "ecrc_generation_capable" 5 .ro, .flag "ecrc_generation_enable" 6 .rw,
      .flag "ecrc_check_capable" 7 .ro, .flag "ecrc_check_enable" 8 .rw, .flag "multiple_header_recording_capable" 9 .ro,
      .flag "multiple_header_recording_enable" 10 .rw, .flag "tlp_prefix_log_present" 11 .ro,
      .flag "completion_timeout_prefix_header_log_capable" 12 .ro]
  | 11 => [.flag "correctable_error_reporting_enable" 0 .rw, .flag "nonfatal_error_reporting_enable" 1 .rw,
      .flag "fatal_error_reporting_enable" 2 .rw]
  | 12 => [.flag "err_cor_received" 0 .w1c, .flag "multiple_err_cor_received" 1 .w1c, .flag "err_fatal_nonfatal_received" 2 .w1c,
      .flag "multiple_err_fatal_nonfatal_received" 3 .w1c, .flag "first_uncorrectable_fatal" 4 .w1c,
      .flag "nonfatal_error_messages_received" 5 .w1c, .flag "fatal_error_messages_received" 6 .w1c,
      .num "advanced_error_interrupt_message_number" 27 5 .ro]
  | 13 => [.num "err_cor_source_identification" 0 16 .ro, .num "err_fatal_nonfatal_source_identification" 16 16 .ro]
  | 1 => uncorrectableErrors.map fun e => .flag (e.1 ++ "_status") e.2 .w1c
  | 2 => uncorrectableErrors.map fun e => .flag (e.1 ++ "_mask") e.2 .rw
  | 3 => uncorrectableErrors.map fun e => .flag (e.1 ++ "_severity") e.2 .rw
  | 4 => correctableErrors.map fun e => .flag (e.1 ++ "_status") e.2 .w1c
  | 5 => correctableErrors.map fun e => .flag (e.1 ++ "_mask") e.2 .rw
  | r => if 7 ≤ r ∧ r ≤ 10 then [⟨("header_log", r - 7), 0, 32, false, .ro⟩]
      else if 14 ≤ r ∧ r ≤ 17 then [⟨("tlp_prefix_log", r - 14), 0, 32, false, .ro⟩] else []

end Pcie.Spec
