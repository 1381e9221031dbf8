{
 "claims": [
  {
   "property": "C01",
   "status": "proved",
   "theorems": [
    "Pcie.C01_align_least_multiple",
    "Pcie.C01_align_fixed"
   ],
   "note": ""
  },
  {
   "property": "C02",
   "status": "proved",
   "theorems": [
    "Pcie.C02_byte_mask_update"
   ],
   "note": ""
  },
  {
   "property": "C03",
   "status": "proved",
   "theorems": [
    "Pcie.C03_pcieid_range",
    "Pcie.C03_from_int_to_int",
    "Pcie.C03_to_int_from_int",
    "Pcie.C03_no_alias",
    "Pcie.C03_encoding"
   ],
   "note": ""
  },
  {
   "property": "C04",
   "status": "proved",
   "theorems": [
    "Pcie.C04_pack_wire_format",
    "Pcie.C04_unpack_pack",
    "Pcie.C04_reject_unsupported"
   ],
   "note": ""
  },
  {
   "property": "C05",
   "status": "partial",
   "theorems": [
    "Pcie.C05_copy_violated",
    "Pcie.C05_eq_violated",
    "Pcie.C05_copy_partial",
    "Pcie.C05_copy_no_th_partial",
    "Pcie.C05_eq_partial",
    "Pcie.C05_us_copy_violated",
    "Pcie.C05_us_copy_partial"
   ],
   "note": "Violated by the code: Tlp.__init__(tlp) and Tlp.__eq__ omit `th` (C05_copy_violated, C05_eq_violated are concrete witnesses). The _partial theorems prove everything else."
  },
  {
   "property": "C06",
   "status": "proved",
   "theorems": [
    "Pcie.C06_enabled_bytes",
    "Pcie.C06_frame",
    "Pcie.C06_length_least",
    "Pcie.C06_zero_length",
    "Pcie.C06_decode"
   ],
   "note": ""
  },
  {
   "property": "C07",
   "status": "proved",
   "theorems": [
    "Pcie.C07_payload",
    "Pcie.C07_other_bytes_disabled"
   ],
   "note": ""
  },
  {
   "property": "C08",
   "status": "partial",
   "theorems": [
    "Pcie.C08_lower_address_violated",
    "Pcie.C08_lower_address_partial"
   ],
   "note": "Violated by the code: `address & 0x7c + offset` parses as `address & (0x7c + offset)`, so the byte offset within the dword is lost; witness C08_lower_address_violated. C08_lower_address_partial: right exactly when the first byte is dword aligned."
  },
  {
   "property": "C09",
   "status": "proved",
   "theorems": [
    "Pcie.C09_pack_wire_format",
    "Pcie.C09_unpack_pack",
    "Pcie.C09_unpack_pack_crc",
    "Pcie.C09_reject_pack",
    "Pcie.C09_fc_type",
    "Pcie.C09_unpack_encodable"
   ],
   "note": ""
  },
  {
   "property": "C10",
   "status": "proved",
   "theorems": [
    "Pcie.C10_crc_detects_bursts",
    "Pcie.C10_unpack_crc",
    "Pcie.C10_single_bit_is_burst"
   ],
   "note": ""
  },
  {
   "property": "C11",
   "status": "proved",
   "theorems": [
    "Pcie.C11_rc_write_tlp",
    "Pcie.C11_endpoint_write_tlp",
    "Pcie.C11_rc_memory_write",
    "Pcie.C11_endpoint_memory_write"
   ],
   "note": ""
  },
  {
   "property": "C12",
   "status": "proved",
   "theorems": [
    "Pcie.C12_write_requests",
    "Pcie.C12_read_requests"
   ],
   "note": ""
  },
  {
   "property": "C13",
   "status": "proved",
   "theorems": [
    "Pcie.C13_memory_read",
    "Pcie.C13_rc_memory_read",
    "Pcie.C13_endpoint_memory_read"
   ],
   "note": ""
  },
  {
   "property": "C14",
   "status": "proved",
   "theorems": [
    "Pcie.C14_rc_completions",
    "Pcie.C14_endpoint_completions"
   ],
   "note": ""
  },
  {
   "property": "C15",
   "status": "proved",
   "theorems": [
    "Pcie.C15_zero_read_request",
    "Pcie.C15_zero_read_rc",
    "Pcie.C15_zero_write"
   ],
   "note": ""
  },
  {
   "property": "C16",
   "status": "proved",
   "theorems": [
    "Pcie.C16_read_requests",
    "Pcie.C16_write_requests",
    "Pcie.C16_io_read",
    "Pcie.C16_rc_io_read",
    "Pcie.C16_endpoint_io_read",
    "Pcie.C16_rc_io_write",
    "Pcie.C16_endpoint_io_write"
   ],
   "note": ""
  },
  {
   "property": "C17",
   "status": "partial",
   "theorems": [
    "Pcie.C17_read_requests",
    "Pcie.C17_write_requests",
    "Pcie.C17_read",
    "Pcie.C17_other_function",
    "Pcie.C17_failed",
    "Pcie.C17_crs",
    "Pcie.C17_write",
    "Pcie.C17_write_bytes",
    "Pcie.C17_endpoint_write_partial"
   ],
   "note": "Proved in full for functions whose registers behave one at a time (C17_read, C17_write, C17_write_bytes, C17_other_function, C17_failed, C17_crs); the instance for an endpoint's header leaves out register 3, because the start BIST bit answers to the wrong byte enable (C35_bist_violated)."
  },
  {
   "property": "C18",
   "status": "proved",
   "theorems": [
    "Pcie.C18_unique",
    "Pcie.C18_alloc",
    "Pcie.C18_release"
   ],
   "note": ""
  },
  {
   "property": "C19",
   "status": "partial",
   "theorems": [
    "Pcie.C19_late_completion_violated",
    "Pcie.C19_own_completions_partial",
    "Pcie.C19_progress_partial",
    "Pcie.C19_collect"
   ],
   "note": "Violated by the code: a completion that arrives after the timeout of its request is taken by the next operation with the same tag (C19_late_completion_violated). The _partial theorems are for all histories without timeouts."
  },
  {
   "property": "C20",
   "status": "proved",
   "theorems": [
    "Pcie.C20_collects_read",
    "Pcie.C20_stops_at_error",
    "Pcie.C20_collects_one"
   ],
   "note": ""
  },
  {
   "property": "C21",
   "status": "proved",
   "theorems": [
    "Pcie.C21_no_error",
    "Pcie.C21_symmetric",
    "Pcie.C21_never_overrun"
   ],
   "note": ""
  },
  {
   "property": "C22",
   "status": "proved",
   "theorems": [
    "Pcie.C22_conserved",
    "Pcie.C22_all_back",
    "Pcie.C22_release_once",
    "Pcie.C22_release_amount"
   ],
   "note": ""
  },
  {
   "property": "C23",
   "status": "proved",
   "theorems": [
    "Pcie.C23_credits",
    "Pcie.C23_limit",
    "Pcie.C23_not_stuck",
    "Pcie.C23_finish_together"
   ],
   "note": ""
  },
  {
   "property": "C24",
   "status": "partial",
   "theorems": [
    "Pcie.C24_in_order_partial",
    "Pcie.C24_in_order",
    "Pcie.C24_no_nak",
    "Pcie.C24_th_violated"
   ],
   "note": "Violated only for the `th` bit, which Tlp's copy constructor drops at the receiving port (C24_th_violated). C24_in_order_partial compares everything else and also says nothing is lost; C24_in_order is exact for TLPs without th; C24_no_nak shows no TLP is ever taken for out of sequence."
  },
  {
   "property": "C25",
   "status": "proved",
   "theorems": [
    "Pcie.C25_retry_buffer",
    "Pcie.C25_ack_exact",
    "Pcie.C25_all_acked",
    "Pcie.C25_stale"
   ],
   "note": "The suffix property holds in every reachable state; exactness of ACK processing needs at most 2048 TLPs outstanding (ReachBounded), because the code compares 12-bit sequence numbers with half the number space. C80_bounded and C80_port prove that bound for clocked links."
  },
  {
   "property": "C26",
   "status": "partial",
   "theorems": [
    "Pcie.C26_down_partial",
    "Pcie.C26_up_partial",
    "Pcie.C26_no_cfg_up",
    "Pcie.C26_send",
    "Pcie.C26_enable_ignored_violated",
    "Pcie.C26_messages_violated"
   ],
   "note": "Violated by the code: the enable bits are ignored (C26_enable_ignored_violated) and every message TLP raises an exception (C26_messages_violated). The _partial theorems cover all memory, I/O, configuration and completion TLPs and every register configuration."
  },
  {
   "property": "C27",
   "status": "partial",
   "theorems": [
    "Pcie.C27_device_partial",
    "Pcie.C27_bridge_partial",
    "Pcie.C27_bridge_down_partial",
    "Pcie.C27_unsupported_violated",
    "Pcie.C27_decodes",
    "Pcie.C27_endpoint_read",
    "Pcie.C27_rc_read",
    "Pcie.C27_io_one"
   ],
   "note": "Violated by the code for locked reads, atomic operations and messages, which raise instead of being answered (C27_unsupported_violated, C45_messages_violated). The _partial theorems cover every other TLP; a function must have a handler registered for the type."
  },
  {
   "property": "C28",
   "status": "partial",
   "theorems": [
    "Pcie.C28_decode_partial",
    "Pcie.C28_claims_mem",
    "Pcie.C28_claims_io",
    "Pcie.C28_program",
    "Pcie.C28_configure",
    "Pcie.C28_configure_range",
    "Pcie.C28_large_bar_violated",
    "Pcie.C28_alias_violated",
    "Pcie.C28_disabled_violated"
   ],
   "note": "Violated by the code for BARs of 4 GiB and above (C28_large_bar_violated), for 32-bit BARs and 64-bit addresses (C28_alias_violated) and for disabled spaces (C28_disabled_violated)."
  },
  {
   "property": "C29",
   "status": "partial",
   "theorems": [
    "Pcie.C29_endpoint_partial",
    "Pcie.C29_bridge_partial",
    "Pcie.C29_restore_32bit",
    "Pcie.C29_total",
    "Pcie.C29_restore_violated"
   ],
   "note": "Violated by the code: the upper half of a 64-bit BAR is restored with the lower half's value (C29_restore_violated). The _partial theorems prove everything else for endpoints and bridges; C29_restore_32bit is exact for functions without 64-bit BARs; C29_total: sizing of any tree succeeds."
  },
  {
   "property": "C30",
   "status": "partial",
   "theorems": [
    "Pcie.C30_assignment",
    "Pcie.C30_memory_disjoint",
    "Pcie.C30_overflow_violated"
   ],
   "note": "C30_assignment holds for whole trees of buses as long as allocation ends at or below 2^64; beyond that addresses are silently truncated (C30_overflow_violated)."
  },
  {
   "property": "C31",
   "status": "partial",
   "theorems": [
    "Pcie.C31_windows_partial",
    "Pcie.C31_windows",
    "Pcie.C31_registers_reset",
    "Pcie.C31_registers_write",
    "Pcie.C31_sibling_bar_violated",
    "Pcie.C31_above_4g_violated"
   ],
   "note": "Violated by the code: windows are rounded down over BARs of functions that precede the bridge (C31_sibling_bar_violated) and cannot express non-prefetchable ranges above 4 GiB (C31_above_4g_violated). C31_windows is the full property for buses where bridges come first; C31_windows_partial drops only the sibling-BAR clause."
  },
  {
   "property": "C32",
   "status": "proved",
   "theorems": [
    "Pcie.C32_scan",
    "Pcie.C32_too_many",
    "Pcie.C32_ranges",
    "Pcie.C32_unique_path"
   ],
   "note": "Scan of a tree of arbitrary shape: bus numbers are assigned depth first, ranges nest and are disjoint, every function has one path; the scan raises iff there are more than 255 buses. No access of the scan is ambiguous (cfgRead and cfgWrite of the model fail if it is)."
  },
  {
   "property": "C33",
   "status": "partial",
   "theorems": [
    "Pcie.C33_registered",
    "Pcie.C33_explicit",
    "Pcie.C33_reaches",
    "Pcie.C33_disjoint_partial",
    "Pcie.C33_automatic_partial",
    "Pcie.C33_share_one_partial",
    "Pcie.C33_violated",
    "Pcie.C33_range_violated"
   ],
   "note": "Proved for lists whose lengths and offsets are multiples of some g > 1, and for automatic placement with lengths of at least two; for arbitrary histories at most one register is shared. The full statement is false (C33_violated): automatic placement accepts a place whose last register is the first of another capability."
  },
  {
   "property": "C34",
   "status": "partial",
   "theorems": [
    "Pcie.C34_walk_partial",
    "Pcie.C34_ext_walk_partial",
    "Pcie.C34_pointers_partial",
    "Pcie.C34_violated"
   ],
   "note": "Proved for histories of registrations (capabilities and extended capabilities), and for histories with removals while at least two capabilities remain; the full statement is false (C34_violated): stale pointers after a removal, up to a walk that does not end."
  },
  {
   "property": "C35",
   "status": "partial",
   "theorems": [
    "Pcie.C35_endpoint_write_partial",
    "Pcie.C35_endpoint_misc_partial",
    "Pcie.C35_bist_violated",
    "Pcie.C35_endpoint_other",
    "Pcie.C35_bridge_write_partial",
    "Pcie.C35_bridge_misc_partial",
    "Pcie.C35_bridge_other"
   ],
   "note": "Violated by the code only for start BIST, bit 30 of register 3, which is written with the byte enable of byte 2 (C35_bist_violated). The _partial theorems cover every other bit of every header register of endpoints and bridges."
  },
  {
   "property": "C36",
   "status": "partial",
   "theorems": [
    "Pcie.C36_msi_partial",
    "Pcie.C36_msi_rejected",
    "Pcie.C36_msix",
    "Pcie.C36_unmasked",
    "Pcie.C36_exclusive",
    "Pcie.C36_freed",
    "Pcie.C36_alloc",
    "Pcie.C36_violated"
   ],
   "note": "MSI-X is proved for all histories (C36_msix). MSI is proved when vectors are allocated in multiples of 32 (C36_msi_partial); otherwise it is false (C36_violated): the allocator aligns with `% size` instead of rounding up, so an interrupt fires the handlers of another function."
  },
  {
   "property": "C37",
   "status": "partial",
   "theorems": [
    "Pcie.C37_path",
    "Pcie.C37_upstream_partial",
    "Pcie.C37_uniform",
    "Pcie.C37_downstream_violated",
    "Pcie.C37_upstream_violated"
   ],
   "note": "Configured payload sizes never exceed the supported size of any function on the path (C37_path), uniform below a root port; violated for a device below a switch whose own size is larger and for upstream ports."
  },
  {
   "property": "C38",
   "status": "partial",
   "theorems": [
    "Pcie.C38_functions",
    "Pcie.C38_append_function",
    "Pcie.C38_add_function",
    "Pcie.C38_bus",
    "Pcie.C38_add_port",
    "Pcie.C38_ports_partial",
    "Pcie.C38_violated"
   ],
   "note": "Functions and device ports are numbered uniquely when added through append_function / add_function / add_endpoint; C38_violated: append_endpoint on a switch/root port list does not reject a device number already in use, so C38_ports_partial assumes the caller uses fresh numbers."
  },
  {
   "property": "C39",
   "status": "proved",
   "theorems": [
    "Pcie.C39_layout",
    "Pcie.C39_roundtrip",
    "Pcie.C39_fields",
    "Pcie.C39_rc_byte_enables",
    "Pcie.C39_unsupported"
   ],
   "note": "request_completed is modelled by its truth value."
  },
  {
   "property": "C40",
   "status": "partial",
   "theorems": [
    "Pcie.C40_stream_partial",
    "Pcie.C40_discontinue_partial",
    "Pcie.C40_delivered_partial",
    "Pcie.C40_link_partial",
    "Pcie.C40_discontinue_violated",
    "Pcie.C40_straddle_violated",
    "Pcie.C40_tlp_unpack",
    "Pcie.C40_tlps_partial"
   ],
   "note": "Proved for all four interfaces, all accepted bus widths and straddle modes, all frames and timings, also through the AXI handshake, except for 64- and 128-bit requester completion buses with two segments, which the constructors accept and on which the sink raises an exception (C40_straddle_violated). The discontinue flag is never lost and is exact without straddling; on a straddled bus it spreads to frames in the same transaction (C40_discontinue_violated)."
  },
  {
   "property": "C41",
   "status": "proved",
   "theorems": [
    "Pcie.C41_dword",
    "Pcie.C41_wide",
    "Pcie.C41_us",
    "Pcie.C41_s10",
    "Pcie.C41_ptile"
   ],
   "note": ""
  },
  {
   "property": "C42",
   "status": "partial",
   "theorems": [
    "Pcie.C42_s10_tlp",
    "Pcie.C42_ptile_tlp",
    "Pcie.C42_s10_link_partial",
    "Pcie.C42_ptile_link",
    "Pcie.C42_s10_sink_sound",
    "Pcie.C42_ptile_sink_sound",
    "Pcie.C42_ptile_stream",
    "Pcie.C42_ptile_delivered",
    "Pcie.C42_ptile_tlp_ok",
    "Pcie.C42_ptile_tlps",
    "Pcie.C42_ptile_violated",
    "Pcie.C42_s10_stream_partial",
    "Pcie.C42_s10_delivered_partial",
    "Pcie.C42_s10_tlp_ok",
    "Pcie.C42_s10_tlps",
    "Pcie.C42_s10_violated"
   ],
   "note": "TLP conversion is proved for both devices. P-Tile streaming is proved for all frames and timings, except that the tlp_abort flag is never driven or sampled (C42_ptile_violated). Stratix 10 streaming is proved for function numbers that fit (the _partial theorems): the source shifts func_num by 3 bits for each segment on a bus that has 2 bits for each segment, so it raises an exception for others (C42_s10_violated); frames made from TLPs are not affected (C42_s10_tlps)."
  },
  {
   "property": "C43",
   "status": "partial",
   "theorems": [
    "Pcie.C43_no_reuse",
    "Pcie.C43_conserved",
    "Pcie.C43_no_failure_partial",
    "Pcie.C43_prompt_partial",
    "Pcie.C43_extended_violated",
    "Pcie.C43_disable_violated",
    "Pcie.C43_stall_violated",
    "Pcie.C43_credit_violated",
    "Pcie.C43_waiting_bound"
   ],
   "note": "Never-reuse and conservation are proved for every history. The liveness half fails in the code: tag_release is never set (C43_stall_violated), I/O-write credits leak (C43_credit_violated), extended tags on UltraScale raise TypeError (C43_extended_violated), disabling extended tags can too (C43_disable_violated)."
  },
  {
   "property": "C44",
   "status": "partial",
   "theorems": [
    "Pcie.C44_intel_occupancy_partial",
    "Pcie.C44_intel_drop",
    "Pcie.C44_intel_exact_partial",
    "Pcie.C44_intel_in_order",
    "Pcie.C44_intel_violated",
    "Pcie.C44_us_occupancy",
    "Pcie.C44_us_drop",
    "Pcie.C44_us_in_order"
   ],
   "note": "Proved in full for the Xilinx models. The Intel models free completion space for delivered requests too, so the count is only a lower bound (C44_intel_violated)."
  },
  {
   "property": "C45",
   "status": "partial",
   "theorems": [
    "Pcie.C45_route_partial",
    "Pcie.C45_unique_partial",
    "Pcie.C45_downwards_partial",
    "Pcie.C45_upwards_partial",
    "Pcie.C45_peer_partial",
    "Pcie.C45_internal_partial",
    "Pcie.C45_messages_violated"
   ],
   "note": "Partial only because messages kill the routing task (C45_messages_violated); all other TLPs, any number of ports."
  },
  {
   "property": "C46",
   "status": "proved",
   "theorems": [
    "Pcie.C46_write",
    "Pcie.C46_write_range",
    "Pcie.C46_read",
    "Pcie.C46_unique",
    "Pcie.C46_roundtrip",
    "Pcie.C46_sizes",
    "Pcie.C46_single",
    "Pcie.C46_byte",
    "Pcie.C46_capability"
   ],
   "note": ""
  },
  {
   "property": "C47",
   "status": "proved",
   "theorems": [
    "Pcie.C47_order",
    "Pcie.C47_latency",
    "Pcie.C47_deadline",
    "Pcie.C47_serialised",
    "Pcie.C47_delivered",
    "Pcie.C47_rate",
    "Pcie.C47_connect",
    "Pcie.C47_exclusive",
    "Pcie.C47_link",
    "Pcie.C47_size",
    "Pcie.C47_in_order"
   ],
   "note": "Times are integers in units of scale; float rounding of the Python code is not modelled."
  },
  {
   "property": "C48",
   "status": "partial",
   "theorems": [
    "Pcie.C48_function_recv",
    "Pcie.C48_function_send",
    "Pcie.C48_bridge_recv",
    "Pcie.C48_bridge_recv_down",
    "Pcie.C48_poisoned_through",
    "Pcie.C48_signaled_abort_violated"
   ],
   "note": "Violated for completions a bridge itself sends downwards (C48_signaled_abort_violated: primary bit set instead of secondary)."
  },
  {
   "property": "C49",
   "status": "proved",
   "theorems": [
    "Pcie.Arb.C49_never_stranded",
    "Pcie.Arb.C49_fifo",
    "Pcie.Arb.C49_drains"
   ],
   "note": ""
  },
  {
   "property": "C50",
   "status": "proved",
   "theorems": [
    "Pcie.C50_latency",
    "Pcie.C50_latency_delivered",
    "Pcie.C50_axis",
    "Pcie.C50_axis_delivered",
    "Pcie.C50_latency_paused",
    "Pcie.C50_axis_paused"
   ],
   "note": ""
  },
  {
   "property": "C51",
   "status": "partial",
   "theorems": [
    "Pcie.C51_pm_read_partial",
    "Pcie.C51_pm_write_partial",
    "Pcie.C51_pm_others",
    "Pcie.C51_pm_frame_partial",
    "Pcie.C51_pm_version_violated",
    "Pcie.C51_pm_scale_violated",
    "Pcie.C51_pcie_read_partial",
    "Pcie.C51_pcie_write_partial",
    "Pcie.C51_pcie_others",
    "Pcie.C51_pcie_frame_partial",
    "Pcie.C51_pcie_width_violated",
    "Pcie.C51_pcie_version_violated",
    "Pcie.C51_pcie_clear_violated",
    "Pcie.C51_pcie_presence_violated",
    "Pcie.C51_pcie_preset_violated",
    "Pcie.C51_exp2_read_partial",
    "Pcie.C51_exp2_write_partial",
    "Pcie.C51_exp2_others",
    "Pcie.C51_exp2_frame",
    "Pcie.C51_exp2_lanes_violated",
    "Pcie.C51_exp2_lanes_partial",
    "Pcie.C51_aer_read_partial",
    "Pcie.C51_aer_write_partial",
    "Pcie.C51_aer_others",
    "Pcie.C51_aer_frame",
    "Pcie.C51_aer_command_violated",
    "Pcie.C51_aer_length_violated"
   ],
   "note": "Proved for every bit outside the lists pmReadDev, pmWriteDev, pcieReadDev, pcieWriteDev, aerDev and the lane equalization registers; each deviation is a bug in the code, shown by the _violated theorems."
  },
  {
   "property": "C52",
   "status": "partial",
   "theorems": [
    "Pcie.C52_s10_layout_partial",
    "Pcie.C52_s10_func_partial",
    "Pcie.C52_s10_func_violated",
    "Pcie.C52_ptile_layout",
    "Pcie.C52_us_layout",
    "Pcie.C52_us_be_partial",
    "Pcie.C52_us_cq_be_violated"
   ],
   "note": "P-Tile is proved in full, UltraScale except first_be/last_be of the 512-bit completer request interface with two segments (C52_us_cq_be_violated: by segment number instead of by start), Stratix 10 except the function number on buses with several segments (C52_s10_func_violated)."
  },
  {
   "property": "C53",
   "status": "partial",
   "theorems": [
    "Pcie.C53_posted_link_order",
    "Pcie.C53_no_pass_link",
    "Pcie.C53_posted_at_once",
    "Pcie.C53_posted_order",
    "Pcie.C53_no_pass",
    "Pcie.C53_nonposted_order_partial",
    "Pcie.C53_overtake_violated"
   ],
   "note": "Posted order and reads behind writes are proved for every history. Non-posted requests can overtake each other: while the queue task holds a request and waits for a tag or credits, the queue is empty and a newer request is sent directly (C53_overtake_violated); the order is proved for histories without new requests meanwhile."
  },
  {
   "property": "C54",
   "status": "partial",
   "theorems": [
    "Pcie.C54_down",
    "Pcie.C54_peer",
    "Pcie.C54_same_device",
    "Pcie.C54_unclaimed",
    "Pcie.C54_enumerated",
    "Pcie.C54_windows_partial",
    "Pcie.C54_reach",
    "Pcie.C54_config",
    "Pcie.C54_to_root_partial",
    "Pcie.C54_enumerated_peer",
    "Pcie.C54_enumerated_unclaimed",
    "Pcie.C54_host_limit_violated",
    "Pcie.C54_alias_violated"
   ],
   "note": "Proved for hierarchies of any shape, from the state after reset, with enumerate() of Model/Enumerate.lean. Excluded, because the code fails there: more than 3 GiB of prefetchable memory (a 32-bit BAR ignores the upper half of an address, C54_alias_violated), and requests to the first address behind the ranges of the host bridge (C54_host_limit_violated). Devices integrated in the root complex are not in the hierarchy of C54."
  },
  {
   "property": "C55",
   "status": "partial",
   "theorems": [
    "Pcie.C55_region_read_partial",
    "Pcie.C55_region_write_partial",
    "Pcie.C55_region_roundtrip_partial",
    "Pcie.C55_host_read_partial",
    "Pcie.C55_host_write_partial",
    "Pcie.C55_io_region_read",
    "Pcie.C55_io_region_write",
    "Pcie.C55_io_host_read_partial",
    "Pcie.C55_io_host_write_partial",
    "Pcie.C55_nobody_read",
    "Pcie.C55_nobody_write",
    "Pcie.C55_odd_region_violated"
   ],
   "note": "Whole transfers through whole hierarchies after enumeration: every read and write of the root complex and of the functions, memory and I/O, targets in BARs of other devices and in the address spaces of the root complex. Partial: regions whose size is not a multiple of four cannot be read at their end (C55_odd_region_violated), the first address behind each range of the host bridge (C54_host_limit_violated), more than 3 GiB of prefetchable memory (C54_alias_violated). One request at a time; concurrency of operations is in C17, C18, C21 and C53."
  },
  {
   "property": "C56",
   "status": "proved",
   "theorems": [
    "Pcie.C56_read",
    "Pcie.C56_nobody",
    "Pcie.C56_write",
    "Pcie.C56_scan",
    "Pcie.C56_numbers",
    "Pcie.C56_after_scan"
   ],
   "note": "Trees of any shape. The scan by TLPs (Node.scan) is proved equal to the scan of the register tree of C32; the answer to 'is it a downstream port' is taken from the kind of the port (PCIe capability registers not modelled here). C56_numbers: afterwards the hierarchy is exactly the one that enumerateAll (C54, C55) continues with."
  },
  {
   "property": "C57",
   "status": "proved",
   "theorems": [
    "Pcie.C57_regions",
    "Pcie.C57_calls",
    "Pcie.C57_raises",
    "Pcie.C57_apart",
    "Pcie.C57_fits"
   ],
   "note": "Regions with user callbacks get their BAR in the same way; only mmap regions are modelled. Sizes are positive and at most 2 GiB (2^63 for 64-bit BARs); that 64-bit BARs of 4 GiB and more are not decoded is C28_large_bar_violated."
  },
  {
   "property": "C58",
   "status": "partial",
   "theorems": [
    "Pcie.C58_unclaimed",
    "Pcie.C58_claimed_partial",
    "Pcie.C58_function_violated",
    "Pcie.C58_aperture_violated",
    "Pcie.C58_io_function",
    "Pcie.C58_not_ready",
    "Pcie.C58_config",
    "Pcie.C58_order",
    "Pcie.C58_no_pass",
    "Pcie.C58_credits",
    "Pcie.C58_frames",
    "Pcie.C58_prompt",
    "Pcie.C58_eventually",
    "Pcie.C58_stall_violated"
   ],
   "note": "C58_claimed_partial is for windows of the first function (C58_function_violated, C58_aperture_violated show what happens for others). C58_stall_violated: requests for a credit are lost while the interface is stalled. The order, credit and progress theorems are for all histories. The restriction of windows to less than 4 GiB comes from C28."
  },
  {
   "property": "C59",
   "status": "proved",
   "theorems": [
    "Pcie.C59_read",
    "Pcie.C59_read_ext",
    "Pcie.C59_write",
    "Pcie.C59_write_ext",
    "Pcie.C59_apart",
    "Pcie.C59_apart_ext",
    "Pcie.C59_unused",
    "Pcie.C59_walk",
    "Pcie.C59_walk_ext",
    "Pcie.C59_by_id",
    "Pcie.C59_write_by_id",
    "Pcie.C59_absent"
   ],
   "note": "C59 composes C17 (requests), C34 (chain of pointers) and the register lookup. Behaviours of capabilities are parameters; C51 and C37/C38 describe the built-in ones."
  },
  {
   "property": "C60",
   "status": "partial",
   "theorems": [
    "Pcie.C60_exactly_once",
    "Pcie.C60_effect",
    "Pcie.C60_latency",
    "Pcie.C60_no_exception",
    "Pcie.C60_absent_violated"
   ],
   "note": "Proved for all users that follow the protocol, both models. Only requests for functions that do not exist are excluded: they end the task with an exception (C60_absent_violated)."
  },
  {
   "property": "C61",
   "status": "partial",
   "theorems": [
    "Pcie.C61_messages",
    "Pcie.C61_reported",
    "Pcie.C61_not_before",
    "Pcie.C61_status",
    "Pcie.C61_lost_violated",
    "Pcie.C61_no_answer_violated",
    "Pcie.C61_app_messages",
    "Pcie.C61_app_acks",
    "Pcie.C61_app_reported"
   ],
   "note": "Proved for all users that follow the protocol. Requests that do not (a second request while one is waiting, several bits at a time, functions that do not exist) are lost without an answer (C61_lost_violated, C61_no_answer_violated); a request while MSI is disabled raises an exception that ends the task, such histories are excluded."
  },
  {
   "property": "C62",
   "status": "partial",
   "theorems": [
    "Pcie.C62_msi_partial",
    "Pcie.C62_msix",
    "Pcie.C62_bus_master",
    "Pcie.C62_quiet"
   ],
   "note": "Delivery proved for MSI-X and, for vectors allocated in blocks of 32, for MSI (otherwise C36_violated applies). The calls of the host that set up the capability registers are those of C36; that they do so through configuration space is C63."
  },
  {
   "property": "C63",
   "status": "partial",
   "theorems": [
    "Pcie.C63_calls",
    "Pcie.C63_msi_partial",
    "Pcie.C63_msix",
    "Pcie.C63_enabled",
    "Pcie.C63_rest"
   ],
   "note": "C63_calls is the refinement for all calls. The MSI consequence is partial because C36 fails for MSI vectors not allocated in full blocks (C36_violated). Writes of the MSI-X table through the BAR window are taken as stores at the address in that window (their transport is C55)."
  },
  {
   "property": "C64",
   "status": "partial",
   "theorems": [
    "Pcie.C64_unclaimed",
    "Pcie.C64_claimed_s10_partial",
    "Pcie.C64_claimed_ptile_partial",
    "Pcie.C64_completion_s10",
    "Pcie.C64_completion_ptile",
    "Pcie.C64_unexpected",
    "Pcie.C64_config",
    "Pcie.C64_type1",
    "Pcie.C64_credits",
    "Pcie.C64_order",
    "Pcie.C64_eventually",
    "Pcie.C64_tx_s10",
    "Pcie.C64_tx_ptile",
    "Pcie.C64_function_violated"
   ],
   "note": "C64_claimed_s10_partial and C64_claimed_ptile_partial hold when the requester's function number equals that of the claimed function; otherwise the function number in the frame is wrong (C64_function_violated). All other theorems are without this restriction."
  },
  {
   "property": "C65",
   "status": "partial",
   "theorems": [
    "Pcie.C65_us_safe",
    "Pcie.C65_s10_safe",
    "Pcie.C65_send",
    "Pcie.C65_us_exact_partial",
    "Pcie.C65_s10_exact_partial",
    "Pcie.C65_infinite",
    "Pcie.C65_us_limit",
    "Pcie.C65_ptile",
    "Pcie.C65_ptile_turns",
    "Pcie.C65_us_receive",
    "Pcie.C65_us_receive_infinite",
    "Pcie.C65_wrap_violated",
    "Pcie.C65_usp_receive_violated",
    "Pcie.C65_tfc_violated"
   ],
   "note": "Exactness (C65_us_exact_partial, C65_s10_exact_partial) holds if the partner advertised fewer than 256 header and 4096 data credits; beyond that it fails (C65_wrap_violated). All theorems are about every reachable state of the link model."
  },
  {
   "property": "C66",
   "status": "partial",
   "theorems": [
    "Pcie.C66_htile",
    "Pcie.C66_ptile",
    "Pcie.C66_ltile_partial",
    "Pcie.C66_ltile_violated",
    "Pcie.C66_turns",
    "Pcie.C66_msi",
    "Pcie.C66_us",
    "Pcie.C66_usp",
    "Pcie.C66_function_status_partial",
    "Pcie.C66_function_status_violated",
    "Pcie.C66_rcb",
    "Pcie.C66_pcie"
   ],
   "note": "H-Tile and P-Tile hold in full. L-Tile (C66_ltile_partial): register 1 only while the advanced error interrupt message number is zero (C66_ltile_violated). cfg_function_status (C66_function_status_partial): bits 2 and 3 of each function; bits 0 and 1 are wrong (C66_function_status_violated)."
  },
  {
   "property": "C67",
   "status": "proved",
   "theorems": [
    "Pcie.C67_user",
    "Pcie.C67_bytes",
    "Pcie.C67_tags",
    "Pcie.C67_host",
    "Pcie.C67_host_io"
   ],
   "note": "Completions arrive in order for each request, as PCI Express demands, and the function IDs do not change while requests are outstanding. A completion dropped for lack of space (C43) is excluded."
  },
  {
   "property": "C68",
   "status": "partial",
   "theorems": [
    "Pcie.C68_seq_nums",
    "Pcie.C68_tags",
    "Pcie.C68_requests",
    "Pcie.C68_prompt",
    "Pcie.C68_tag_order_partial",
    "Pcie.C68_tag_order_violated"
   ],
   "note": "Missing from the order of tags: requests made while an earlier one waits, which may overtake it (C68_tag_order_violated). All the outputs of the interface are assumed connected: a second 512-bit port left open loses its values (example)."
  },
  {
   "property": "C69",
   "status": "proved",
   "theorems": [
    "Pcie.C69_nobody",
    "Pcie.C69_io_nobody",
    "Pcie.C69_completions",
    "Pcie.C69_read",
    "Pcie.C69_read_completions",
    "Pcie.C69_write",
    "Pcie.C69_io_read",
    "Pcie.C69_io_write"
   ],
   "note": "Windows of the first function only, because requests for windows of other functions are delivered as requests for function 0 (C58_function_violated). The streaming interface is not part of these theorems; that it carries frames faithfully is C40."
  },
  {
   "property": "C70",
   "status": "proved",
   "theorems": [
    "Pcie.C70_read_s10",
    "Pcie.C70_read_completions_s10",
    "Pcie.C70_write_s10",
    "Pcie.C70_io_read_s10",
    "Pcie.C70_io_write_s10",
    "Pcie.C70_read_ptile",
    "Pcie.C70_read_completions_ptile",
    "Pcie.C70_write_ptile",
    "Pcie.C70_io_read_ptile",
    "Pcie.C70_io_write_ptile",
    "Pcie.C70_nobody",
    "Pcie.C70_io_nobody"
   ],
   "note": "The function number given to the user is not part of the statement, because it is that of the requester (C64_function_violated). The streaming interfaces are not part of these theorems; that they carry frames faithfully is C42 to C45."
  },
  {
   "property": "C71",
   "status": "proved",
   "theorems": [
    "Pcie.C71_enumerate",
    "Pcie.C71_find"
   ],
   "note": "The capability walk, configure_device and init_capabilities, which setup() runs after reading the registers, are not part of this program; C19, C28 and C63 are about them. Whether a bridge is a downstream port is an operation of its own. Completion retry status is not modelled."
  },
  {
   "property": "C72",
   "status": "partial",
   "theorems": [
    "Pcie.C72_decode",
    "Pcie.C72_master",
    "Pcie.C72_bridges_partial",
    "Pcie.C72_bridges_violated"
   ],
   "note": "Calls are modelled one after another; calls that overlap in time are not. The part about bridges holds only for bridges that are not themselves the device of a call (C72_bridges_violated)."
  },
  {
   "property": "C73",
   "status": "partial",
   "theorems": [
    "Pcie.C73_msi_read",
    "Pcie.C73_msi_absent_violated",
    "Pcie.C73_msi_write_partial",
    "Pcie.C73_msi_write_violated",
    "Pcie.C73_msix_read",
    "Pcie.C73_msix_write"
   ],
   "note": "Missing from the full statement, because the code does not do it: bit 26 of the MSI control register (extended message data enable), and the registers of the capability that the device does not have."
  },
  {
   "property": "C74",
   "status": "proved",
   "theorems": [
    "Pcie.C74_user_s10",
    "Pcie.C74_user_ptile",
    "Pcie.C74_bytes_s10",
    "Pcie.C74_bytes_ptile",
    "Pcie.C74_taken_s10",
    "Pcie.C74_taken_ptile",
    "Pcie.C74_host"
   ],
   "note": "User logic is assumed to keep to its tags and to the size of the completion buffer; what happens otherwise is in C44 and C64."
  },
  {
   "property": "C75",
   "status": "partial",
   "theorems": [
    "Pcie.C75_attributes",
    "Pcie.C75_get",
    "Pcie.C75_set_mps_partial",
    "Pcie.C75_set_readrq_partial",
    "Pcie.C75_raises",
    "Pcie.C75_tags_partial",
    "Pcie.C75_tags_off",
    "Pcie.C75_serr",
    "Pcie.C75_setup",
    "Pcie.C75_mps_partial",
    "Pcie.C75_device_partial",
    "Pcie.C75_status_violated"
   ],
   "note": "What is missing in the _partial theorems: the write-one-to-clear bits of the device status, which the calls clear (C75_status_violated). The theorems say exactly when they are cleared and that no other bit changes."
  },
  {
   "property": "C76",
   "status": "partial",
   "theorems": [
    "Pcie.C76_schedule",
    "Pcie.C76_found",
    "Pcie.C76_given_up",
    "Pcie.C76_hidden",
    "Pcie.C76_enable",
    "Pcie.C76_function_violated"
   ],
   "note": "Requests are assumed to be answered within the host's 1 \u00b5s time-out. C76_found, C76_given_up and C76_hidden cover every ready time except the window of at most 11 request latencies around the last try. Exception: functions other than function 0 (C76_function_violated)."
  },
  {
   "property": "C77",
   "status": "proved",
   "theorems": [
    "Pcie.C77_order",
    "Pcie.C77_read",
    "Pcie.C77_read_back"
   ],
   "note": "The link is taken to deliver packets in order (C24 proves this of the links) and address spaces to answer at once. Requests without a handler raise, as in the code."
  },
  {
   "property": "C78",
   "status": "proved",
   "theorems": [
    "Pcie.C78_host_memory",
    "Pcie.C78_endpoint_memory",
    "Pcie.C78_calls_ok",
    "Pcie.C78_order",
    "Pcie.C78_request",
    "Pcie.C78_read_call",
    "Pcie.C78_write_then_read",
    "Pcie.C78_finishes",
    "Pcie.C78_no_deadlock",
    "Pcie.C78_hierarchy_region",
    "Pcie.C78_hierarchy_host",
    "Pcie.C78_hierarchy_read_only"
   ],
   "note": "Operations do not time out (with timeouts the property fails, C19_late_completion_violated). The link delivers packets in order (C24 proves this of the links). Calls with length 0 are not covered."
  },
  {
   "property": "C79",
   "status": "proved",
   "theorems": [
    "Pcie.C79_link",
    "Pcie.C79_symmetric",
    "Pcie.C79_credits_return",
    "Pcie.C79_sender_unblocked",
    "Pcie.C79_port",
    "Pcie.C79_time_passes"
   ],
   "note": "Proved for every clocked history: C79_credits_return, C79_sender_unblocked, the instance for simulated ports C79_port; C79_link (no exceptions, refinement of the untimed link), C79_symmetric, and C79_time_passes (from every reachable state the ports alone take the link to any later time). The bound contains one DLLP time per TLP received or released meanwhile (ACKs and updates of other types go first), and must be below the 30 us repetition time of updates, as for all link speeds of the source."
  },
  {
   "property": "C80",
   "status": "proved",
   "theorems": [
    "Pcie.C80_table",
    "Pcie.C80_received_acked",
    "Pcie.C80_sent_acked",
    "Pcie.C80_retry_empty",
    "Pcie.C80_outstanding",
    "Pcie.C80_bounded",
    "Pcie.C80_port"
   ],
   "note": "Proved for every clocked history: C80_received_acked, C80_sent_acked, C80_retry_empty, C80_outstanding, C80_bounded (the hypothesis ReachBounded of C25), and the instance for simulated ports, C80_port, which assumes port delays of together at most 10 ns (the default), up to 32 lanes and at most 4096 bytes of data per TLP; exact instead of floating-point times. C80_table compares the latency limit with the table of the specification."
  },
  {
   "property": "C81",
   "status": "proved",
   "theorems": [
    "Pcie.C81_credits_known",
    "Pcie.C81_initialised",
    "Pcie.C81_not_before",
    "Pcie.C81_first_send",
    "Pcie.C81_port",
    "Pcie.C81_always_ends"
   ],
   "note": "Upper and lower bounds for every history; C81_always_ends combines them with C79_time_passes. Ports are assumed to start at the same simulation time."
  },
  {
   "property": "C82",
   "status": "partial",
   "theorems": [
    "Pcie.C82_order",
    "Pcie.C82_occupancy_partial",
    "Pcie.C82_limit",
    "Pcie.C82_senders_partial",
    "Pcie.C82_send",
    "Pcie.C82_send_nowait",
    "Pcie.C82_wait_partial",
    "Pcie.C82_axis_wait_partial",
    "Pcie.C82_wait_returns_partial",
    "Pcie.C82_axis_wait_returns_partial",
    "Pcie.C82_idle_partial",
    "Pcie.C82_axis_idle_partial",
    "Pcie.C82_s10_partial",
    "Pcie.C82_ptile_partial",
    "Pcie.C82_us_partial",
    "Pcie.C82_sink_partial",
    "Pcie.C82_sink_wait",
    "Pcie.C82_wait_violated",
    "Pcie.C82_idle_violated",
    "Pcie.C82_clear_violated",
    "Pcie.C82_axis_clear_violated",
    "Pcie.C82_sink_clear_violated",
    "Pcie.C82_bytes_violated",
    "Pcie.C82_s10_returns_partial",
    "Pcie.C82_ptile_returns_partial",
    "Pcie.C82_us_returns_partial"
   ],
   "note": "Limits, senders, order and the sink's wait are proved without restriction on the schedule; wait returns in bounded time when nothing pauses; wait and idle of a source need clock edges that come when the source's tasks have nothing to do (the code is wrong otherwise), and no clear."
  },
  {
   "property": "C83",
   "status": "partial",
   "theorems": [
    "Pcie.C83_released_partial",
    "Pcie.C83_released_high",
    "Pcie.C83_asserted",
    "Pcie.C83_release",
    "Pcie.C83_once",
    "Pcie.C83_config",
    "Pcie.C83_complement",
    "Pcie.C83_released_violated",
    "Pcie.C83_initial_violated"
   ],
   "note": "The 100 ns need pulses of the input that last for a clock edge (the code is wrong otherwise); everything else is proved for all histories, after the first two clock edges."
  },
  {
   "property": "C84",
   "status": "partial",
   "theorems": [
    "Pcie.C84_root_traffic_partial",
    "Pcie.C84_progress_partial",
    "Pcie.C84_dma_partial",
    "Pcie.C84_peer_violated",
    "Pcie.C84_peer_write_violated"
   ],
   "note": "Proved for all traffic between the root complex and the components, and for components that write to each other and read from the root complex as long as nobody reads from them. Components that read from each other, or that write to each other through the root complex while it reads from them, can deadlock (the code is wrong there): the arbitration of a port lets nothing pass a request that has no credits, and an endpoint handles nothing while it sends completions."
  },
  {
   "property": "C85",
   "status": "proved",
   "theorems": [
    "Pcie.C85_in_order",
    "Pcie.C85_no_overtaking",
    "Pcie.C85_data_before_interrupt",
    "Pcie.C85_hierarchy",
    "Pcie.C85_all_in_order",
    "Pcie.C85_completions",
    "Pcie.C85_all_completions"
   ],
   "note": "Order is that of going on the first link (the return of `send`); calls of `send` that wait at the same time may go in any order."
  },
  {
   "property": "C86",
   "status": "partial",
   "theorems": [
    "Pcie.C86_exactly_once",
    "Pcie.C86_no_lost_wakeup",
    "Pcie.C86_settles",
    "Pcie.C86_all_sent",
    "Pcie.C86_order_partial",
    "Pcie.C86_served_partial",
    "Pcie.C86_overtake_violated",
    "Pcie.C86_starved_violated"
   ],
   "note": "Exactly once, no lost wake-up and completeness are proved for all histories. Order is proved for TLPs of one size when calls and grants come while no woken task is about to run; otherwise the code lets later TLPs overtake, without bound (the _violated theorems)."
  },
  {
   "property": "C87",
   "status": "partial",
   "theorems": [
    "Pcie.C87_dllp",
    "Pcie.C87_us_frame",
    "Pcie.C87_s10_frame",
    "Pcie.C87_ptile_frame",
    "Pcie.C87_us_tlp_violated",
    "Pcie.C87_us_tlp_partial"
   ],
   "note": "Exact for DLLPs and for the frames of all interfaces. Violated for Tlp_us, whose comparison leaves out all the fields that only it has (plain TLPs: C05)."
  }
 ]
}