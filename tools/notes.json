{
 "C05": {
  "note": "Violated by the code: Tlp.__init__(tlp) and Tlp.__eq__ omit `th` (C05_copy_violated, C05_eq_violated are concrete witnesses). The _partial theorems prove everything else."
 },
 "C08": {
  "note": "Violated by the code: `address & 0x7c + offset` parses as `address & (0x7c + offset)`, so the byte offset within the dword is lost; witness C08_lower_address_violated. C08_lower_address_partial: right exactly when the first byte is dword aligned."
 },
 "C24": {
  "note": "Violated only for the `th` bit, which Tlp's copy constructor drops at the receiving port (C24_th_violated). C24_in_order_partial compares everything else and also says nothing is lost; C24_in_order is exact for TLPs without th; C24_no_nak shows no TLP is ever taken for out of sequence."
 },
 "C25": {
  "note": "The suffix property holds in every reachable state; exactness of ACK processing needs at most 2048 TLPs outstanding (ReachBounded), because the code compares 12-bit sequence numbers with half the number space. C80_bounded and C80_port prove that bound for clocked links."
 },
 "C26": {
  "note": "Violated by the code: the enable bits are ignored (C26_enable_ignored_violated) and every message TLP raises an exception (C26_messages_violated). The _partial theorems cover all memory, I/O, configuration and completion TLPs and every register configuration."
 },
 "C27": {
  "note": "Violated by the code for locked reads, atomic operations and messages, which raise instead of being answered (C27_unsupported_violated, C45_messages_violated). The _partial theorems cover every other TLP; a function must have a handler registered for the type."
 },
 "C28": {
  "note": "Violated by the code for BARs of 4 GiB and above (C28_large_bar_violated), for 32-bit BARs and 64-bit addresses (C28_alias_violated) and for disabled spaces (C28_disabled_violated)."
 },
 "C45": {
  "note": "Partial only because messages kill the routing task (C45_messages_violated); all other TLPs, any number of ports."
 },
 "C48": {
  "note": "Violated for completions a bridge itself sends downwards (C48_signaled_abort_violated: primary bit set instead of secondary)."
 },
 "C29": {
  "note": "Violated by the code: the upper half of a 64-bit BAR is restored with the lower half's value (C29_restore_violated). The _partial theorems prove everything else for endpoints and bridges; C29_restore_32bit is exact for functions without 64-bit BARs; C29_total: sizing of any tree succeeds."
 },
 "C30": {
  "note": "C30_assignment holds for whole trees of buses as long as allocation ends at or below 2^64; beyond that addresses are silently truncated (C30_overflow_violated)."
 },
 "C31": {
  "note": "Violated by the code: windows are rounded down over BARs of functions that precede the bridge (C31_sibling_bar_violated) and cannot express non-prefetchable ranges above 4 GiB (C31_above_4g_violated). C31_windows is the full property for buses where bridges come first; C31_windows_partial drops only the sibling-BAR clause."
 },
 "C32": {
  "note": "Scan of a tree of arbitrary shape: bus numbers are assigned depth first, ranges nest and are disjoint, every function has one path; the scan raises iff there are more than 255 buses. No access of the scan is ambiguous (cfgRead and cfgWrite of the model fail if it is)."
 },
 "C37": {
  "note": "Configured payload sizes never exceed the supported size of any function on the path (C37_path), uniform below a root port; violated for a device below a switch whose own size is larger and for upstream ports."
 },
 "C33": {
  "note": "Proved for lists whose lengths and offsets are multiples of some g > 1, and for automatic placement with lengths of at least two; for arbitrary histories at most one register is shared. The full statement is false (C33_violated): automatic placement accepts a place whose last register is the first of another capability."
 },
 "C34": {
  "note": "Proved for histories of registrations (capabilities and extended capabilities), and for histories with removals while at least two capabilities remain; the full statement is false (C34_violated): stale pointers after a removal, up to a walk that does not end."
 },
 "C36": {
  "note": "MSI-X is proved for all histories (C36_msix). MSI is proved when vectors are allocated in multiples of 32 (C36_msi_partial); otherwise it is false (C36_violated): the allocator aligns with `% size` instead of rounding up, so an interrupt fires the handlers of another function."
 },
 "C38": {
  "note": "Functions and device ports are numbered uniquely when added through append_function / add_function / add_endpoint; C38_violated: append_endpoint on a switch/root port list does not reject a device number already in use, so C38_ports_partial assumes the caller uses fresh numbers."
 },
 "C42": {
  "note": "TLP conversion is proved for both devices. P-Tile streaming is proved for all frames and timings, except that the tlp_abort flag is never driven or sampled (C42_ptile_violated). Stratix 10 streaming is proved for function numbers that fit (the _partial theorems): the source shifts func_num by 3 bits for each segment on a bus that has 2 bits for each segment, so it raises an exception for others (C42_s10_violated); frames made from TLPs are not affected (C42_s10_tlps)."
 },
 "C40": {
  "note": "Proved for all four interfaces, all accepted bus widths and straddle modes, all frames and timings, also through the AXI handshake, except for 64- and 128-bit requester completion buses with two segments, which the constructors accept and on which the sink raises an exception (C40_straddle_violated). The discontinue flag is never lost and is exact without straddling; on a straddled bus it spreads to frames in the same transaction (C40_discontinue_violated)."
 },
 "C43": {
  "note": "Never-reuse and conservation are proved for every history. The liveness half fails in the code: tag_release is never set (C43_stall_violated), I/O-write credits leak (C43_credit_violated), extended tags on UltraScale raise TypeError (C43_extended_violated), disabling extended tags can too (C43_disable_violated)."
 },
 "C44": {
  "note": "Proved in full for the Xilinx models. The Intel models free completion space for delivered requests too, so the count is only a lower bound (C44_intel_violated)."
 },
 "C39": {
  "note": "request_completed is modelled by its truth value."
 },
 "C47": {
  "note": "Times are integers in units of scale; float rounding of the Python code is not modelled."
 },
 "C51": {
  "note": "Proved for every bit outside the lists pmReadDev, pmWriteDev, pcieReadDev, pcieWriteDev, aerDev and the lane equalization registers; each deviation is a bug in the code, shown by the _violated theorems."
 },
 "C52": {
  "note": "P-Tile is proved in full, UltraScale except first_be/last_be of the 512-bit completer request interface with two segments (C52_us_cq_be_violated: by segment number instead of by start), Stratix 10 except the function number on buses with several segments (C52_s10_func_violated)."
 },
 "C53": {
  "note": "Posted order and reads behind writes are proved for every history. Non-posted requests can overtake each other: while the queue task holds a request and waits for a tag or credits, the queue is empty and a newer request is sent directly (C53_overtake_violated); the order is proved for histories without new requests meanwhile."
 },
 "C54": {
  "note": "Proved for hierarchies of any shape, from the state after reset, with enumerate() of Model/Enumerate.lean. Excluded, because the code fails there: more than 3 GiB of prefetchable memory (a 32-bit BAR ignores the upper half of an address, C54_alias_violated), and requests to the first address behind the ranges of the host bridge (C54_host_limit_violated). Devices integrated in the root complex are not in the hierarchy of C54."
 },
 "C55": {
  "note": "Whole transfers through whole hierarchies after enumeration: every read and write of the root complex and of the functions, memory and I/O, targets in BARs of other devices and in the address spaces of the root complex. Partial: regions whose size is not a multiple of four cannot be read at their end (C55_odd_region_violated), the first address behind each range of the host bridge (C54_host_limit_violated), more than 3 GiB of prefetchable memory (C54_alias_violated). One request at a time; concurrency of operations is in C17, C18, C21 and C53."
 },
 "C56": {
  "note": "Trees of any shape. The scan by TLPs (Node.scan) is proved equal to the scan of the register tree of C32; the answer to 'is it a downstream port' is taken from the kind of the port (PCIe capability registers not modelled here). C56_numbers: afterwards the hierarchy is exactly the one that enumerateAll (C54, C55) continues with."
 },
 "C57": {
  "note": "Regions with user callbacks get their BAR in the same way; only mmap regions are modelled. Sizes are positive and at most 2 GiB (2^63 for 64-bit BARs); that 64-bit BARs of 4 GiB and more are not decoded is C28_large_bar_violated."
 },
 "C58": {
  "note": "C58_claimed_partial is for windows of the first function (C58_function_violated, C58_aperture_violated show what happens for others). C58_stall_violated: requests for a credit are lost while the interface is stalled. The order, credit and progress theorems are for all histories. The restriction of windows to less than 4 GiB comes from C28."
 },
 "C59": {
  "note": "C59 composes C17 (requests), C34 (chain of pointers) and the register lookup. Behaviours of capabilities are parameters; C51 and C37/C38 describe the built-in ones."
 },
 "C17": {
  "note": "Proved in full for functions whose registers behave one at a time (C17_read, C17_write, C17_write_bytes, C17_other_function, C17_failed, C17_crs); the instance for an endpoint's header leaves out register 3, because the start BIST bit answers to the wrong byte enable (C35_bist_violated)."
 },
 "C19": {
  "note": "Violated by the code: a completion that arrives after the timeout of its request is taken by the next operation with the same tag (C19_late_completion_violated). The _partial theorems are for all histories without timeouts."
 },
 "C35": {
  "note": "Violated by the code only for start BIST, bit 30 of register 3, which is written with the byte enable of byte 2 (C35_bist_violated). The _partial theorems cover every other bit of every header register of endpoints and bridges."
 },
 "C60": {
  "note": "Proved for all users that follow the protocol, both models. Only requests for functions that do not exist are excluded: they end the task with an exception (C60_absent_violated)."
 },
 "C61": {
  "note": "Proved for all users that follow the protocol. Requests that do not (a second request while one is waiting, several bits at a time, functions that do not exist) are lost without an answer (C61_lost_violated, C61_no_answer_violated); a request while MSI is disabled raises an exception that ends the task, such histories are excluded."
 },
 "C62": {
  "note": "Delivery proved for MSI-X and, for vectors allocated in blocks of 32, for MSI (otherwise C36_violated applies). The calls of the host that set up the capability registers are those of C36; that they do so through configuration space is C63."
 },
 "C63": {
  "note": "C63_calls is the refinement for all calls. The MSI consequence is partial because C36 fails for MSI vectors not allocated in full blocks (C36_violated). Writes of the MSI-X table through the BAR window are taken as stores at the address in that window (their transport is C55)."
 },
 "C64": {
  "note": "C64_claimed_s10_partial and C64_claimed_ptile_partial hold when the requester's function number equals that of the claimed function; otherwise the function number in the frame is wrong (C64_function_violated). All other theorems are without this restriction."
 },
 "C65": {
  "note": "Exactness (C65_us_exact_partial, C65_s10_exact_partial) holds if the partner advertised fewer than 256 header and 4096 data credits; beyond that it fails (C65_wrap_violated). All theorems are about every reachable state of the link model."
 },
 "C66": {
  "note": "H-Tile and P-Tile hold in full. L-Tile (C66_ltile_partial): register 1 only while the advanced error interrupt message number is zero (C66_ltile_violated). cfg_function_status (C66_function_status_partial): bits 2 and 3 of each function; bits 0 and 1 are wrong (C66_function_status_violated)."
 },
 "C67": {
  "note": "Completions arrive in order for each request, as PCI Express demands, and the function IDs do not change while requests are outstanding. A completion dropped for lack of space (C43) is excluded."
 },
 "C68": {
  "note": "Missing from the order of tags: requests made while an earlier one waits, which may overtake it (C68_tag_order_violated). All the outputs of the interface are assumed connected: a second 512-bit port left open loses its values (example)."
 },
 "C69": {
  "note": "Windows of the first function only, because requests for windows of other functions are delivered as requests for function 0 (C58_function_violated). The streaming interface is not part of these theorems; that it carries frames faithfully is C40."
 },
 "C70": {
  "note": "The function number given to the user is not part of the statement, because it is that of the requester (C64_function_violated). The streaming interfaces are not part of these theorems; that they carry frames faithfully is C42 to C45."
 },
 "C71": {
  "note": "The capability walk, configure_device and init_capabilities, which setup() runs after reading the registers, are not part of this program; C19, C28 and C63 are about them. Whether a bridge is a downstream port is an operation of its own. Completion retry status is not modelled."
 },
 "C72": {
  "note": "Calls are modelled one after another; calls that overlap in time are not. The part about bridges holds only for bridges that are not themselves the device of a call (C72_bridges_violated)."
 },
 "C73": {
  "note": "Missing from the full statement, because the code does not do it: bit 26 of the MSI control register (extended message data enable), and the registers of the capability that the device does not have."
 },
 "C74": {
  "note": "User logic is assumed to keep to its tags and to the size of the completion buffer; what happens otherwise is in C44 and C64."
 },
 "C75": {
  "note": "What is missing in the _partial theorems: the write-one-to-clear bits of the device status, which the calls clear (C75_status_violated). The theorems say exactly when they are cleared and that no other bit changes."
 },
 "C76": {
  "note": "Requests are assumed to be answered within the host's 1 µs time-out. C76_found, C76_given_up and C76_hidden cover every ready time except the window of at most 11 request latencies around the last try. Exception: functions other than function 0 (C76_function_violated)."
 },
 "C77": {
  "note": "The link is taken to deliver packets in order (C24 proves this of the links) and address spaces to answer at once. Requests without a handler raise, as in the code."
 },
 "C78": {
  "note": "Operations do not time out (with timeouts the property fails, C19_late_completion_violated). The link delivers packets in order (C24 proves this of the links). Calls with length 0 are not covered."
 },
 "C79": {
  "note": "Proved for every clocked history: C79_credits_return, C79_sender_unblocked, the instance for simulated ports C79_port; C79_link (no exceptions, refinement of the untimed link), C79_symmetric, and C79_time_passes (from every reachable state the ports alone take the link to any later time). The bound contains one DLLP time per TLP received or released meanwhile (ACKs and updates of other types go first), and must be below the 30 us repetition time of updates, as for all link speeds of the source."
 },
 "C80": {
  "note": "Proved for every clocked history: C80_received_acked, C80_sent_acked, C80_retry_empty, C80_outstanding, C80_bounded (the hypothesis ReachBounded of C25), and the instance for simulated ports, C80_port, which assumes port delays of together at most 10 ns (the default), up to 32 lanes and at most 4096 bytes of data per TLP; exact instead of floating-point times. C80_table compares the latency limit with the table of the specification."
 },
 "C81": {
  "note": "Upper and lower bounds for every history; C81_always_ends combines them with C79_time_passes. Ports are assumed to start at the same simulation time."
 },
 "C82": {
  "note": "Limits, senders, order and the sink's wait are proved without restriction on the schedule; wait returns in bounded time when nothing pauses; wait and idle of a source need clock edges that come when the source's tasks have nothing to do (the code is wrong otherwise), and no clear."
 },
 "C83": {
  "note": "The 100 ns need pulses of the input that last for a clock edge (the code is wrong otherwise); everything else is proved for all histories, after the first two clock edges."
 },
 "C84": {
  "note": "Proved for all traffic between the root complex and the components, and for components that write to each other and read from the root complex as long as nobody reads from them. Components that read from each other, or that write to each other through the root complex while it reads from them, can deadlock (the code is wrong there): the arbitration of a port lets nothing pass a request that has no credits, and an endpoint handles nothing while it sends completions."
 },
 "C85": {
  "note": "Order is that of going on the first link (the return of `send`); calls of `send` that wait at the same time may go in any order."
 },
 "C86": {
  "note": "Exactly once, no lost wake-up and completeness are proved for all histories. Order is proved for TLPs of one size when calls and grants come while no woken task is about to run; otherwise the code lets later TLPs overtake, without bound (the _violated theorems)."
 },
 "C87": {
  "note": "Exact for DLLPs and for the frames of all interfaces. Violated for Tlp_us, whose comparison leaves out all the fields that only it has (plain TLPs: C05)."
 }
}