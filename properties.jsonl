{"id": "C01", "title": "Alignment helper rounds up to the next boundary", "statement": "align(val, mask) with mask = 2**k-1 returns the least multiple of 2**k that is >= val; an aligned value is returned unchanged.", "quantifier": "every non-negative integer val and every k", "why_tests_cant": "The helper places every BAR and bridge window; a single off-by-one at one boundary value silently overlaps two address ranges, and there are unboundedly many (val, k) pairs.", "anchors": ["cocotbext/pcie/core/utils.py: align"]}
{"id": "C02", "title": "Byte-masked register update writes exactly the enabled, writable bits", "statement": "byte_mask_update(old, mask, new, bitmask): bit i of the result is bit i of new when byte i//8 is enabled in mask and bit i is set in bitmask, and bit i of old otherwise.", "quantifier": "every old, mask, new, bitmask and every bit position", "why_tests_cant": "All configuration-space writes go through it; a test can only sample values while a leak of one disabled byte or read-only bit is visible only on particular combinations.", "anchors": ["cocotbext/pcie/core/utils.py: byte_mask_update"]}
{"id": "C03", "title": "PCIe IDs and their 16-bit encodings are in bijection", "statement": "A PcieId can be constructed exactly when bus<=255, device<=31, function<=7; from_int(int(id)) == id for each such id and int(from_int(v)) == v for each 16-bit v, so distinct functions never alias in a requester/completer ID.", "quantifier": "every bus/device/function triple and every integer", "why_tests_cant": "Aliasing would show up only for specific IDs in a large topology.", "anchors": ["cocotbext/pcie/core/utils.py: PcieId"]}
{"id": "C04", "title": "TLP serialisation round trip", "statement": "For every well-formed TLP of a packable type, Tlp.unpack(tlp.pack()) yields a TLP with the same header fields and payload; length 1024 and byte count 4096 survive their all-zero encodings, and the header is 3 or 4 dwords according to fmt.", "quantifier": "every TLP type in the packable set and every in-range value of every header field and every payload", "why_tests_cant": "The header has ~20 packed fields (including split tag and attr bits); collisions between two fields only show on particular combinations.", "anchors": ["cocotbext/pcie/core/tlp.py: Tlp.pack_header, Tlp.pack, Tlp.unpack_header, Tlp.unpack"]}
{"id": "C05", "title": "Copying a TLP preserves every header field", "statement": "Tlp(tlp) has the same header fields and payload as tlp, so a TLP crossing a link is delivered unchanged; equality distinguishes TLPs that differ in any header field.", "quantifier": "every TLP", "why_tests_cant": "A dropped field is only visible on TLPs that set that field.", "anchors": ["cocotbext/pcie/core/tlp.py: Tlp.__init__, Tlp.__eq__", "cocotbext/pcie/core/port.py: Port.ext_recv"]}
{"id": "C06", "title": "Byte enables describe exactly the requested byte range", "statement": "After set_addr_be(addr, length) the set of byte addresses enabled by (address, length, first_be, last_be) is exactly {addr, ..., addr+length-1}, the DWORD length is the least that covers it, a zero length enables nothing, and the decoded first-byte offset and byte count recover addr and length.", "quantifier": "every byte address and every byte length", "why_tests_cant": "Byte-enable corner cases depend on addr mod 4, (addr+length) mod 4 and one-DWORD requests together.", "anchors": ["cocotbext/pcie/core/tlp.py: Tlp.set_addr_be, get_first_be_offset, get_last_be_offset, get_be_byte_count"]}
{"id": "C07", "title": "Payload bytes line up with their enabled addresses", "statement": "After set_addr_be_data(addr, data) the payload is a whole number of DWORDs matching the length field and the payload byte for address addr+i is data[i]; every other payload byte is disabled.", "quantifier": "every byte address and every byte string", "why_tests_cant": "Padding is a function of two alignments and the length; errors show only for some of them.", "anchors": ["cocotbext/pcie/core/tlp.py: Tlp.set_addr_be_data"]}
{"id": "C08", "title": "Lower-address helper reports the address of the first enabled byte", "statement": "Tlp.get_lower_address() equals the low seven bits of the byte address of the first enabled byte of the request.", "quantifier": "every request TLP", "why_tests_cant": "Only unaligned requests can reveal an error.", "anchors": ["cocotbext/pcie/core/tlp.py: Tlp.get_lower_address"]}
{"id": "C09", "title": "DLLP serialisation round trip", "statement": "For every DLLP of a supported type with in-range fields, Dllp.unpack(dllp.pack()) == dllp and Dllp.unpack_crc(dllp.pack_crc()) == dllp; unsupported types are rejected rather than mis-decoded. The flow control class of a DLLP is the one that its type code names, and a DLLP without flow control information has none.", "quantifier": "every supported DLLP type and every in-range field value", "why_tests_cant": "ACK sequence numbers and credit values share one 32-bit word with type and VC bits; collisions appear only on particular values.", "anchors": ["cocotbext/pcie/core/dllp.py: Dllp.pack, Dllp.unpack, Dllp.pack_crc, Dllp.unpack_crc", "core/dllp.py: Dllp.get_fc_type"]}
{"id": "C10", "title": "DLLP CRC accepts every intact packet and rejects corrupted ones", "statement": "unpack_crc accepts every packet produced by pack_crc, and rejects any 6-byte packet that differs from one in a single bit, or in any burst of at most 16 consecutive bits.", "quantifier": "every DLLP payload and every nonzero error burst of length at most 16 bits at every position", "why_tests_cant": "2**32 payloads times the error patterns; the guarantee is algebraic.", "anchors": ["cocotbext/pcie/core/dllp.py: crc16, Dllp.unpack_crc"]}
{"id": "C11", "title": "A memory write updates exactly the addressed bytes", "statement": "Writing data at addr through the memory interface (split into TLPs, carried to a completer and applied under byte enables) leaves the target memory equal to the old memory with bytes addr..addr+len(data)-1 replaced by data and nothing else changed.", "quantifier": "every start address, every data length and content, every max payload size setting, every prior memory content", "why_tests_cant": "Splitting interacts with address alignment, MPS and 4 KiB pages; one wrong byte enable corrupts neighbouring memory only for some combinations.", "anchors": ["cocotbext/pcie/core/region.py: MemoryTlpRegion.write", "cocotbext/pcie/core/rc.py: RootComplex.handle_mem_write", "cocotbext/pcie/core/endpoint.py: MemoryEndpoint.handle_mem_write_tlp"]}
{"id": "C12", "title": "Every request TLP obeys the PCIe size and boundary rules", "statement": "Each memory write TLP carries at most the configured max payload size and each memory read TLP requests at most the configured max read request size; none crosses a 4 KiB boundary; each has DWORD length between 1 and 1024, uses the 4-DWORD header exactly when its address needs more than 32 bits, and passes Tlp.check(); segments are contiguous and in address order.", "quantifier": "every address, length and size configuration", "why_tests_cant": "Boundary violations depend on the joint alignment of address, length and limit.", "anchors": ["cocotbext/pcie/core/region.py: MemoryTlpRegion.read, MemoryTlpRegion.write", "cocotbext/pcie/core/tlp.py: Tlp.check"]}
{"id": "C13", "title": "A memory read returns exactly the addressed bytes", "statement": "Reading length bytes at addr through the memory interface returns the bytes the target memory holds at addr..addr+length-1, whatever way requests are split and completions are segmented by the completer.", "quantifier": "every start address and length, every MRRS/MPS/RCB configuration of requester and completer, every memory content", "why_tests_cant": "Read splitting times completion splitting times alignment is unbounded; a wrong offset shows up only for some combinations.", "anchors": ["cocotbext/pcie/core/region.py: MemoryTlpRegion.read", "cocotbext/pcie/core/rc.py: RootComplex.handle_mem_read", "cocotbext/pcie/core/endpoint.py: MemoryEndpoint.handle_mem_read_tlp"]}
{"id": "C14", "title": "Completions to a read are split legally", "statement": "The completions generated for a read are in address order, each carries at most max payload size bytes, every completion but the last ends on a read completion boundary, byte_count is the number of bytes still to be delivered including this completion, lower_address is the low 7 bits of the first byte, and the payloads concatenate to the requested DWORDs.", "quantifier": "every read request and every MPS/RCB/split setting of the completer", "why_tests_cant": "The number of completions and their boundaries depend on alignment and size with no bound.", "anchors": ["cocotbext/pcie/core/rc.py: RootComplex.handle_mem_read", "cocotbext/pcie/core/endpoint.py: MemoryEndpoint.handle_mem_read_tlp"]}
{"id": "C15", "title": "Zero-length accesses have no effect", "statement": "A zero-length read issues exactly one request with no byte enabled and returns an empty byte string; a zero-length write issues exactly one request with no byte enabled and changes no byte of the target.", "quantifier": "every address and every target memory", "why_tests_cant": "Alignment-dependent corner case of the splitting and byte-enable code.", "anchors": ["cocotbext/pcie/core/region.py: MemoryTlpRegion.read, MemoryTlpRegion.write", "cocotbext/pcie/core/rc.py: handle_mem_write"]}
{"id": "C16", "title": "I/O reads and writes transfer exactly the addressed bytes", "statement": "An I/O read of any length returns the target I/O space bytes at those addresses and an I/O write changes exactly those bytes; each request is one DWORD and never crosses a DWORD boundary.", "quantifier": "every address, length, data and prior content", "why_tests_cant": "Multi-DWORD unaligned I/O accesses are split per DWORD; the combination space is unbounded.", "anchors": ["cocotbext/pcie/core/region.py: IoTlpRegion.read, IoTlpRegion.write", "cocotbext/pcie/core/rc.py: handle_io_read, handle_io_write"]}
{"id": "C17", "title": "Configuration accesses at byte granularity", "statement": "config_write followed by the register-level byte-masked writes changes exactly the bytes addr..addr+len-1 of the target's configuration registers, and config_read returns exactly those bytes; each request touches one DWORD register.", "quantifier": "every byte offset, length, data and register contents", "why_tests_cant": "Unaligned multi-register accesses are split and masked; errors leak into neighbouring fields only for some alignments.", "anchors": ["cocotbext/pcie/core/rc.py: config_read, config_write", "cocotbext/pcie/core/function.py: handle_config_0_tlp"]}
{"id": "C18", "title": "Tags identify at most one outstanding request", "statement": "In every interleaving of allocations, releases, and completions, two outstanding non-posted operations never hold the same tag, every handed-out tag is below the configured tag count, and releasing returns it to the pool.", "quantifier": "every interleaving of alloc/release operations from any number of concurrent users, every tag-count configuration", "why_tests_cant": "Depends on the history of allocations and on changes of the extended-tag settings.", "anchors": ["cocotbext/pcie/core/rc.py: RootComplex.alloc_tag, release_tag", "cocotbext/pcie/core/function.py: Function.alloc_tag, release_tag"]}
{"id": "C19", "title": "Completions are delivered to the operation that issued the request", "statement": "A non-posted operation only ever receives completions generated for its own request.", "quantifier": "every history of operations, timeouts and late completions", "why_tests_cant": "Requires a specific race between a timeout, tag reuse and a late completion.", "anchors": ["cocotbext/pcie/core/rc.py: perform_nonposted_operation, recv_cpl", "cocotbext/pcie/core/function.py: perform_nonposted_operation"]}
{"id": "C20", "title": "A non-posted operation collects exactly the completions of its request", "statement": "Given the completions of one request in order, the operation terminates exactly after the completion that delivers the last requested byte (or the first unsuccessful one, or a completion without data) and returns all of them, no more and no fewer.", "quantifier": "every request, every legal completion segmentation", "why_tests_cant": "The terminal condition depends on byte_count, length and alignment.", "anchors": ["cocotbext/pcie/core/rc.py: perform_nonposted_operation", "cocotbext/pcie/core/function.py: perform_nonposted_operation"]}
{"id": "C21", "title": "Flow control: the receiver is never overrun", "statement": "With finite advertised credits, in every interleaving of sends, deliveries, releases and credit updates, the header and data credits of TLPs sent but not yet released never exceed the receiver's initial allocation, although all counters are modular.", "quantifier": "every interleaving, every initial allocation in range, every TLP size, any number of steps (counter wraps)", "why_tests_cant": "A wrap-around error appears only after thousands of TLPs in a specific credit state.", "anchors": ["cocotbext/pcie/core/port.py: FcStateData, FcChannelState.tx_has_credit, tx_consume_fc, rx_consume_fc, rx_release_fc, handle_fc_dllp"]}
{"id": "C22", "title": "Flow control: no credit is lost or invented", "statement": "When all sent TLPs have been received and released and all credit updates processed, the transmitter's available credits equal the receiver's initial allocation; releasing the same TLP more than once returns its credits only once.", "quantifier": "every history of sends, receives, releases (including repeated releases) and updates", "why_tests_cant": "Credit leaks only become visible after long histories.", "anchors": ["cocotbext/pcie/core/port.py: FcChannelState.rx_consume_fc, release token handling"]}
{"id": "C23", "title": "Flow-control initialisation completes on both sides with the partner's advertised credits", "statement": "From reset, under any order and any repetition of INIT_FC1/INIT_FC2 exchanges, when a channel reports initialised its transmit credit limits are exactly what the partner advertised, and neither side can finish while the other is permanently stuck.", "quantifier": "every interleaving of FC DLLP transmissions and receptions", "why_tests_cant": "Protocol-level property over interleavings.", "anchors": ["cocotbext/pcie/core/port.py: FcChannelState.handle_fc_dllp, Port._run_fc_init (vc state)"]}
{"id": "C24", "title": "Links deliver every TLP exactly once and in order", "statement": "For every sequence of TLPs sent through a port and every interleaving of ACKs and transmissions, the partner port delivers the same TLPs, each once, in the order sent.", "quantifier": "every send sequence and interleaving; sequence numbers wrap mod 4096", "why_tests_cant": "Needs wrap-around of a 12-bit sequence number with arbitrary ACK timing.", "anchors": ["cocotbext/pcie/core/port.py: Port.send, _run_transmit, ext_recv"]}
{"id": "C25", "title": "ACK processing purges exactly the acknowledged TLPs", "statement": "On an ACK for any outstanding sequence number the retry buffer keeps exactly the TLPs after that number; stale or duplicate ACKs change nothing; the buffer therefore always equals the unacknowledged suffix of the sent TLPs.", "quantifier": "every interleaving of transmissions and genuine ACKs with at most 2048 TLPs outstanding; modular sequence numbers", "why_tests_cant": "Requires modular comparison near wrap-around.", "anchors": ["cocotbext/pcie/core/port.py: Port.handle_dllp"]}
{"id": "C26", "title": "Bridge forwarding follows its windows and bus range", "statement": "A bridge forwards a TLP from upstream to its secondary side exactly when the TLP's address lies in an enabled memory/prefetchable/I-O window or its target bus lies in [secondary, subordinate]; type-1 configuration requests for the secondary bus become type 0 with the same content; everything from downstream outside those ranges goes upstream.", "quantifier": "every TLP and every register configuration of the bridge", "why_tests_cant": "Window edges and bus numbers combine with TLP types.", "anchors": ["cocotbext/pcie/core/bridge.py: Bridge.match_tlp_secondary, upstream_recv, downstream_recv"]}
{"id": "C27", "title": "Every request gets an answer and no completion is answered", "statement": "For every TLP received by an endpoint device, a switch or a bridge: it is either handed to exactly one consumer, or dropped; a dropped non-posted request is answered by exactly one unsupported-request completion carrying its requester ID and tag; posted requests and completions never generate a completion; and its flow-control credits are released exactly once.", "quantifier": "every TLP of a supported type and every device configuration", "why_tests_cant": "Requires enumerating all TLP types against all match outcomes.", "anchors": ["cocotbext/pcie/core/device.py: Device.upstream_recv", "cocotbext/pcie/core/bridge.py", "cocotbext/pcie/core/switch.py: _run_routing"]}
{"id": "C28", "title": "BAR decoding", "statement": "match_bar(addr) on a function with memory decoding enabled returns a BAR and offset exactly when addr lies inside a configured BAR's assigned range, with offset = addr - base; I/O likewise; a disabled space never matches.", "quantifier": "every BAR layout (32/64-bit, memory/I-O, any size), every assigned base, every address", "why_tests_cant": "BAR sizes and 32/64-bit pairing interact; sizes of 4 GiB and above are beyond any practical test.", "anchors": ["cocotbext/pcie/core/function.py: Function.configure_bar, match_bar"]}
{"id": "C29", "title": "BAR sizing by writing all ones discovers the configured size", "statement": "The enumeration procedure (write ones, read back) finds for each configured BAR its kind, width and size (rounded up to a power of two and the minimum granularity), reports unimplemented BARs as absent, and leaves BAR contents as they were.", "quantifier": "every BAR configuration and prior BAR content", "why_tests_cant": "Size/kind combinations with 64-bit pairs; restoring matters only when the BAR was already programmed.", "anchors": ["cocotbext/pcie/core/pci.py: PciDevice.read_bars", "cocotbext/pcie/core/function.py: Function.write_config_register"]}
{"id": "C30", "title": "BAR assignment is aligned and disjoint", "statement": "The addresses assigned to BARs are naturally aligned to their sizes, lie at or above the allocation base and below the resulting limit, and no two assigned BARs of the same kind overlap.", "quantifier": "every list of devices and BAR sizes and every starting base", "why_tests_cant": "Overlap depends on the order and mix of sizes.", "anchors": ["cocotbext/pcie/core/pci.py: PciDevice.assign_bars, PciBus.assign_resources"]}
{"id": "C31", "title": "Bridge windows contain exactly the resources behind them", "statement": "After resource assignment each bridge's programmed memory, prefetchable and I/O windows contain every BAR behind the bridge and are disjoint from sibling windows and from sibling BARs.", "quantifier": "every bus topology and BAR layout", "why_tests_cant": "Depends on alignment of everything allocated earlier on the same bus.", "anchors": ["cocotbext/pcie/core/pci.py: PciBus.assign_resources, PciDevice.setup_bridge", "cocotbext/pcie/core/bridge.py: write_config_register"]}
{"id": "C32", "title": "Bus numbers are unique and nested", "statement": "Enumeration gives each bus behind a bridge a distinct number; the [secondary, subordinate] ranges of sibling bridges are disjoint, a child's range is inside its parent's, and a configuration request for any assigned bus is therefore routed along exactly one path. At no point of the scan does a configuration request have a choice between two functions or ports.", "quantifier": "every tree of bridges", "why_tests_cant": "Topologies are unboundedly deep and wide.", "anchors": ["cocotbext/pcie/core/pci.py: PciBus.scan, scan_bridge"]}
{"id": "C33", "title": "Registered capabilities never overlap", "statement": "After any sequence of capability registrations and removals, no two registered capabilities share a configuration register, so each register access reaches exactly one capability.", "quantifier": "every sequence of register/deregister calls with arbitrary lengths and explicit offsets", "why_tests_cant": "Placement depends on history.", "anchors": ["cocotbext/pcie/core/caps/common.py: PciCapList.register, deregister"]}
{"id": "C34", "title": "Walking the capability list visits every registered capability once", "statement": "Following next-capability pointers from the first capability visits all registered capabilities in offset order exactly once and terminates at zero.", "quantifier": "every sequence of register/deregister calls", "why_tests_cant": "Pointers are rebuilt incrementally; stale pointers appear only after particular removals.", "anchors": ["cocotbext/pcie/core/caps/common.py: PciCapList._build_linked_list", "cocotbext/pcie/core/pci.py: PciDevice.walk_capabilities"]}
{"id": "C35", "title": "Configuration register write semantics", "statement": "A byte-masked write to a function's configuration register changes exactly the writable bits of the enabled bytes: identification registers are read-only, command bits are read/write, status bits are write-one-to-clear, BAR bits are writable only above the BAR size.", "quantifier": "every register number, data, byte mask and prior state", "why_tests_cant": "Hundreds of independent bits times byte masks.", "anchors": ["cocotbext/pcie/core/function.py: write_config_register, read_config_register", "cocotbext/pcie/core/endpoint.py", "cocotbext/pcie/core/bridge.py"]}
{"id": "C36", "title": "MSI messages reach the handler of the requested vector", "statement": "When a function with MSI enabled issues interrupt number n below its enabled vector count, the host's MSI region fires exactly the handlers of the vector allocated for (function, n).", "quantifier": "every history of vector allocations for any number of functions, every n", "why_tests_cant": "The MSI base data is OR-ed with the index, so correctness depends on alignment produced by the whole allocation history.", "anchors": ["cocotbext/pcie/core/msi.py: MsiRegion.alloc_vectors, write", "cocotbext/pcie/core/caps/msi.py: MsiCapability.issue_msi_interrupt", "cocotbext/pcie/core/pci.py: enable_msi"]}
{"id": "C37", "title": "Max payload size configuration is safe", "statement": "After enumeration configures MPS over a hierarchy, every device's configured max payload size is at most what it and every device on the path support, so no receiver gets an oversize TLP.", "quantifier": "every topology and assignment of supported sizes", "why_tests_cant": "Depends on min over arbitrary paths.", "anchors": ["cocotbext/pcie/core/pci.py: PciDevice.configure_mps, PciBus"]}
{"id": "C38", "title": "Device and function numbers are unique", "statement": "Functions appended to a device and devices/ports appended to a switch or root complex get pairwise distinct function/device numbers, the lowest free ones, and requests beyond capacity are rejected.", "quantifier": "every sequence of appends with explicit or automatic numbers", "why_tests_cant": "History dependent.", "anchors": ["cocotbext/pcie/core/device.py: append_function, make_function", "cocotbext/pcie/core/switch.py: next_free_device_number", "cocotbext/pcie/core/rc.py"]}
{"id": "C39", "title": "UltraScale descriptors carry TLPs faithfully", "statement": "For each of the four UltraScale interfaces (CQ, CC, RQ, RC), unpacking the packed descriptor yields a TLP with the same type, IDs, tag, attributes, length, byte enables, address and payload, for every TLP the interface can carry.", "quantifier": "every TLP of a type the interface supports and every sideband value in range", "why_tests_cant": "Bit-packed 128-bit descriptors with many fields.", "anchors": ["cocotbext/pcie/xilinx/us/tlp.py: pack_us_cq, unpack_us_cq, pack_us_cc, unpack_us_cc, pack_us_rq, unpack_us_rq, pack_us_rc, unpack_us_rc"]}
{"id": "C40", "title": "AXI-stream framing round trip with straddling", "statement": "For every sequence of frames queued on a UltraScale interface source and every timing of queue availability, the matching sink reassembles the same frames (data, byte enables, parity, first/last BE, sequence number) in the same order, for every bus width and straddle mode.", "quantifier": "every frame sequence, width, segment count and enqueue timing", "why_tests_cant": "Straddling packs parts of two frames in a beat; errors occur only for particular length combinations.", "anchors": ["cocotbext/pcie/xilinx/us/interface.py: RqSource/RqSink, RcSource/RcSink, CqSource/CqSink, CcSource/CcSink"]}
{"id": "C41", "title": "Parity protects every byte", "statement": "update_parity followed by check_parity succeeds, and flipping any single bit of any data dword or of the stored parity makes check_parity fail.", "quantifier": "every frame content and every bit position", "why_tests_cant": "2**32 dword values; the parity-folding trick must be right for each byte lane.", "anchors": ["cocotbext/pcie/xilinx/us/interface.py: dword_parity, UsPcieFrame", "cocotbext/pcie/intel/s10/interface.py: dword_parity, parity", "cocotbext/pcie/intel/ptile/interface.py"]}
{"id": "C42", "title": "Intel frames carry TLPs faithfully", "statement": "S10PcieFrame.from_tlp(tlp).to_tlp() and PTilePcieFrame.from_tlp(tlp).to_tlp() have the same header and payload as tlp, and sources/sinks reassemble the same frames in order under every segment straddling.", "quantifier": "every packable TLP, every frame sequence, every segment configuration", "why_tests_cant": "Header/data split and segment packing interplay.", "anchors": ["cocotbext/pcie/intel/s10/interface.py: S10PcieFrame, S10PcieSource._run, S10PcieSink._run", "cocotbext/pcie/intel/ptile/interface.py"]}
{"id": "C43", "title": "Hard-IP tag management never reuses an active tag nor stalls with free tags", "statement": "With internal tag management, the tag assigned to a new non-posted request is never one of an outstanding request, and when a tag becomes free a waiting request is eventually sent.", "quantifier": "every interleaving of requests and completions, with and without extended tags", "why_tests_cant": "Exhaustion and wake-up only happen in long histories.", "anchors": ["cocotbext/pcie/xilinx/us/us_model.py: get_free_tag, get_available_tag_count, _run_rq_logic, _run_rq_np_queue_logic, upstream_recv"]}
{"id": "C44", "title": "RX completion buffer accounting is exact", "statement": "The modelled RX completion buffer occupancy always equals the credits of the completions currently buffered and never exceeds its limit; a completion is dropped only when it truly does not fit.", "quantifier": "every interleaving of received TLPs and dequeues", "why_tests_cant": "History-dependent counter drift.", "anchors": ["cocotbext/pcie/xilinx/us/us_model.py: upstream_recv, _run_rc_logic", "cocotbext/pcie/intel/s10/s10_model.py: upstream_recv, _run_rx_logic"]}
{"id": "C45", "title": "Switch routing delivers each TLP to exactly the matching port", "statement": "A TLP entering a switch is forwarded to the one egress port whose bridge claims it, otherwise upstream (from a downstream port), and never back to its ingress port.", "quantifier": "every switch configuration with disjoint windows and bus ranges and every TLP", "why_tests_cant": "Depends on all ports' registers jointly.", "anchors": ["cocotbext/pcie/core/switch.py: Switch._run_routing, _run_arbitration"]}
{"id": "C46", "title": "Word-granular helpers agree with byte access", "statement": "Writing a list of words/dwords/qwords with any byte order and reading the same range back returns the list, and the bytes written are the byte-order encoding of the words.", "quantifier": "every list of in-range words, every word size and byte order", "why_tests_cant": "Unbounded lists and values.", "anchors": ["cocotbext/pcie/core/rc.py: config_read_words/config_write_words and dword/qword variants"]}
{"id": "C47", "title": "Link transmission time equals the physical serialisation delay", "statement": "SimPort delivers packets in order with a constant latency after serialising symbols at the configured link rate; a queue of packets is never reordered by the delay.", "quantifier": "every packet sequence, speed and width", "why_tests_cant": "Timing property of all schedules.", "anchors": ["cocotbext/pcie/core/port.py: SimPort"]}
{"id": "C48", "title": "Error status bits report what happened on the link", "statement": "Receiving a completion with completer-abort status sets the function's received-target-abort bit, with unsupported-request status its received-master-abort bit; sending an abort sets signaled-target-abort; a poisoned TLP sets master-data-parity-error when parity error response is enabled; a bridge uses its primary bits for its upstream side and its secondary bits for its downstream side; no bit is ever cleared and no other bit is set.", "quantifier": "every TLP sent, received or forwarded, and every state of the function or bridge", "why_tests_cant": "Bits interact with TLP type, completion status, poisoning, enables and direction.", "anchors": ["cocotbext/pcie/core/function.py: Function.upstream_send, upstream_recv, send", "cocotbext/pcie/core/bridge.py: Bridge.upstream_recv, downstream_recv, send"]}
{"id": "C49", "title": "Switch queues neither strand nor reorder TLPs", "statement": "Every TLP that the switch routed to an egress port is passed to that port exactly once; TLPs from one ingress port leave in arrival order; the port's forwarding task sleeps only when nothing is waiting for it, so nothing is left behind however arrivals interleave with slow transmissions.", "quantifier": "every number of ports and every interleaving of arrivals with the forwarding task", "why_tests_cant": "A lost wake-up needs one particular interleaving of the event flag with the scan over the queues.", "anchors": ["cocotbext/pcie/core/switch.py: Switch._run_routing, _run_arbitration, add_switch_port"]}
{"id": "C50", "title": "Streaming handshakes lose, duplicate and reorder nothing", "statement": "Between a source and a sink of the device interfaces, every transaction that the source is given is sampled by the sink exactly once and in order, whatever the pauses on both sides and, for the Intel interfaces, the ready latency; the sink never reports a handshake error; when nobody is paused any more everything is delivered, so no sleeping task misses its wake-up. A sink that is paused or whose queue is full takes nothing any more, after at most the ready latency plus one clock edges (two for AXI stream), until that ends.", "quantifier": "every sequence of transactions, every pause pattern on both sides, every ready latency, every interleaving of queue operations with clock edges", "why_tests_cant": "Delay lines and sleeping tasks interact with arbitrary pause patterns; a missed wake-up or lost beat needs one particular interleaving.", "anchors": ["cocotbext/pcie/intel/s10/interface.py: S10PcieSource._run_source, S10PcieSink._run_sink", "cocotbext/pcie/intel/ptile/interface.py", "cocotbext/pcie/xilinx/us/interface.py: UsPcieSource._run_source, UsPcieSink._run_sink"]}
{"id": "C51", "title": "Capability registers follow the specification's register map", "statement": "Reading a register of the power management, PCI Express, secondary PCI Express or advanced error reporting capability shows every attribute of the capability object at the bits that the PCI Express specification assigns to it, and zero elsewhere; a byte-enabled write changes read-write bits to the data written, clears write-one-to-clear bits where a one is written, and changes no other bit, register or attribute.", "quantifier": "every value of every attribute, every register and bit, every write data and byte enable", "why_tests_cant": "About two hundred fields at hand-written bit positions with hand-written byte enables; a test that checks some fields with some values says nothing about the other bits, or about the interaction of byte enables with neighbouring fields.", "anchors": ["cocotbext/pcie/core/caps/pm.py: PmCapability._read_register, _write_register", "cocotbext/pcie/core/caps/pcie.py: PcieCapability, PcieExtendedCapability", "cocotbext/pcie/core/caps/aer.py: AerExtendedCapability", "cocotbext/pcie/core/caps/common.py: PciCap.read_register, PciExtCap.read_register"]}
{"id": "C52", "title": "Sources drive the vendor's bus layout", "statement": "Every transaction that a streaming source (UltraScale RQ/RC/CQ/CC, Stratix 10, P-Tile) drives has the layout the vendor documents: the dwords and parity of each frame in their lanes, start and end markers with their pointers, tkeep/tlast or empty, byte enables, sequence numbers, bar range, function and VF numbers in the element of the segment (or of the start) they belong to, and nothing elsewhere; the frames' parts appear once each and in order, packed from the first segment. So a design under test that is not one of this library's sinks can decode it. Sinks accept only well-formed frames: whatever is on the bus, a delivered frame has as many dwords as its header says, and anything else is an error.", "quantifier": "every sequence of frames, every bus width and segment configuration, every timing of sends and transactions, every transaction sequence for the sinks", "why_tests_cant": "Loopback tests against the library's own sinks cannot see a layout error that both sides share, and the positions depend on how frames straddle segments.", "anchors": ["cocotbext/pcie/xilinx/us/interface.py: RqSource, RcSource, CqSource, CcSource", "cocotbext/pcie/intel/s10/interface.py: S10PcieSource._run, S10PcieSink._run", "cocotbext/pcie/intel/ptile/interface.py: PTilePcieSource._run, PTilePcieSink._run"]}
{"id": "C53", "title": "Hard-IP model keeps PCIe request ordering", "statement": "Posted requests that the user gives to the UltraScale/UltraScale+ requester request interface are sent in the order in which they were given, and no non-posted request is sent before a posted request given earlier (a read pushes the writes before it). Non-posted requests leave in the order in which they were given.", "quantifier": "every interleaving of requests, completions, configuration changes and scheduling of the model's tasks, with internal or client tag management", "why_tests_cant": "Requests travel on two paths (directly, or through a queue and a second task waiting for tags and credits); reordering needs a particular combination of exhausted resources.", "anchors": ["cocotbext/pcie/xilinx/us/us_model.py: _run_rq_logic, _run_rq_np_queue_logic", "cocotbext/pcie/xilinx/us/usp_model.py"]}
{"id": "C54", "title": "After enumeration every function is reachable through the whole hierarchy", "statement": "After enumerate() on a root complex with any tree of switches and devices: every request of the root complex to an address in a BAR of a function, every completion with its ID and every configuration request for it arrives at exactly that function, unchanged (configuration requests as type 0), whatever the number of switches on the way; requests of a function to host memory and its completions for the root complex arrive there; functions of different devices reach each other; a request for nobody is delivered nowhere, and if it is non-posted the root complex gets exactly one unsupported request completion.", "quantifier": "all hierarchies after reset (any depth and width, any BARs and ROMs), all functions in them, all TLPs with a target", "why_tests_cant": "The way of a TLP depends on the registers of every bridge on it, which enumeration computes from the whole tree; a wrong window or bus range shows only for particular trees and addresses.", "anchors": ["cocotbext/pcie/core/rc.py: RootComplex.enumerate, downstream_send, downstream_recv", "cocotbext/pcie/core/pci.py: PciHost.probe, PciBus.scan, assign_resources", "cocotbext/pcie/core/switch.py: Switch._run_routing", "cocotbext/pcie/core/bridge.py: Bridge.upstream_recv, downstream_recv", "cocotbext/pcie/core/device.py: Device.upstream_recv"]}
{"id": "C55", "title": "End-to-end memory and I/O access", "statement": "After enumeration, a memory or I/O read through a region object, made by the root complex or by any function, of an address range in a BAR of a function of another device returns exactly the bytes of the memory region behind that BAR; a write replaces exactly these bytes and changes nothing else in the system; accesses by functions outside the ranges of the host bridge read and write the memory and the I/O space of the root complex in the same way. What one agent writes, any agent reads back. A read or an I/O write by the root complex to addresses that nobody has raises an exception, and a memory write there changes nothing.", "quantifier": "all hierarchies of switches and multi-function devices after reset, all agents and targets, all addresses, lengths and data, all payload and read request sizes, all contents of the memories, all tags", "why_tests_cant": "The number of hierarchies, of ways to split a transfer into requests and completions, and of alignments is unbounded; a test covers one topology and some transfers.", "anchors": ["cocotbext/pcie/core/region.py: MemoryTlpRegion.read, MemoryTlpRegion.write, IoTlpRegion.read, IoTlpRegion.write", "cocotbext/pcie/core/rc.py: RootComplex.enumerate, RootComplex.handle_mem_read_tlp, RootComplex.downstream_recv, RootComplex.perform_nonposted_operation", "cocotbext/pcie/core/endpoint.py: MemoryEndpoint", "cocotbext/pcie/core/switch.py: Switch", "cocotbext/pcie/core/bridge.py: Bridge"]}
{"id": "C56", "title": "Configuration accesses and the bus scan work through the hierarchy", "statement": "config_read and config_write of the root complex, whose requests travel through bridges, switches and devices as TLPs (type 1, converted to type 0 on the last bus) and whose completions travel back, read and write exactly the registers of the function that has the bus, device and function number, at byte granularity, and no other register; the function takes the number from the request; a number that no function has reads as all ones. This holds in every state of the bus number registers in which the number belongs to one function, in particular during the scan: the scan done in this way from reset finds every function and numbers all buses, and afterwards every function has taken the number of the bus that it is on and can be accessed.", "quantifier": "all hierarchies of switches and multi-function devices, all bus number registers, all function numbers, all addresses, lengths and data, all contents of the registers, all tags", "why_tests_cant": "The scan changes the routing that its own next request depends on; whether a request or its completion gets lost depends on the whole tree and the point reached in the scan.", "anchors": ["cocotbext/pcie/core/rc.py: RootComplex.config_read, config_write, perform_nonposted_operation", "cocotbext/pcie/core/pci.py: PciBus.scan, PciHost.probe", "cocotbext/pcie/core/bridge.py: Bridge.upstream_recv, downstream_recv, upstream_send", "cocotbext/pcie/core/switch.py: Switch._run_routing", "cocotbext/pcie/core/device.py: Device.upstream_recv", "cocotbext/pcie/core/function.py: Function.handle_config_0_read_tlp, handle_config_0_write_tlp"]}
{"id": "C57", "title": "Regions added to a memory endpoint get separate BARs of the right kind and size", "statement": "After any sequence of add_region, add_io_region, add_mem_region and add_prefetchable_mem_region calls on a MemoryEndpoint, every call that succeeded has its own base address register (two consecutive ones if it is a 64-bit BAR) of the kind asked for, sized to the least power of two that holds the region, with a zeroed memory of the requested size behind it; no other BAR is implemented; no two regions share a register; a call raises exactly if too few of the six registers are left, and then changes nothing.", "quantifier": "all sequences of calls, all kinds, all positive sizes that a BAR can have", "why_tests_cant": "Register numbers depend on the whole history of calls, including failed ones; an off-by-one in the pointer shows only in particular mixes of 32-bit and 64-bit regions.", "anchors": ["cocotbext/pcie/core/endpoint.py: MemoryEndpoint.add_region, add_io_region, add_mem_region, add_prefetchable_mem_region", "cocotbext/pcie/core/function.py: Function.configure_bar"]}
{"id": "C58", "title": "The hard-IP model hands requests to the user logic exactly once, in order and within its credits", "statement": "In the UltraScale and UltraScale+ device models, every memory or I/O request that arrives from the link for a window of a base address register appears on the completer request interface exactly once, unchanged, with the number and size of the register and the function it is for; a request for no window is answered with an unsupported request completion if it is non-posted and dropped otherwise. Posted requests appear in the order of arrival and so do non-posted ones, no non-posted request appears before a posted one that arrived earlier, and posted requests never wait for non-posted ones. A non-posted request appears only after the user logic has asked for it (one for each clock cycle with pcie_cq_np_req high), and the count shown on pcie_cq_np_req_count never promises more than that; a request that has been asked for appears.", "quantifier": "all devices and layouts of base address registers, all sequences of requests, all patterns of pcie_cq_np_req and all stalls of the streaming interface", "why_tests_cant": "Order, loss and the credit count depend on how arrivals, clock edges with and without credits and stalls of the interface are interleaved; the number of histories is unbounded.", "anchors": ["cocotbext/pcie/xilinx/us/us_model.py: UltraScalePcieDevice.upstream_recv, _run_cq_logic", "cocotbext/pcie/xilinx/us/usp_model.py: UltraScalePlusPcieDevice.upstream_recv, _run_cq_logic", "cocotbext/pcie/xilinx/us/tlp.py: Tlp_us.pack_us_cq"]}
{"id": "C59", "title": "Capabilities are found and accessed through configuration space", "statement": "For every function, endpoint or bridge, and any registrations of capabilities that leave them in their part of configuration space without sharing registers: a host that only reads configuration space finds every registered capability, once each, with its ID and address; config_read of any bytes of a capability (by address or by capability ID) returns exactly these bytes of its registers; config_write to any bytes of it has exactly the effect that the write has on the capability alone, and changes no other capability and no other register; registers without a capability read as zero and ignore writes; an ID that is not registered is reported as not found.", "quantifier": "all functions, registration histories, capability behaviours and contents, byte ranges (any alignment and length), data and tags", "why_tests_cant": "Unit tests read a few registers of the built-in capabilities at their default places; placements, lengths, behaviours and unaligned ranges are unbounded.", "anchors": ["cocotbext/pcie/core/function.py: read_config_register, write_config_register, register_capability", "cocotbext/pcie/core/caps/common.py: PciCap.read_register, PciExtCap.read_register, PciCapList", "cocotbext/pcie/core/pci.py: walk_capabilities, get_capability_offset, capability_read, capability_write", "cocotbext/pcie/core/rc.py: config_read, config_write"]}
{"id": "C60", "title": "The configuration management port performs each requested access exactly once", "statement": "A user that drives cfg_mgmt_read or cfg_mgmt_write and keeps the request until cfg_mgmt_read_write_done is high gets exactly one access to the register that it asked for, with its data and byte enables, and reads the value that the register had; done comes four clock edges after the request appears.", "quantifier": "every sequence of requests and idle cycles of the user, interleaved with any changes of the functions by the host; UltraScale and UltraScale+; any number of functions", "why_tests_cant": "Double or missing accesses depend on when requests follow each other and on what the host does in the same cycles.", "anchors": ["cocotbext/pcie/xilinx/us/us_model.py: _run_cfg_mgmt_logic", "cocotbext/pcie/xilinx/us/usp_model.py: _run_cfg_mgmt_logic"]}
{"id": "C61", "title": "The interrupt ports of the hard IP models send exactly one message per request", "statement": "A user of the Xilinx models who pulses cfg_interrupt_msi_int (one bit) or cfg_interrupt_msix_int and waits for the corresponding sent signal before the next request, and a user of the Stratix 10 model who holds app_msi_req until app_msi_ack, gets exactly one memory write per request, in order, from the requested function, with the address and data that its capability registers describe at that time; it is reported only once the link has taken it, at the next clock edge.", "quantifier": "every sequence of requests and idle clock cycles, any number of functions, any changes of the capability registers by the host in between, any time the link needs for each message", "why_tests_cant": "Lost or doubled interrupts depend on how requests, the time the link needs and register writes of the host interleave.", "anchors": ["cocotbext/pcie/xilinx/us/us_model.py: _run_cfg_int_logic", "cocotbext/pcie/xilinx/us/usp_model.py: _run_cfg_int_logic", "cocotbext/pcie/intel/s10/s10_model.py: _run_int_logic", "cocotbext/pcie/core/caps/msi.py: issue_msi_interrupt, issue_msix_interrupt"]}
{"id": "C62", "title": "An interrupt issued anywhere in the hierarchy starts the handlers registered for it", "statement": "When a function with bus mastering and MSI or MSI-X enabled calls issue_msi_interrupt or issue_msix_interrupt for one of its vectors, exactly the handlers registered with request_irq for that vector of that function are started, once each and in the order of registration, wherever the function is in the enumerated hierarchy and whatever other functions have set up; the memories are unchanged. Without bus mastering the call raises an exception. Memory writes of functions to addresses outside of the MSI region start no handler and do what they do in a system without interrupts.", "quantifier": "every hierarchy with switches and devices of any number and depth, after enumeration, every position of the function, every sequence of interrupt calls of the host before, every vector, every attribute and traffic class", "why_tests_cant": "The message has to be routed by every bridge on the way, and vectors of all functions share one address, so that the result depends on the whole tree and on the whole history of allocations.", "anchors": ["cocotbext/pcie/core/caps/msi.py: issue_msi_interrupt, issue_msix_interrupt", "cocotbext/pcie/core/function.py: mem_write", "cocotbext/pcie/core/rc.py: handle_mem_write_tlp, msi_region", "cocotbext/pcie/core/msi.py: MsiRegion", "cocotbext/pcie/core/bridge.py: route_downstream_tlp"]}
{"id": "C63", "title": "Interrupts are set up correctly through configuration requests alone", "statement": "The driver calls alloc_irq_vectors, enable/disable of MSI and MSI-X, free and request_irq reach the function only by configuration reads and writes of its capability registers, in pieces of up to a register at unaligned offsets. After any sequence of such calls on any number of functions: a function's MSI or MSI-X capability is enabled exactly if the host has it as enabled, never both; each vector of an enabled MSI-X capability has a table entry whose address and data select the interrupt vector with the handlers that request_irq registered for it; the address and data in the MSI capability do the same; no register outside the MSI and MSI-X capabilities has changed; and each call raises exactly when the direct calls on the capability would.", "quantifier": "every sequence of calls on any functions, every position and arrangement of the capabilities in configuration space, every content and behaviour of the other capabilities, every tag", "why_tests_cant": "The effect of a call depends on where the capabilities are in configuration space, on the other capabilities in it and on all the calls before; a write with wrong byte enables damages neighbouring fields only for certain values.", "anchors": ["cocotbext/pcie/core/pci.py: PciDevice.alloc_irq_vectors, msi_init, enable_msi, disable_msi, msix_init, enable_msix, disable_msix, capability_read_word, capability_write_dword", "cocotbext/pcie/core/function.py: handle_config_0_read_tlp, handle_config_0_write_tlp", "cocotbext/pcie/core/caps/msi.py: MsiCapability, MsixCapability", "cocotbext/pcie/core/msi.py: MsiRegion"]}
{"id": "C64", "title": "The Intel hard IP models pass TLPs between the link and the user faithfully", "statement": "In the Stratix 10 and P-Tile models: a memory or I/O request whose address is in a window of a function is handed to the user as a frame that unpacks to this TLP, has correct parity, the number of the base address register that claims it (6 for I/O) and the number of the function that it is for; a request for no window gets an unsupported request completion or, if posted, is dropped; a completion for one of the functions is handed to the user whenever it fits in the completion buffer besides the completions in it, one for no function is dropped; configuration requests of type 0 reach the function addressed or get an unsupported request completion, those of type 1 always get one. For every TLP the flow control credits are given back exactly once. Frames reach the user in the order of arrival, none lost or duplicated, and none is stuck. What the user sends goes to the link unchanged and in order.", "quantifier": "every device with any functions and windows, every TLP of the types concerned, every sequence of arrivals, hand-overs and configuration changes", "why_tests_cant": "Decoding depends on every combination of windows and addresses, and the order and loss of TLPs on the interleaving of arrivals with a user that accepts slowly.", "anchors": ["cocotbext/pcie/intel/s10/s10_model.py: S10PcieDevice.upstream_recv, _run_rx_logic, _run_tx_logic", "cocotbext/pcie/intel/ptile/ptile_model.py: PTilePcieDevice.upstream_recv, _run_rx_logic, _run_tx_logic"]}
{"id": "C65", "title": "The hard IP models show the flow control credits truthfully", "statement": "The outputs that tell the user the transmit credits (cfg_fc_* of UltraScale and UltraScale+, tx_*_cdts of Stratix 10, tx_cdts_limit of P-Tile) agree with the link in every state after initialisation: no more credits are shown as available than the port has, so a TLP whose credits are shown is accepted at once; the number shown is exactly the number available; all ones are shown for infinite credits; the credits consumed are those of the TLPs sent, and the limit exceeds them by the credits available, modulo the width of the output; P-Tile shows every limit once in six cycles. The receive side shows the credits received, those granted, and as difference what was advertised less what is still held; infinite receive credits are shown as the maximum.", "quantifier": "every pair of credit advertisements, every history of the link, every kind of credit, every selection, every clock cycle", "why_tests_cant": "The counters wrap at powers of two after long histories and depend on the interleaving of sends, releases and updates; outputs narrower than the counters are wrong only for certain advertisements.", "anchors": ["cocotbext/pcie/xilinx/us/us_model.py: UltraScalePcieDevice._run_cfg_fc_logic, _run_tx_fc_logic", "cocotbext/pcie/xilinx/us/usp_model.py: UltraScalePlusPcieDevice._run_cfg_fc_logic, _run_tx_fc_logic", "cocotbext/pcie/intel/s10/s10_model.py: S10PcieDevice._run_tx_fc_logic", "cocotbext/pcie/intel/ptile/ptile_model.py: PTilePcieDevice._run_tx_fc_logic", "cocotbext/pcie/core/port.py: FcStateData"]}
{"id": "C66", "title": "Configuration outputs show the registers that the host reads", "statement": "In every clock cycle, the configuration outputs of the Intel models (tl_cfg_func, tl_cfg_add, tl_cfg_ctl) show one register of one function, and every bit of the value is a bit of a configuration register as the host would read it in that cycle, or of the bus and device number, at the place that the hard IP documents; other bits are zero. The upper halves of the error registers of P-Tile belong to the lower halves of the cycle before. Every register of every function is shown once in as many cycles as there are registers and functions. The status outputs of the Xilinx models show maximum payload and read request size, link width and speed, read completion boundary and the enable bits of each function as the host reads them.", "quantifier": "every number of functions, every history of register values, every clock cycle, every bit", "why_tests_cant": "The outputs have some 600 bits for three chips, each of which depends on one bit of one register among thousands; a swapped or overlapping field shows only for values that a test does not happen to write.", "anchors": ["cocotbext/pcie/intel/s10/s10_model.py: S10PcieDevice._run_cfg_out_logic_htile, _run_cfg_out_logic_ltile", "cocotbext/pcie/intel/ptile/ptile_model.py: PTilePcieDevice._run_cfg_out_logic", "cocotbext/pcie/xilinx/us/us_model.py: UltraScalePcieDevice._run_cfg_status_logic", "cocotbext/pcie/xilinx/us/usp_model.py: UltraScalePlusPcieDevice._run_cfg_status_logic", "cocotbext/pcie/core/caps: read_register"]}
{"id": "C67", "title": "User logic reading through the Xilinx hard IP gets exactly the memory's bytes", "statement": "When user logic behind the UltraScale or UltraScale+ model makes read requests and the host answers each with a legal sequence of completions, then for every interleaving of requests, completions and tasks the user receives, for each tag in the order of the requests, the completions of each answer in order and nothing else: data completions without error code, with the twelve low bits of the address of their first byte, the bytes still to come and the dwords of the memory, and 'request completed' on the last one only; the bytes taken from them are exactly the bytes from the first to the last enabled one. Error completions and answers to other non-posted requests arrive as one completion marked as completing the request. A tag is in use exactly while completions of its request are still to come. The root complex answers every memory read within 4 KiB, and every I/O request, in this way.", "quantifier": "every history of requests by the user, task switches, arrival orders of completions of different requests, configuration changes that keep the function IDs, every memory content, splitting into completions, byte enables and tags; no completion dropped for lack of buffer space", "why_tests_cant": "A test runs a few reads with one splitting and one order of completions; that no interleaving with reused tags mixes up, loses or mismarks completions is a statement about all histories.", "anchors": ["cocotbext/pcie/xilinx/us/us_model.py: UltraScalePcieDevice.upstream_recv, _run_rq_logic, _run_rq_np_queue_logic, _run_rc_logic", "cocotbext/pcie/xilinx/us/usp_model.py: the same", "cocotbext/pcie/core/rc.py: RootComplex.handle_mem_read_tlp, handle_io_read_tlp, handle_io_write_tlp"]}
{"id": "C68", "title": "The Xilinx models report every request and every tag exactly once and in order", "statement": "With the outputs of the requester interface connected, the sequence numbers shown as valid on pcie_rq_seq_num (both ports in turn on the 512-bit interface), followed by those still pending, are exactly the sequence numbers of the requests put on the link, each once and in link order; the tags shown on pcie_rq_tag are those of the non-posted requests in the order in which they are given to the link (none with client tags). Every request taken and not dropped for disabled bus mastering is put on the link exactly once, unchanged but for its tag. Pending values are all shown after as many clock edges as there are values, half as many on the 512-bit interface. If no request is made while an earlier one waits for credits or tags, the k-th tag shown belongs to the k-th non-posted request made.", "quantifier": "every history of requests, waits for credits, tags and queue space, concurrent sends of the two tasks and clock edges; both widths; tags by the model or by the user", "why_tests_cant": "Tests compare a few reports of requests sent one at a time; two tasks that send concurrently and wait at different points have unboundedly many interleavings.", "anchors": ["cocotbext/pcie/xilinx/us/us_model.py: UltraScalePcieDevice._run_rq_logic, _run_rq_np_queue_logic, _run_rq_seq_num_logic, _run_rq_tag_logic", "cocotbext/pcie/xilinx/us/usp_model.py: the same", "cocotbext/pcie/core/port.py: SimPort.send"]}
{"id": "C69", "title": "The host can read and write user memory behind the Xilinx hard IP models", "statement": "If user logic behind a Xilinx hard IP model answers each memory read it is given with the bytes of its memory, split into completions in any legal way, then a read of any length and alignment by the host of a window of the first function returns exactly the bytes of that memory, and every completion the host gets carries the requester ID, tag, attributes and traffic class of its request and the ID of the function. A write by the host reaches the user as requests that name the window hit and its size; storing the enabled bytes of each in turn changes exactly the written bytes. I/O reads and writes likewise, and an I/O write succeeds when the user confirms each of its requests. Completions reach the host in the order the user sends them, except those it withdraws (discontinue); the model supplies the bus number of the completer ID unless the user asks for its own. A read of an address that no function has is refused with an exception at once, and the user logic is not asked.", "quantifier": "all devices whose window covers the access, all addresses, lengths, data, attributes, traffic classes and tags, all user logic that splits its completions legally, with and without parity checking, all sequences of well-formed completions", "why_tests_cant": "the ways of splitting a read and its completions, alignments and window layouts are unbounded, and a test uses one user design", "anchors": ["cocotbext/pcie/xilinx/us/us_model.py:UltraScalePcieDevice._run_cc_logic", "cocotbext/pcie/xilinx/us/usp_model.py:UltraScalePlusPcieDevice._run_cc_logic", "cocotbext/pcie/xilinx/us/us_model.py:UltraScalePcieDevice.upstream_recv", "cocotbext/pcie/xilinx/us/tlp.py:Tlp_us.unpack_us_cc", "cocotbext/pcie/core/region.py:MemoryTlpRegion", "cocotbext/pcie/core/region.py:IoTlpRegion"]}
{"id": "C70", "title": "The host can read and write user memory behind the Intel hard IP models", "statement": "If user logic behind a Stratix 10 or P-Tile model answers each memory read frame with frames that carry the bytes of its memory, split into completions in any legal way, then a read of any length and alignment by the host of a window of any function returns exactly the bytes of that memory, and the completions the host gets carry the requester ID, tag, attributes and traffic class of their request. A write by the host is offered to the user as frames, in order, that carry its requests and the number of the base address register; storing the enabled bytes of each changes exactly the written bytes. I/O reads and writes likewise (register number 6), and an I/O write succeeds when the user confirms each of its requests. A read of an address that no function has is refused with an exception at once, and the user logic is not asked.", "quantifier": "all devices whose window covers the access, whatever else is queued, all addresses, lengths, data, attributes, traffic classes and tags, all user logic that splits its completions legally", "why_tests_cant": "the ways of splitting a read and its completions, alignments and window layouts are unbounded, and a test uses one user design", "anchors": ["cocotbext/pcie/intel/s10/s10_model.py:S10PcieDevice.upstream_recv", "cocotbext/pcie/intel/s10/s10_model.py:S10PcieDevice._run_tx_logic", "cocotbext/pcie/intel/ptile/ptile_model.py:PTilePcieDevice.upstream_recv", "cocotbext/pcie/intel/ptile/ptile_model.py:PTilePcieDevice._run_tx_logic", "cocotbext/pcie/core/region.py:MemoryTlpRegion", "cocotbext/pcie/core/region.py:IoTlpRegion"]}
{"id": "C71", "title": "Enumeration through the hierarchy finds every function and records it correctly", "statement": "enumerate(), carried out with configuration requests that travel through root ports, switches and endpoints as TLPs, gives every register of every function of a hierarchy the value that C31, C32 and C54 say. The tree of devices that the root complex has afterwards has exactly the functions of the hierarchy, each on its bus and behind its bridge, with its vendor and device ID, header type, revision, class code and subsystem IDs, and with the addresses and sizes of its base address registers and expansion ROM as the function decodes them. find_device returns for the bus, device and function number of a function the record of that function, and nothing for any other number.", "quantifier": "all hierarchies after reset, of any depth and with any devices, functions and base address registers, for which the addresses fit; all tags", "why_tests_cant": "hierarchies, register layouts and register contents are unbounded, and a test enumerates a few of them", "anchors": ["cocotbext/pcie/core/rc.py:RootComplex.enumerate", "cocotbext/pcie/core/rc.py:RootComplex.find_device", "cocotbext/pcie/core/pci.py:PciBus.scan", "cocotbext/pcie/core/pci.py:PciBus.assign_resources", "cocotbext/pcie/core/pci.py:PciBus.find_device", "cocotbext/pcie/core/pci.py:PciDevice.setup", "cocotbext/pcie/core/pci.py:PciDevice.read_bars", "cocotbext/pcie/core/pci.py:PciDevice.assign_bars"]}
{"id": "C72", "title": "Enabling devices enables every bridge above them, and nothing else", "statement": "After enumerate(), any sequence of enable_device, disable_device, set_master and clear_master calls on the devices found succeeds and changes nothing in the hierarchy except the I/O enable, memory enable and bus master bits of command registers. A function is made to decode I/O and memory addresses exactly if enable_device was called for it or for a function behind it. An endpoint function is a bus master exactly as the calls for this function say: after set_master it is, after clear_master and after the disable_device that takes back the last enable_device it is not; calls for other functions make no difference. is_busmaster tells for every device whether the host made it a bus master. Every bridge above a device for which enable_device was called is a bus master.", "quantifier": "all hierarchies after reset, of any depth and with any devices, for which the addresses fit; all sequences of calls for any of the functions; all tags", "why_tests_cant": "the calls affect the bridges above a device recursively, depending on the history of calls for all other devices, and hierarchies and histories are unbounded", "anchors": ["cocotbext/pcie/core/pci.py:PciDevice.enable_device", "cocotbext/pcie/core/pci.py:PciDevice.enable_bridge", "cocotbext/pcie/core/pci.py:PciDevice.enable_resources", "cocotbext/pcie/core/pci.py:PciDevice.disable_device", "cocotbext/pcie/core/pci.py:PciDevice.set_master", "cocotbext/pcie/core/pci.py:PciDevice.clear_master", "cocotbext/pcie/core/pci.py:PciDevice.upstream_bridge"]}
{"id": "C73", "title": "MSI and MSI-X capability registers follow the specification's register map", "statement": "The registers of the MSI and MSI-X capabilities are at the offsets that the PCI Express specification defines for the capabilities of the device (64-bit address, per-vector masking), and every bit of every register shows its field, reserved bits zero. A configuration write changes exactly the writable bits in the enabled bytes of the addressed register to the bits written; all other bits of all registers stay as they are, so read-only fields cannot be changed by the host. Registers of the capability that the device does not have read as zero.", "quantifier": "all values of all fields, all capabilities, all registers, all data and byte enables", "why_tests_cant": "64-bit addresses, 32-bit data and masks and all combinations of byte enables and capability flags cannot be enumerated; a test sees the fields it looks at, not that nothing else changed", "anchors": ["cocotbext/pcie/core/caps/msi.py:MsiCapability._read_register", "cocotbext/pcie/core/caps/msi.py:MsiCapability._write_register", "cocotbext/pcie/core/caps/msi.py:MsixCapability._read_register", "cocotbext/pcie/core/caps/msi.py:MsixCapability._write_register", "cocotbext/pcie/core/caps/common.py:PciCap.read_register"]}
{"id": "C74", "title": "Reads by user logic through the Intel hard IP models return the memory's bytes", "statement": "User logic behind the Stratix 10 or P-Tile model that uses a tag again only after the whole answer to its earlier request has arrived, and asks only for what the completion buffer has room for, gets what it asks for: every request frame is sent upstream as the TLP it holds; no completion of an answer is dropped and none raises an exception; for each requester ID and tag, the frames for the user hold exactly the completions that have arrived, unchanged and in order, with the number of the function (a byte count of 0, which the library gives completions that report errors, is read as 4096, as its header field says); the completions of a read whose answer is complete hold exactly the bytes of the memory. Requests for the user, their hand-over, and changes of the configuration may be interleaved with all of this in any way. The root complex answers reads with completions of this kind.", "quantifier": "all sequences of requests, all legal ways of splitting the answers, all interleavings of completions of different requests, of other TLPs and of the tasks of the model", "why_tests_cant": "The interleavings of several outstanding reads with other traffic, and the ways of splitting the completions, are unbounded; loss of a completion shows only when the buffer counters are off by some history of other frames.", "anchors": ["cocotbext/pcie/intel/s10/s10_model.py: S10PcieDevice.upstream_recv, _run_rx_logic, _run_tx_logic", "cocotbext/pcie/intel/ptile/ptile_model.py: PTilePcieDevice.upstream_recv, _run_rx_logic, _run_tx_logic", "cocotbext/pcie/core/rc.py: RootComplex.handle_mem_read_tlp"]}
{"id": "C75", "title": "The host's configuration calls change the setting they are for and nothing else", "statement": "set_mps and set_readrq set the maximum payload size and the maximum read request size of the function to the value given, after which get_mps and get_readrq return it, and raise ValueError for values that are not encodable or above what the function supports, without sending anything; configure_extended_tags enables extended tags exactly if the function supports them; configure_serr enables SERR forwarding of bridges; configure_device does all of this, with the payload sizes of the function and of the bridge above it as C37 describes. The type of the port, the supported payload size and the support of extended tags that the host records are those of the function. No call changes any other bit of the configuration space, or anything else that the host knows about the function.", "quantifier": "all functions with a PCI Express capability anywhere in their capability lists, all register contents and attributes, all values, all bridges above", "why_tests_cant": "The calls read a whole register and write it back; which other bits this changes depends on all contents of all registers.", "anchors": ["cocotbext/pcie/core/pci.py: PciDevice.set_mps, get_mps, set_readrq, get_readrq, configure_mps, configure_extended_tags, configure_serr, configure_device, setup", "cocotbext/pcie/core/caps/pcie.py: PcieCapability._read_register, _write_register", "cocotbext/pcie/core/bridge.py: Bridge.write_config_register"]}
{"id": "C76", "title": "A device that is slow to get ready is found as if it had been ready", "statement": "During enumeration, a device that answers configuration requests with 'retry later' (as the UltraScale models do until configuration space is enabled) is asked again after 10, 20, 40, ... µs, at most ten times, whatever it answers. If the root port above shows such answers to software - the host enables this in every port that supports it, changing nothing else - then a device that becomes ready within 10.23 ms is recorded exactly as one that was ready from the start: same functions, IDs and setup results, same state of the device. One that does not is left out untouched and enumeration goes on. Where the answers are not shown, the device is not found.", "quantifier": "all devices (whatever state and registers they have behind the retry answers), all times at which they become ready, all latencies of requests and completions below the host's time-out, all setup programs, all bus and device numbers, all register contents of the port", "why_tests_cant": "tests use devices that are ready at once, or one delay; the retry boundary, the time-out at the end and the equality with the undelayed enumeration range over all ready times, latencies and devices", "anchors": ["cocotbext/pcie/core/pci.py: PciBus.wait_crs, PciBus.scan, PciDevice.enable_crs", "cocotbext/pcie/core/rc.py: RootComplex.config_read", "cocotbext/pcie/xilinx/us/us_model.py: UltraScalePcieDevice.upstream_recv", "cocotbext/pcie/xilinx/us/usp_model.py: UltraScalePlusPcieDevice.upstream_recv"]}
{"id": "C77", "title": "User logic's reads through the Xilinx hard IP see the writes it made before them", "statement": "User logic that writes and reads host memory through the Xilinx hard IP models finds the memory consistent. The root complex handles the requests in the order in which the device sends them, and each byte of its memory is the last one written there. When all completions of a memory read have arrived, the user has exactly the bytes the memory held at the moment the read was handled: after all requests the device sent before the read, among them every write the user had made before the read left and that was not dropped, and before all requests sent after it. A byte written by such a write and not written again since is what the read returns.", "quantifier": "all histories of the user's requests, of the tasks of the hard IP, of the packets on the link, of completions arriving in any order across requests, of other changes to the memory; all byte enables, addresses and lengths of legal requests, both device families' parameters, all completion sizes", "why_tests_cant": "Read-after-write hazards depend on which tasks run between the write and the read (the queue for non-posted requests, waiting for credits or tags) and on other traffic; a test sees one interleaving.", "anchors": ["cocotbext/pcie/xilinx/us/us_model.py: UltraScalePcieDevice._run_rq_logic, _run_rq_np_queue_logic, upstream_recv", "cocotbext/pcie/xilinx/us/usp_model.py: UltraScalePlusPcieDevice._run_rq_logic", "cocotbext/pcie/core/rc.py: RootComplex.downstream_recv, handle_tlp, handle_mem_read_tlp, handle_mem_write_tlp"]}
{"id": "C78", "title": "Tasks that read and write memory at the same time find it consistent", "statement": "Any number of tasks use a requester (the root complex, or a function of a device) to read and write the memory of a completer (a memory endpoint, or the host) at the same time. No operation fails; the completer handles requests in the order in which they were sent; every byte of the memory is the last one written there. A call of read returns as many bytes as were asked for, each being the byte the memory held when the request for it was handled, whatever other operations with other tags are under way and however their completions interleave. So a read that is started after a write call has sent its requests returns the data written, if nothing else writes these bytes meanwhile, even when the requests of the write have not been handled yet. No operation waits for ever: when no more are started, all finish after a bounded number of steps, whatever their order, and no deadlock is possible.", "quantifier": "all histories of starts, sends, posted writes, handling, completions arriving and being taken by operations, and other changes to the memory; all addresses, lengths, data, payload and request sizes, numbers of tags; completers: the host's address space and a region of a memory endpoint, directly or across any enumerated hierarchy of switches, and any other with the same behaviour for single requests", "why_tests_cant": "Which completion is taken by which operation and what the memory holds when a request is handled depend on the interleaving of all tasks; the number of interleavings is unbounded and a test runs one of them.", "anchors": ["cocotbext/pcie/core/region.py: MemoryTlpRegion._read, _write", "cocotbext/pcie/core/rc.py: RootComplex.perform_posted_operation, perform_nonposted_operation, recv_cpl, alloc_tag, release_tag, handle_mem_read_tlp, handle_mem_write_tlp", "cocotbext/pcie/core/function.py: Function.perform_nonposted_operation, handle_tlp", "cocotbext/pcie/core/endpoint.py: MemoryEndpoint.handle_mem_read_tlp, handle_mem_write_tlp"]}
{"id": "C79", "title": "Credits that a receiver releases come back to the sender in bounded time", "statement": "When a receiver frees the flow-control credits of TLPs it has taken, the sender on the other end of the link gets them back in bounded time: after the latency of the update timer, the time of the packet that is just being sent, the time of at most one DLLP for each TLP received or released meanwhile and five more, and the delay of the link, everything that the receiver had advertised and released is available to the sender, less what it has used; a TLP whose credits had been released can then be sent. This holds for every order in which timers, transmissions, arrivals, sends and releases happen, for all six kinds of credit with finite advertisement, in both directions, and no port raises an exception.", "quantifier": "all credit advertisements, all packet durations, link delays and timer values (in particular all link speeds and widths), all histories of sends, releases, transmissions, arrivals and timer expiries in any order allowed by the simulator's clock, all moments of release and all later moments", "why_tests_cant": "Whether an update is lost or delayed depends on the interleaving of the update timer, the idle timer, the acknowledge timer, the transmitter's priorities and the packets on the wire at the moment of the release; a test exercises a handful of interleavings, and a lost wakeup would show only as a hang in some of them.", "anchors": ["cocotbext/pcie/core/port.py: Port._run_transmit", "cocotbext/pcie/core/port.py: Port.start_fc_update_timer", "cocotbext/pcie/core/port.py: Port._run_fc_update_timer", "cocotbext/pcie/core/port.py: Port._run_fc_update_idle_timer", "cocotbext/pcie/core/port.py: get_max_update_latency", "cocotbext/pcie/core/port.py: FcChannelState.update_rx_fc", "cocotbext/pcie/core/port.py: SimPort.handle_tx"]}
{"id": "C80", "title": "Every TLP is acknowledged in bounded time, and sequence numbers never become ambiguous", "statement": "Every TLP that a port sends is received and acknowledged in bounded time: its own time on the wire, the delay of the link, the latency of the ACK timer, the time of one packet that the receiver is just sending, the time of the ACK, and the delay of the link again. The retry buffer of a port is therefore empty when nothing has been sent for that long, and never holds more TLPs than can be sent in that time; for simulated ports of all speeds with up to 32 lanes, default delays and TLPs with at most 4096 bytes of data these are at most 1500, below the 2048 up to which the 12-bit sequence number of an ACK identifies a TLP. The latency limit of the timer is that of the PCI Express specification for every payload size, link width and generation.", "quantifier": "all credit advertisements, all packet durations, link delays and timer values, in particular all link speeds, widths up to 32 and simulator precisions, all histories of sends, releases, transmissions, arrivals and timer expiries in both directions in any order allowed by the simulator's clock", "why_tests_cant": "The retry buffer is bounded only by how long acknowledgements take; whether an ACK is delayed depends on the interleaving of the ACK timer, the transmitter and traffic in the other direction, and ambiguity of sequence numbers shows up only with thousands of TLPs outstanding, which no test produces.", "anchors": ["cocotbext/pcie/core/port.py: Port._run_transmit", "cocotbext/pcie/core/port.py: Port.ext_recv", "cocotbext/pcie/core/port.py: Port.handle_dllp", "cocotbext/pcie/core/port.py: Port.start_ack_latency_timer", "cocotbext/pcie/core/port.py: Port._run_ack_latency_timer", "cocotbext/pcie/core/port.py: get_max_update_latency", "cocotbext/pcie/core/port.py: SimPort.handle_tx", "cocotbext/pcie/core/port.py: get_max_update_latency"]}
{"id": "C81", "title": "Flow-control initialisation takes bounded time", "statement": "Two ports that start at the same time exchange their credits in the time of three DLLPs and the delay of the link, and not before. Neither port is initialised, and no TLP is accepted for sending, before four DLLPs and two delays; both are initialised after five DLLPs and two delays, whatever their users do, and then a first TLP that fits the advertised credits is accepted without waiting. Time always passes, so the initialisation always ends.", "quantifier": "all credit advertisements, packet durations, link delays and timer values, in particular all link speeds, widths and simulator precisions, all histories of sends, releases, transmissions, arrivals and timer expiries at both ports in any order allowed by the simulator's clock", "why_tests_cant": "Events that the simulator schedules for the same time can run in any order, and users may try to send at any time, in particular just when one port is initialised and its partner is not; a test sees one order.", "anchors": ["cocotbext/pcie/core/port.py: Port._run_transmit", "cocotbext/pcie/core/port.py: Port.handle_dllp", "cocotbext/pcie/core/port.py: FcChannelState.handle_fc_dllp", "cocotbext/pcie/core/port.py: Port.send", "cocotbext/pcie/core/port.py: SimPort.handle_tx"]}
{"id": "C82", "title": "The queues of streaming sources and sinks: limits, back-pressure, wait and idle", "statement": "A source never holds more than its limits (plus the one frame that crosses them); a task that waits in send is woken when a frame leaves the queue, and every frame passed to send is queued exactly once. When wait of a source returns, or idle is true right after a clock edge, the other side has got all the frames that were accepted, in order; when it has got them, wait returns at the next clock edge; and when neither side pauses, that is the case after a number of clock edges bounded by the ready latency and the lengths of the frames. A sink hands out the frames in the order of arrival, and its wait returns exactly if there is a frame. clear makes the queue usable again.", "quantifier": "all frames, bus widths and numbers of segments, limits, ready latencies, patterns of pauses, and all interleavings of send, send_nowait, recv, wait, clear, clock edges and the tasks of the source and the sink", "why_tests_cant": "The order of tasks at one clock edge is up to the simulator, and the pauses, limits and senders can interleave in unboundedly many ways; a test sees a few of them.", "anchors": ["cocotbext/pcie/intel/s10/interface.py: S10PcieSource.send", "cocotbext/pcie/intel/s10/interface.py: S10PcieSource.full", "cocotbext/pcie/intel/s10/interface.py: S10PcieSource.wait", "cocotbext/pcie/intel/s10/interface.py: S10PcieSource._run_source", "cocotbext/pcie/intel/s10/interface.py: S10PcieBase.clear", "cocotbext/pcie/intel/s10/interface.py: S10PcieSink.recv", "cocotbext/pcie/intel/ptile/interface.py: PTilePcieSource.send", "cocotbext/pcie/xilinx/us/interface.py: UsPcieSource.send", "cocotbext/pcie/xilinx/us/interface.py: UsPcieSource._run_source"]}
{"id": "C83", "title": "The reset of the hard IP models", "statement": "While the reset input of a hard IP model is active, its reset output is active from the second clock edge on; it is released only at a clock edge and only when the input has been inactive for 100 ns without interruption; and it is released in bounded time once the input stays inactive. Without a reset input there is exactly one reset, at the start. The link is shown as down and configuration requests are refused while the input is active at clock edges; the active low output of the P-Tile is the complement of the active high one.", "quantifier": "all sequences of edges of the reset input, clock edges, expiries of the timer and changes of cfg_config_space_enable, with any times between them; with and without each optional signal", "why_tests_cant": "The edges of the reset input may come at any time relative to the clock and to the 100 ns; a test tries a few of them, and a pulse between two clock edges is easily missed.", "anchors": ["cocotbext/pcie/xilinx/us/us_model.py: UltraScalePcieDevice._run_reset", "cocotbext/pcie/xilinx/us/us_model.py: UltraScalePcieDevice._run_cfg_ctrl_logic", "cocotbext/pcie/xilinx/us/usp_model.py: UltraScalePlusPcieDevice._run_reset", "cocotbext/pcie/intel/s10/s10_model.py: S10PcieDevice._run_reset", "cocotbext/pcie/intel/ptile/ptile_model.py: PTilePcieDevice._run_reset"]}
{"id": "C84", "title": "TLPs in a hierarchy do not get stuck", "statement": "With flow control on every link, TLPs between the components of a hierarchy are always delivered in the end: the root complex, switches and endpoints never wait for each other's credits in a circle, only a bounded number of steps is possible, and when none is left every request and every completion has arrived at its destination exactly once.", "quantifier": "all trees of switches and endpoints, all credits of the receivers that are large enough for a single TLP, any number of requests started at any time, each with any number of completions, all schedules of the sending, receiving, routing and arbitration tasks", "why_tests_cant": "A circle of waiting tasks needs many TLPs in many places at the same time; which ones wait for which depends on the schedule, on the credits and on the tree, and tests keep few requests under way.", "anchors": ["cocotbext/pcie/core/port.py: FcChannelState.tx_tlp_fc_gate", "cocotbext/pcie/core/port.py: Port.send", "cocotbext/pcie/core/port.py: Port._run_receive", "cocotbext/pcie/core/switch.py: Switch._run_routing", "cocotbext/pcie/core/switch.py: Switch._run_arbitration", "cocotbext/pcie/core/function.py: Function.handle_tlp", "cocotbext/pcie/core/rc.py: RootComplex.handle_tlp"]}
{"id": "C85", "title": "TLPs between the same two places arrive in the order in which they were sent", "statement": "TLPs with the same source and destination, posted or not, arrive in the order in which they went on the first link, however many switches are between and whatever waits for credits: in particular an interrupt message that a device sends after writing data is never delivered before the data, and the completions of a read arrive in the order in which the completer split the data.", "quantifier": "all networks and trees of components, all routes in them, all credits of the receivers, any number of TLPs of any credit type on that route, any other traffic, all schedules of the sending, receiving, routing and arbitration tasks", "why_tests_cant": "A TLP could overtake another only where several tasks hold TLPs at the same time and credits run out at the right moment; tests exercise few of these schedules and check data after everything has settled.", "anchors": ["cocotbext/pcie/core/port.py: Port.send", "cocotbext/pcie/core/port.py: Port._run_receive", "cocotbext/pcie/core/switch.py: Switch._run_routing", "cocotbext/pcie/core/switch.py: Switch._run_arbitration"]}
{"id": "C86", "title": "Tasks that wait for flow control credits are served as soon as there are credits, in order", "statement": "When several tasks send on a port at the same time, every TLP passes the flow control gate exactly once; no task sleeps although there are credits for its TLP; when the receiver has granted enough for everything, everything has been sent; and TLPs are sent in the order in which the tasks called send.", "quantifier": "all initial credits including infinite ones, any number of tasks and TLPs of any size, all histories of calls, UpdateFC grants of any size and wake-ups, in any order", "why_tests_cant": "A lost wake-up, an overtaking or a starving TLP depends on which task runs between a grant and the wake-up and on how the sizes of the waiting TLPs add up; tests see a few schedules and finite traffic.", "anchors": ["cocotbext/pcie/core/port.py: FcChannelState.tx_tlp_fc_gate", "cocotbext/pcie/core/port.py: FcChannelState.tx_has_credit", "cocotbext/pcie/core/port.py: FcChannelState.tx_consume_fc", "cocotbext/pcie/core/port.py: FcChannelState.handle_dllp", "cocotbext/pcie/core/port.py: Port.send"]}
{"id": "C87", "title": "Packets and frames compare equal exactly when they are the same", "statement": "Two DLLPs, two frames of a hard IP interface or two TLPs with sideband information compare equal exactly when they agree in every field, and a copy made with the constructor is equal to the original: a scoreboard that compares packets with == accepts no wrong packet and rejects no right one.", "quantifier": "all pairs of DLLPs, of Xilinx, Stratix 10 and P-Tile frames and of UltraScale TLPs, all values of all fields", "why_tests_cant": "A field left out of a comparison makes every test that uses it pass; to notice it, a test would have to vary each field alone and expect a difference.", "anchors": ["cocotbext/pcie/core/dllp.py: Dllp.__eq__", "cocotbext/pcie/core/dllp.py: Dllp.__init__", "cocotbext/pcie/xilinx/us/tlp.py: Tlp_us.__eq__", "cocotbext/pcie/xilinx/us/interface.py: UsPcieFrame.__eq__", "cocotbext/pcie/intel/s10/interface.py: S10PcieFrame.__eq__", "cocotbext/pcie/intel/ptile/interface.py: PTilePcieFrame.__eq__"]}
