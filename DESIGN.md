# Formal model of cocotbext-pcie: design

## Layout

* `lean/Verif/Model/*.lean`  – executable model, function by function; each definition cites the file and lines it models.
* `lean/Verif/Spec/*.lean`   – small independent specifications used in theorem statements.
* `lean/Verif/Lemmas/*.lean` – helper lemmas.
* `lean/Verif/Props/*.lean`  – the property theorems (and, beside each, a non-vacuity example). Counterexamples to
  properties the code violates are theorems named `..._violated`.
* `MANIFEST.json` – property → theorem names.
* `seeded/LOG.jsonl` – mutation experiments.

## Modelling conventions

* Python ints that are never negative are `Nat` (unbounded), with Python's bit operators mapped to `Nat` bit operators.
* bytes are `List UInt8`; an exception is a value of `Except`/`Option`.
* A coroutine is split at its await points; concurrency is an arbitrary interleaving of the atomic segments
  (cocotb's scheduler is cooperative, so code between awaits is atomic).
* Time, logging, simulator signals and the cocotb scheduler itself are not modelled, except where a property names them.

## Plan per property

| id | model | proof |
|----|-------|-------|
| C01 | `align` on Nat | arithmetic |
| C02 | `byte_mask_update` loop on Nat/Int bits | bit extensionality, loop invariant |
| C03 | `PcieId` constructor with range check | arithmetic |
| C04 | `Tlp` record, `pack_header/pack/unpack_header/unpack` on bytes | field-extraction lemmas |
| C05 | copy constructor, `__eq__` | direct; violated for `th` |
| C06, C07 | `set_addr_be`, `set_addr_be_data` | arithmetic; spec = set of enabled byte addresses |
| C08 | `get_lower_address` | violated; partial for aligned |
| C09, C10 | `Dllp`, `crc16` on bytes | extraction lemmas; CRC as GF(2)-linear map, burst theorem |
| C11–C16 | region segmentation loops, completers as functions on a memory `Nat → UInt8` | induction on remaining length |
| C17 | `config_read/config_write` loops against a register file | induction |
| C18 | tag pool as state machine | invariant |
| C19, C20 | completion collection loop | induction; violation witness for late completions |
| C21–C23 | flow-control counters, channel of DLLPs in flight | invariants over histories |
| C24, C25 | port TX/RX sequence logic | invariants, modular arithmetic |
| C26, C27, C45 | bridge/switch/device decision functions | case analysis vs. spec |
| C28–C31 | BAR registers, sizing, allocation, bridge windows | arithmetic + induction over the tree |
| C32 | recursive bus scan | induction over trees |
| C33, C34 | capability list | invariant + counterexamples |
| C35 | register read/write functions | per-register bit theorems |
| C36 | MSI region and capability | invariant + counterexample |
| C37 | MPS configuration over tree | induction |
| C38 | number allocation | invariant |
| C39 | UltraScale descriptors | extraction lemmas |
| C40, C42 | source/sink framing | simulation of sink by source, induction over beats |
| C41 | parity | bit extensionality |
| C43, C44 | hard-IP bookkeeping | invariants + counterexamples |
| C46 | word helpers | induction |
| C47 | SimPort timing as natural-number timestamps | induction |
| C48 | status bits of functions and bridges while TLPs pass | case analysis |
| C49 | queues and arbitration task of a switch port, any interleaving | invariant, measure |
| C50 | ready/valid handshakes with ready latency, any pauses | invariant over histories |
| C51 | read and write statements of the capability registers as data, generated from the code | the source of every bit and the effect of a write on it are computed from the statements (proved correct), then compared with the map of the specification by evaluation in the kernel |
| C52 | the streaming sources and sinks of C40 and C42, signals read at the documented positions | each transaction is the image of a plan of frame parts (as for C40, C42); bit positions against tables in Spec/UsLayout, Spec/IntelLayout |
| C53 | the requester side of the hard IP model of C43 | what each step adds to the history, induction over histories |
| C54 | a tree of switches and devices (C26, C27, C45) with the way of one TLP through it, and `enumerate` (C29–C32) on it | induction over the tree: invariants of enumeration give, for every target, the conditions under which each switch forwards right |
| C55 | Whole accesses: the requests of a region object (`Region`, `IoRegion`), their way through the hierarchy (`Node.recv`, `Node.send`), the handlers of the completer (`Completer`, `System`), and the way of the completions back (`Model/EndToEnd.lean`) | C54 for every request and every completion, with C11, C13 and C16 for what the handlers do; induction over the requests of a transfer |
| C56 | Configuration requests as TLPs in the tree of bridges, switches and devices (`Node.cfg`), the functions that serve them, the completions' way back, `config_read`/`config_write` of the root complex on it and the scan by these accesses (`Model/CfgFabric.lean`) | Mutual induction over the tree: one request changes the registers of one function and returns its completion; then induction over the requests of an access and over the scan, which refines the scan of C32 step by step, with the numbers that the functions have taken as an invariant (a write of bus numbers changes the way to no function that has been found) |
| C57 | `add_region` on the endpoint of `Model/Completer.lean`, with the BAR registers of C28; sequences of calls in `Spec/Regions.lean` | Induction over the calls: the registers stand for the windows of the calls that succeeded, all below the pointer |
| C58 | `Model/UsCq.lean`: `upstream_recv` for requests on the device of C27, and `_run_cq_logic` as a transition system (a request arrives, a clock edge, the streaming interface takes a frame) | Decoding: C28 applied function by function. Order and credits: an invariant over all histories that ties the queues to the requests arrived and sent. Progress: the task gets back to its clock edge by induction over the queues |
| C59 | both capability lists of a function inside its configuration registers (`CapSpace`), with arbitrary behaviour of each capability; the walk of the host and its accesses by ID as sequences of `config_read`/`config_write` TLPs | reads: C17 with the register lookup under `NoShare`; writes: a window lemma that relates the request sequence at the capability's offset to the one at 0; walk: induction along the chain of next pointers (lemmas of C34) |
| C60 | `_run_cfg_mgmt_logic` as a step per clock edge, with changes of the functions by others in between | invariant over histories |
| C61 | `_run_cfg_int_logic` and `_run_int_logic` as a step per clock edge, with the link taking messages and others changing the functions in between | invariant over histories |
| C62 | the memory write of the interrupt as a TLP, routed through the model of the enumerated hierarchy (C55), the memory handler of the root complex with the MSI region in its address space, the callbacks (C36) | composition of C36 with the routing lemmas of C55, by induction over the path; writes outside the region by induction over the requests |
| C63 | the calls of pci.py as sequences of byte, word and dword accesses relative to the capability found by the walk (C59), each access as configuration TLPs handled by the function (C17) with its capabilities placed as in C33, next to the model of C36 in which the calls act on the capability directly | refinement: a relation between the two states is kept by every call and exceptions coincide, by induction over the calls; C36 is then carried over |
| C64 | `upstream_recv` branch by branch over the device of C58 with the frames of C42; queue, transmit and receive tasks as events of a history | case analysis on the TLP type with the window lemma of C58; order by an invariant over histories; occupancy by projection to the buffer model of C44; draining by induction on the queue |
| C65 | the outputs at a clock edge as functions of the flow control counters of the port model of C21 | the invariant of the link (C21, C22) gives the counters in terms of the TLPs sent, received and released; modular arithmetic for the widths |
| C66 | the statements that make each output register as lists, evaluated on the attributes of a function; the task as a transition system with one step per clock cycle; the Xilinx status as a function of the list of functions | each bit of an output and of a register as read by the host is traced to an attribute; the kernel compares the two tables for all registers and bits of a word; the cycles by induction; ranges of attributes as invariants of configuration writes |
| C67 | `Model/UsDma.lean`: the device of `Model/UsHip.lean` together with its outstanding requests, the completions each is answered with and how many of them have arrived; completions of one request arrive in order, those of different requests in any order | `Spec/UsDma.lean` says what a proper answer is and what the user should see of it. Invariant over all histories: requests with completions to come are exactly the outstanding ones; per tag what the user has is the concatenation of what has arrived. One request by induction over the legal sequence of completions (C14's specification) |
| C68 | `Model/RqRep.lean`: the two requester tasks, each idle, waiting or sending, the queue between them, the queues of reports and the clocked outputs; credits, tags and bus mastering are inputs | invariant: shown ++ pending = reports of what was linked; requests are permuted, posted ones keep their order; order of tags by a second induction |
| C69 | `_run_cc_logic` frame by frame (bus number, withdrawn completions, `check()` by `send`), joined with reception of requests (C58), packing (C39) and the region accesses of the host (C12, C16) | each request of the region classes is shown to be claimed, packed and unpacked unchanged (C58_claimed_partial, C39_roundtrip); a legal completion sequence stays legal on its way back; then the region lemmas apply |
| C70 | the host's region accesses (C12, C16) joined with reception and transmission of the Intel models (C64) and their frames (C42) | the requests of the region classes are shown to be encodable, hence carried by frames unchanged; legal completions are encodable and pass `check()`; one proof for both kinds of frames |
| C71 | the host software as a program of configuration accesses (`CfgProg`), run on the hierarchy of C54 in which each access is TLPs (C56) | relational triples for programs: each access changes one function of the hierarchy; the scan and the assignment are proved by induction on the hierarchy, in the context of the part around it, to have the effect of the register-level model of C31/C32; the tree is related to the hierarchy function by function |
| C72 | the calls as programs of configuration accesses, run on the hierarchy after the enumeration of C71, with the counters and flags of the host software | each call is shown to change command registers of the functions at known places; then invariants of the counters and command registers by induction over the calls and, for enable_bridge, over the bridges above |
| C73 | the register maps of the specification as tables of registers and bits (Spec/MsiRegs.lean); the capabilities as in C36 | bit by bit, for every register and every written register; arithmetic of shifts and masks |
| C74 | `Model/IntelDma.lean`: the device of `Model/IntelDev.lean` with both directions, the requests of its user, the completions each is answered with and how many of them have arrived | `Spec/IntelDma.lean` says what careful user logic does and what the user takes from a completion; invariant over all histories: the TLPs of the frames for the user, per requester ID and tag, are the completions that have arrived, and the buffer counters never exceed what is held, so that room promised is room found; bytes by induction over legal sequences of completions |
| C75 | the calls as sequences of configuration TLPs, answered by a function with an arbitrary list of capabilities of which one is the PCI Express capability with the registers of C51 | one read and at most one write of the device control dword; bitwise effect from C51 and C59; SERR from C35; refinement of the model of `configure_mps` used for C37 |
| C76 | `wait_crs` (Model/Crs.lean `waitCrs`), one device number of `scan` with the loop over functions (`scanDev`, `scanFns`; `setup` is an arbitrary configuration program), `enable_crs` over the host's capability accesses, and any device wrapped so that it answers with retry status until a given time, with arbitrary latencies (`Late`) | the wrapped device simulates the bare one once it is ready (induction over requests and programs); induction over the rounds of the wait with the remaining patience 10·(2^10 − 2^k) µs; the record of what the host does is an instance of the same program over a world with a trace; `enable_crs` through C59 and the register map of C51 |
| C77 | The device of C67, an in-order link, and the root complex with its memory and I/O address spaces, handling one packet after the other and answering reads with the memory as it is then (Model/DmaSys.lean) | Invariant over histories (handled ++ on the link = sent; memory = effect of what was handled; each answer computed from the memory at its place in the record), and a simulation into the device of C67 whose answers are known in advance; then C67, C53 and C11 give the bytes (Lemmas/DmaSys.lean) |
| C78 | The requester of C19 (tags, completion queues, operations), an in-order link, and a completer given by its handlers for single requests; answers are computed when a request is handled (Model/Conc.lean) | Invariant over histories (handled ++ on the link = sent; memory = effect of what was handled; each answer computed at its place in the record); operations not answered yet are treated as answered by an error, so that the invariant of C19 applies; C11 and C14 show that the two completers serve memory; then C12, C13 and C07 for the calls (Lemmas/Conc.lean, Lemmas/ConcCall.lean). Termination: a measure (requests not sent, on the link, completions under way and not taken) decreases with every step, and a state without a step has nothing left (Lemmas/ConcLive.lean). Hierarchy: C54/C55 show that the request function of the whole system (Model/ConcSys.lean) is such a completer (Lemmas/ConcSys.lean) |
| C79 | `Model/FcTime.lean`: the timed link of C47 with the ACK, update and idle timers of both ports and the rule that simulated time passes only when no transmitter has work and no timer expires earlier; `Spec/FcTime.lean`: released credits, traffic, the return time. | Invariant over all histories: an update that is due has been asked for or its timer runs; from the moment considered the credits wait for the timer, wait for the transmitter with a bounded amount of work ahead, are in a packet on the wire, or have arrived, and each stage has a deadline (`Back.step`). |
| C80 | The clocked link of C79; `Spec/AckTable.lean`: the limits of the latency in the PCI Express specification; `Spec/AckTime.lean`: times of TLPs, number acknowledged, the time bounds. | Invariant over all histories: each TLP received is acknowledged, or the ACK timer runs with a deadline, or the ACK waits for at most one packet, or it is on the wire (`AInv.step`); TLPs are at least their own duration apart, hence the bound, which in turn keeps ACKs unambiguous (one induction); arithmetic for the speeds of `PCIE_GEN_RATE`. |
| C81 | The clocked link of C79. Spec: `exchangeTime`, `initEarliest`, `initLatest` as sums of DLLP times and delays. Assumed: both ports start at the same simulation time (ports that have been connected), all DLLPs take the same time (they have the same size in the code: `C81_port`). | Per direction, an invariant on the first three packets sent (types, exact times), the flags of the receiver as a function of how many packets it has received, and lower bounds on the times of the flags and of InitFC2 and UpdateFC DLLPs on the wire; the two directions use each other's lower bounds. The DLLP that completes the initialisation is followed through four stages (exchange, due, on the wire, arrived). |
| C82 | A source: queue, counters, waiting senders, `idle_event`, `active`, the frame in progress, and the handshake of C50 with either protocol; `_run` packs frames as in C40 and C42 (three packers). The events are those of the user, of `_run` and of the clock, in any order. A sink: its queue, counters and `active_event`. Spec: `accepted`, `Settled` (clock edges come when the source's tasks have nothing to do), `bytesIn`, `calls`. | Invariants over all histories: counters, limits, sleeping senders; `idle_event` implies that nothing is left, from common laws of both handshakes. The history of the source is also a history of C50 and of C40/C42, which gives the frames that the sink gets. Bounded time: the measure of C40/C42 (dwords and frames left) plus what is in the handshake decreases at every clock edge once the ready pipeline has filled. |
| C83 | `_run_reset` as a state machine with a clock, a timer and the edges of the input (`Model/Reset.lean`), with the link status and `config_space_enable`. Spec: `highSince`, `rstTime`, `rstClocks`, `lastEn`, `LongPulses` (every pulse of the input lasts for a clock edge). | Invariants over all histories: what each place of the task implies about the output, the input and the time; a measure that counts the clock edges until the output is active; stages that never go back while the input is high. |
| C84 | The places of TLPs on their way: tasks at a gate, links and receive queues, queues of switches, arbitration tasks, receive tasks that send completions (`Model/Traffic.lean`), with the credits in use on each link. Spec: trees of components and the routes between them and the root complex (`Hierarchy`, `RootTraffic`), `Halted`, `owed`, `delivered`, `effort`. | Links get ranks such that whoever waits for a link waits for one of a lower rank: then, by induction on the rank, nothing is left when nothing can happen. A weight for every place makes each step lower the total by one and keeps the number of deliveries. The circles of two endpoints that read from each other, and of two that write to each other while the root complex reads from them, are built step by step with the credits of the code. |
| C85 | The network of `C84` (`Model/Traffic.lean`). Spec: the order in which TLPs go on their first link (`entered`) and are delivered (`arrived`), `SameRoute`, `TreeRoute` (`Spec/TrafficOrder.lean`). | Invariant: the delivered TLPs of the route, followed by those in the places of the route seen from the destination, are those that entered, in order. Each step keeps it; routes in a tree take no link twice. The completions of one request leave the completer in order (`C85_completions`). `C85_data_before_interrupt` says what that means for the memory, if each write has its whole effect when it is delivered. |
| C86 | The gate of one credit type: available credits, tasks that wait for the event, tasks that have been woken and have not run, TLPs sent (`Model/FcGate.lean`). Spec: what was asked and granted, read off the history (`Spec/FcGate.lean`). | Invariant: asked is a permutation of sent, woken and waiting; available plus used is granted; nobody waits who has credits (credits only fall between grants, and a grant wakes everybody). For TLPs of one size the order is an invariant as well. Starvation by an explicit cycle, for every number of turns. |
| C87 | The comparison methods and copy constructors, field by field (`Model/PyEq.lean`); equality of the records is the specification. | Case analysis; a pair of completions that differ in error code, sequence number and BAR and in the descriptor sent, but compare equal. |

## Properties the code does not have

A theorem `Cxx_..._violated` proves, by a concrete reachable state or for a whole class of inputs, that the property as stated in
`properties.jsonl` is false of the model, which follows the code. Beside it a `_partial` theorem proves what does hold.

| id | what goes wrong | where in /repo |
|----|-----------------|----------------|
| C05 | the copy constructor and `==` ignore `th`; the UltraScale copy drops `request_completed` (`==` typed for `=`) | core/tlp.py `Tlp.__init__`, `__eq__`; xilinx/us/tlp.py:123 |
| C08 | `address & 0x7c + offset` is `address & (0x7c + offset)` | core/tlp.py `get_lower_address` |
| C19 | a completion that comes after the timeout of its request is taken by the next request with the same tag | core/function.py, core/rc.py `perform_nonposted_operation` |
| C24 | the receiving port copies the TLP, which loses `th` | core/port.py, core/tlp.py |
| C26 | I/O and memory enable and bus master enable of bridges have no effect; every message raises an exception | core/bridge.py, core/function.py `match_tlp` |
| C27 | locked reads, atomic operations and messages raise an exception instead of being answered | core/device.py, core/bridge.py |
| C28 | BARs of 4 GiB and more and addresses above 4 GiB for 32-bit BARs are decoded wrongly; enable bits have no effect | core/function.py `match_bar` |
| C29 | after sizing, the upper half of a 64-bit BAR is overwritten with the lower half | core/pci.py:1104 |
| C30 | BARs beyond the end of the address space are truncated silently | core/pci.py `assign_bars` |
| C31 | a bridge window is rounded down over the BARs of functions found before the bridge; non-prefetchable ranges above 4 GiB do not fit the register | core/pci.py `assign_resources`, `setup_bridge` |
| C33 | automatic placement lets the last register of a capability coincide with the first of another | core/caps/common.py:199 |
| C34 | after removal of capabilities the pointers are stale; the walk may not end | core/caps/common.py `deregister` |
| C35 | the BIST start bit (bit 30) is written with the byte enable of byte 2 | core/function.py |
| C36 | vectors are aligned with `limit % 32` instead of rounding up, so an interrupt may reach the handler of another function | core/msi.py:61 |
| C37 | a device can be configured with a larger payload than its bridge, below switches | core/pci.py `configure_mps` |
| C38 | `append_endpoint` accepts a device number that is in use | core/switch.py, core/rc.py |
| C40 | narrow requester completion buses with two segments are accepted by the constructor and then fail; `discontinue` of a straddled frame spreads to its neighbours | xilinx/us/interface.py |
| C42 | function numbers are shifted by 3 bits on a bus with 2 bits for each segment (Stratix 10); `tlp_abort` is never driven (P-Tile) | intel/*/interface.py |
| C43 | `tag_release` is never set; credits of I/O writes leak; extended tags on UltraScale hand out `None` | xilinx/us/us_model.py |
| C44 | Intel models free completion space for delivered requests too | intel/*/*_model.py `_run_rx_logic` |
| C45 | messages end the routing task of a switch | core/switch.py |
| C48 | an abort that a bridge signals downwards is reported in the primary status register | core/bridge.py `send` |
| C51 | link width, ASPM support and exit latencies are shifted right instead of left | core/caps/pcie.py `_read_register`, register 3 |
| C51 | version attributes of the PM and PCI Express capabilities do not show | core/caps/pm.py:68, core/caps/pcie.py:256 |
| C51 | equalization request can be set by software; "DLL state changed" and "DRS message received" are cleared with the byte enable of byte 2; component presence one bit too low; nine-bit preset kept in a four-bit field | core/caps/pcie.py, registers 6 and 12 |
| C51 | PM data scale is writable | core/caps/pm.py `_write_register` |
| C51 | root error command enables exchanged, first error pointer has four bits, registers from 11 on unreachable | core/caps/aer.py |
| C51 | lanes 0 and 1 show in no lane equalization register | core/caps/pcie.py:640-650 |
| C52 | with two segments on the 512-bit completer request interface, first_be and last_be are placed by segment number instead of by start (the library's sink does the same, so loopback tests pass) | xilinx/us/interface.py:932-933 |
| C52 | function number of segment n at bit 3n of a signal with 2 bits for each segment | intel/s10/interface.py |
| C53 | a read that the queue task holds (waiting for a tag or credits) is overtaken by newer reads, because only the queue itself is tested | xilinx/us/us_model.py `_run_rq_logic` |
| C54 | the host bridge claims the first address behind its ranges (exclusive limits in inclusive limit registers) | core/rc.py:890-895 |
| C54 | a 32-bit BAR takes 64-bit addresses with the same lower half, so a request can get to the wrong function of a device | core/function.py `match_bar` |
| C55 | A read of the last dword of a region whose size is not a multiple of four raises an exception | core/endpoint.py `MemoryEndpoint.add_region`, `handle_mem_read_tlp` |
| C58 | for a window of another function than function 0, the user is told function 0 (memory requests) and the size of function 0's register, and the lookup can raise `IndexError` | xilinx/us/us_model.py:897, 919-924 (usp_model.py likewise) |
| C58 | clock cycles with `pcie_cq_np_req` high are not counted while the task waits for the streaming interface | xilinx/us/us_model.py:977-1013 |
| C33 | automatic placement ignores the end of the capability region (`PciCapList.end` is unused): a capability may be placed at register 0x40 or above, where it is neither found nor accessible | core/caps/common.py:143-204 |
| C60 | a request for a function that does not exist ends the task with an exception; no later request is served | xilinx/us/us_model.py, usp_model.py `_run_cfg_mgmt_logic` |
| C61 | a Xilinx request while another message waits for the link is lost, with neither `sent` nor `fail` | xilinx/us/us_model.py `_run_cfg_int_logic` (`C61_lost_violated`) |
| C61 | a Xilinx request for a function that does not exist, or with two bits set, is answered with neither `sent` nor `fail` | xilinx/us/us_model.py `_run_cfg_int_logic` (`C61_no_answer_violated`) |
| C64 | `func_num` of a request handed to the user is the function number of the requester, not of the function whose window claims it | intel/s10/s10_model.py:674, 695; intel/ptile/ptile_model.py likewise |
| C65 | credits are cut to 8 (header) or 12 (data) bits instead of being limited: 256 header credits available are shown as 0 | xilinx/us/us_model.py:1381-1392, usp_model.py:1505-1516, intel/s10/s10_model.py:773-786 |
| C65 | `cfg_fc_sel` = 2 raises AttributeError in UltraScale+ (`rx_credits_consumed` does not exist) | xilinx/us/usp_model.py:1466 |
| C65 | `pcie_tfc_nph_av` and `pcie_tfc_npd_av` always show the maximum | xilinx/us/us_model.py:1170-1173, usp_model.py:1330-1333 |
| C66 | register 1 of the L-Tile output shows the advanced error interrupt message number at bit 28 instead of 24: it overlaps the system error enables and can exceed 32 bits | intel/s10/s10_model.py:972 |
| C66 | `cfg_function_status` shows bus master enable in the places of I/O and memory space enable | xilinx/us/us_model.py:1239-1245, usp_model.py:1389-1396 |
| C68 | the tag shown k-th need not belong to the k-th read: a read that waits for a tag is overtaken (see C53) | xilinx/us/us_model.py `_run_rq_logic` (`C68_tag_order_violated`) |
| C72 | a bridge above an enabled device need not be a bus master: if `enable_device` was called for the bridge itself before, `enable_bridge` finds it enabled, and calls `self.set_master()` without awaiting it, which does nothing | core/pci.py `enable_bridge` (`C72_bridges_violated`) |
| C73 | extended message data enable (bit 26 of the MSI control register) takes bit 16 of the data, so it follows MSI enable; proved for all other bits | core/caps/msi.py `_write_register` (`C73_msi_write_violated`) |
| C73 | the MSI capability always has six registers, but those that the device does not have read as None, so the configuration read raises an exception | core/caps/msi.py `_read_register` (`C73_msi_absent_violated`) |
| C75 | `set_mps`, `set_readrq` and `configure_extended_tags` write the device status together with the device control, with the ones that they have read: errors that the function has recorded (correctable, non-fatal, fatal, unsupported request) are cleared | core/pci.py `set_mps`, `set_readrq`, `configure_extended_tags` (`C75_status_violated`) |
| C76 | functions other than function 0 are not waited for: one that answers with retry status is recorded as a device with vendor ID 1 and device ID 0xffff, and set up from registers that read as all ones | core/pci.py `PciBus.scan` (`C76_function_violated`) |
| C82 | `wait` returns although a frame is in the queue, if it was sent at a clock edge before the source looked at that edge | `_run_source` in the three interface.py (`C82_wait_violated`) |
| C82 | `idle()` is true while a frame is being sent, until the next clock edge | `idle` in the three interface.py (`C82_idle_violated`) |
| C82 | `clear` does not reset the occupancy counters: a source or sink that was over its limit stays full for ever, with an empty queue | `clear` in the three interface.py (`C82_clear_violated`, `C82_axis_clear_violated`, `C82_sink_clear_violated`) |
| C82 | `queue_occupancy_limit_bytes` counts dwords | `__len__` of the frames (`C82_bytes_violated`) |
| C83 | a pulse of the reset input that ends before the next clock edge ends the 100 ns instead of starting them again: the output is released at that clock edge | `_run_reset` in the four models (`C83_released_violated`) |
| C83 | with the reset input active from the start, the reset output is inactive until the second clock edge, and `reset_status_n` is 0 while `reset_status` is 0; configuration requests are served until the first clock edge | `_run_reset` and the initial values (`C83_initial_violated`) |
| C84 | two endpoints behind one switch that each have 68 reads of 4096 bytes from the other under way can wait for each other forever: reads without credits block the completions behind them in the switch, and an endpoint handles no further TLP while it sends completions | `_run_arbitration`, `_run_receive` (`C84_peer_violated`) |
| C84 | two endpoints behind two switches that each have 195 writes to the other under way, with three reads of 4096 bytes by the root complex from each, can wait for each other forever | `_run_arbitration`, `_run_receive` (`C84_peer_write_violated`) |
| C86 | a TLP is overtaken by one whose task calls `send` between the arrival of UpdateFC and the wake-up | `tx_tlp_fc_gate` (`C86_overtake_violated`) |
| C86 | a large TLP waits forever while small ones of the same credit type use up the credits that come back | `tx_tlp_fc_gate` (`C86_starved_violated`) |
| C87 | `==` on `Tlp_us` ignores error code, request completed, sequence number, BAR and discontinue | `Tlp_us.__eq__` (`C87_us_tlp_violated`) |

## What is modelled

| file in /repo (cocotbext/pcie) | modelled | not modelled |
|---|---|---|
| core/utils.py | all (`align`, `byte_mask_update`, `PcieId`) | `__str__` |
| core/tlp.py | `Tlp`, all packing, unpacking, byte enable, credit and completion helpers | `__repr__`, ECRC (the code has none) |
| core/dllp.py | all, with `crc16` | `__repr__` |
| core/port.py | `Port` (flow control with several waiting tasks (`Model/FcGate.lean`), sequence numbers, ACK, transmit and receive; ACK, update and idle timers), `SimPort` | pause on `fc_init` timers; floating point rounding of times |
| core/region.py | read/write of regions, segmentation of accesses | `AddressSpace` and windows of the package cocotbext-axi (outside the repository): a memory is a function from addresses to bytes |
| core/function.py, endpoint.py | configuration registers, BARs, TLP handling, requests (memory, I/O, configuration), completions | logging, `wait_..` helpers that only wait |
| core/bridge.py, switch.py, device.py | routing, registers, numbering, queues and arbitration of switches, trees of switches and devices | log, devices integrated in the root complex (in trees) |
| core/rc.py | configuration accesses, memory and I/O accesses, completers, MSI region in the address space (writes that begin in it; not split at its start), enumeration | `AddressSpace` plumbing |
| core/pci.py | scan, BAR sizing and assignment, windows, capability walk, payload size, MSI and MSI-X set-up; the scan and the assignment also as one program of configuration TLPs (C71), `enable_device`, `disable_device`, `set_master` (C72), `configure_device` and the calls it makes, `set_readrq` (C75), `wait_crs` and `enable_crs` (C76; the models of the whole scan, C30 to C32 and C71, have devices that are ready) | printing of the tree, `dma_*` attributes |
| core/msi.py, core/caps/* | capability lists, registers of all capabilities, MSI, MSI-X | `__init__` defaults of attributes |
| xilinx/us | frames, parity, descriptors, four streaming interfaces with handshake and queues (`Model/StreamQueue.lean`), the reset task (`Model/Reset.lean`), tags, credits and completion buffers of the hard IP models, with the requests they are answered by (`Model/UsDma.lean`) and the host memory these read and write (`Model/DmaSys.lean`); sequence number and tag reports, with sends that take time (`Model/RqRep.lean`); decoding, order and non-posted credits of the completer request interface (`_run_cq_logic`, `upstream_recv`); the completions of the user (`_run_cc_logic`, `Model/UsCc.lean`); the configuration management port (`_run_cfg_mgmt_logic`); the MSI and MSI-X ports (`_run_cfg_int_logic`); the flow control outputs (`_run_cfg_fc_logic`, `_run_tx_fc_logic`); the outputs of `_run_cfg_status_logic` that depend on registers | other configuration/status ports |
| intel/s10, intel/ptile | frames, parity, streaming interfaces with handshake and queues (`Model/StreamQueue.lean`), the reset task (`Model/Reset.lean`), receive buffers; decoding and order of received TLPs, transmission, with the accesses of the host (`Model/IntelHost.lean`) and the reads of the user (`Model/IntelDma.lean`); the MSI port of Stratix 10 (`_run_int_logic`); transmit credit outputs; configuration outputs `tl_cfg_*` | other configuration/status ports, management interface |

Simplifications are stated in the comment of the definition concerned. The general ones:

* no reset while a simulation is running (the reset task itself is modelled in `Model/Reset.lean`); no changes of attributes from outside the API;
* a wait for an event is an arbitrary delay; a timeout may happen at any time;
* values of Python attributes are of the type that the code gives them;
* the words of log messages are not modelled.

Not modelled because they always raise `AttributeError`: `RootComplex.capability_read` and `capability_write` with all their variants (rc.py:673-752 call `host_bridge.find_child_dev`, which does not exist; those of `PciDevice` work, C59) and `PciDevice.configure_msi` (pci.py:614-615 calls `rc.configure_msi`, which does not exist).

## Trusted base

* The kernel of Lean 4.33.0. No `native_decide`, `bv_decide`, `sorry`, `implemented_by`, `extern` or own axioms.
* The axioms listed below for each theorem: at most `propext`, `Classical.choice` and `Quot.sound`.
* That the hand-written model does what the Python code does. Every definition cites the lines it models. `seeded/LOG.jsonl` records experiments
  with wrong programs: each entry is an edit of the model and the theorems that then fail.
* The statements: `Spec/*.lean` and the theorems in `Props/*.lean` have to say what `properties.jsonl` says.

### Axioms of each theorem

<!-- axioms -->
* Axioms: **none** – 7 theorems: `C05_copy_no_th_partial`, `C05_copy_partial`, `C05_copy_violated`, `C05_us_copy_partial`, `C38_violated`, `C46_byte`, `C46_single`
* Axioms: **propext** – 53 theorems: `C04_reject_unsupported`, `C05_eq_partial`, `C05_eq_violated`, `C19_collect`, `C19_late_completion_violated`, `C20_collects_one`, `C26_enable_ignored_violated`, `C26_messages_violated`, `C28_alias_violated`, `C28_configure_range`, `C28_disabled_violated`, `C31_registers_reset`, `C37_downstream_violated`, `C37_upstream_violated`, `C40_discontinue_violated`, `C40_straddle_violated`, `C42_s10_violated`, `C43_disable_violated`, `C43_extended_violated`, `C47_exclusive`, `C48_function_send`, `C48_signaled_abort_violated`, `C51_pcie_presence_violated`, `C51_pcie_version_violated`, `C51_pcie_width_violated`, `C51_pm_version_violated`, `C52_s10_func_violated`, `C53_overtake_violated`, `C57_calls`, `C58_aperture_violated`, `C58_function_violated`, `C58_not_ready`, `C58_stall_violated`, `C61_lost_violated`, `C64_type1`, `C65_usp_receive_violated`, `C66_function_status_violated`, `C66_ltile_violated`, `C67_host_io`, `C73_msi_absent_violated`, `C82_bytes_violated`, `C82_order`, `C82_send_nowait`, `C82_sink_wait`, `C82_wait_violated`, `C83_initial_violated`, `C83_released_violated`, `C86_overtake_violated`, `C87_dllp`, `C87_ptile_frame`, `C87_s10_frame`, `C87_us_frame`, `C87_us_tlp_violated`
* Axioms: **Quot.sound, propext** – 123 theorems: `Arb.C49_drains`, `Arb.C49_fifo`, `Arb.C49_never_stranded`, `C03_pcieid_range`, `C09_reject_pack`, `C19_own_completions_partial`, `C19_progress_partial`, `C21_symmetric`, `C24_th_violated`, `C25_stale`, `C26_no_cfg_up`, `C26_send`, `C27_endpoint_read`, `C27_io_one`, `C27_rc_read`, `C27_unsupported_violated`, `C28_large_bar_violated`, `C29_restore_violated`, `C30_overflow_violated`, `C31_above_4g_violated`, `C31_sibling_bar_violated`, `C33_range_violated`, `C33_reaches`, `C33_violated`, `C34_violated`, `C35_bist_violated`, `C35_endpoint_other`, `C36_msi_rejected`, `C36_violated`, `C37_path`, `C37_uniform`, `C38_bus`, `C39_unsupported`, `C42_ptile_violated`, `C44_intel_drop`, `C44_intel_exact_partial`, `C44_intel_in_order`, `C44_intel_occupancy_partial`, `C45_route_partial`, `C45_unique_partial`, `C46_capability`, `C46_read`, `C46_sizes`, `C46_unique`, `C46_write`, `C46_write_range`, `C47_connect`, `C47_deadline`, `C47_latency`, `C47_order`, `C47_rate`, `C47_serialised`, `C48_bridge_recv`, `C48_bridge_recv_down`, `C48_function_recv`, `C48_poisoned_through`, `C50_axis`, `C50_axis_delivered`, `C50_axis_paused`, `C51_aer_command_violated`, `C51_exp2_frame`, `C51_exp2_lanes_violated`, `C51_pcie_clear_violated`, `C51_pcie_frame_partial`, `C51_pcie_preset_violated`, `C51_pm_frame_partial`, `C51_pm_scale_violated`, `C52_us_cq_be_violated`, `C53_no_pass_link`, `C53_posted_link_order`, `C54_same_device`, `C57_fits`, `C58_config`, `C59_absent`, `C59_unused`, `C60_absent_violated`, `C61_app_reported`, `C61_no_answer_violated`, `C61_not_before`, `C61_reported`, `C62_bus_master`, `C64_config`, `C64_credits`, `C64_function_violated`, `C64_order`, `C64_unexpected`, `C65_ptile_turns`, `C65_tfc_violated`, `C65_wrap_violated`, `C66_pcie`, `C68_prompt`, `C68_requests`, `C68_seq_nums`, `C68_tag_order_partial`, `C68_tag_order_violated`, `C68_tags`, `C72_bridges_violated`, `C73_msi_write_violated`, `C75_raises`, `C76_function_violated`, `C79_symmetric`, `C80_table`, `C82_axis_clear_violated`, `C82_axis_idle_partial`, `C82_axis_wait_partial`, `C82_axis_wait_returns_partial`, `C82_clear_violated`, `C82_occupancy_partial`, `C82_send`, `C82_senders_partial`, `C82_sink_partial`, `C83_asserted`, `C83_complement`, `C83_config`, `C83_released_high`, `C83_released_partial`, `C86_all_sent`, `C86_exactly_once`, `C86_no_lost_wakeup`, `C86_order_partial`, `C86_served_partial`, `C86_settles`, `C86_starved_violated`
* Axioms: **Classical.choice, Quot.sound, propext** – 415 theorems: `C01_align_fixed`, `C01_align_least_multiple`, `C02_byte_mask_update`, `C03_encoding`, `C03_from_int_to_int`, `C03_no_alias`, `C03_to_int_from_int`, `C04_pack_wire_format`, `C04_unpack_pack`, `C05_us_copy_violated`, `C06_decode`, `C06_enabled_bytes`, `C06_frame`, `C06_length_least`, `C06_zero_length`, `C07_other_bytes_disabled`, `C07_payload`, `C08_lower_address_partial`, `C08_lower_address_violated`, `C09_fc_type`, `C09_pack_wire_format`, `C09_unpack_encodable`, `C09_unpack_pack`, `C09_unpack_pack_crc`, `C10_crc_detects_bursts`, `C10_single_bit_is_burst`, `C10_unpack_crc`, `C11_endpoint_memory_write`, `C11_endpoint_write_tlp`, `C11_rc_memory_write`, `C11_rc_write_tlp`, `C12_read_requests`, `C12_write_requests`, `C13_endpoint_memory_read`, `C13_memory_read`, `C13_rc_memory_read`, `C14_endpoint_completions`, `C14_rc_completions`, `C15_zero_read_rc`, `C15_zero_read_request`, `C15_zero_write`, `C16_endpoint_io_read`, `C16_endpoint_io_write`, `C16_io_read`, `C16_rc_io_read`, `C16_rc_io_write`, `C16_read_requests`, `C16_write_requests`, `C17_crs`, `C17_endpoint_write_partial`, `C17_failed`, `C17_other_function`, `C17_read`, `C17_read_requests`, `C17_write`, `C17_write_bytes`, `C17_write_requests`, `C18_alloc`, `C18_release`, `C18_unique`, `C20_collects_read`, `C20_stops_at_error`, `C21_never_overrun`, `C21_no_error`, `C22_all_back`, `C22_conserved`, `C22_release_amount`, `C22_release_once`, `C23_credits`, `C23_finish_together`, `C23_limit`, `C23_not_stuck`, `C24_in_order`, `C24_in_order_partial`, `C24_no_nak`, `C25_ack_exact`, `C25_all_acked`, `C25_retry_buffer`, `C26_down_partial`, `C26_up_partial`, `C27_bridge_down_partial`, `C27_bridge_partial`, `C27_decodes`, `C27_device_partial`, `C28_claims_io`, `C28_claims_mem`, `C28_configure`, `C28_decode_partial`, `C28_program`, `C29_bridge_partial`, `C29_endpoint_partial`, `C29_restore_32bit`, `C29_total`, `C30_assignment`, `C30_memory_disjoint`, `C31_registers_write`, `C31_windows`, `C31_windows_partial`, `C32_ranges`, `C32_scan`, `C32_too_many`, `C32_unique_path`, `C33_automatic_partial`, `C33_disjoint_partial`, `C33_explicit`, `C33_registered`, `C33_share_one_partial`, `C34_ext_walk_partial`, `C34_pointers_partial`, `C34_walk_partial`, `C35_bridge_misc_partial`, `C35_bridge_other`, `C35_bridge_write_partial`, `C35_endpoint_misc_partial`, `C35_endpoint_write_partial`, `C36_alloc`, `C36_exclusive`, `C36_freed`, `C36_msi_partial`, `C36_msix`, `C36_unmasked`, `C37_upstream_partial`, `C38_add_function`, `C38_add_port`, `C38_append_function`, `C38_functions`, `C38_ports_partial`, `C39_fields`, `C39_layout`, `C39_rc_byte_enables`, `C39_roundtrip`, `C40_delivered_partial`, `C40_discontinue_partial`, `C40_link_partial`, `C40_stream_partial`, `C40_tlp_unpack`, `C40_tlps_partial`, `C41_dword`, `C41_ptile`, `C41_s10`, `C41_us`, `C41_wide`, `C42_ptile_delivered`, `C42_ptile_link`, `C42_ptile_sink_sound`, `C42_ptile_stream`, `C42_ptile_tlp`, `C42_ptile_tlp_ok`, `C42_ptile_tlps`, `C42_s10_delivered_partial`, `C42_s10_link_partial`, `C42_s10_sink_sound`, `C42_s10_stream_partial`, `C42_s10_tlp`, `C42_s10_tlp_ok`, `C42_s10_tlps`, `C43_conserved`, `C43_credit_violated`, `C43_no_failure_partial`, `C43_no_reuse`, `C43_prompt_partial`, `C43_stall_violated`, `C43_waiting_bound`, `C44_intel_violated`, `C44_us_drop`, `C44_us_in_order`, `C44_us_occupancy`, `C45_downwards_partial`, `C45_internal_partial`, `C45_messages_violated`, `C45_peer_partial`, `C45_upwards_partial`, `C46_roundtrip`, `C47_delivered`, `C47_in_order`, `C47_link`, `C47_size`, `C50_latency`, `C50_latency_delivered`, `C50_latency_paused`, `C51_aer_frame`, `C51_aer_length_violated`, `C51_aer_others`, `C51_aer_read_partial`, `C51_aer_write_partial`, `C51_exp2_lanes_partial`, `C51_exp2_others`, `C51_exp2_read_partial`, `C51_exp2_write_partial`, `C51_pcie_others`, `C51_pcie_read_partial`, `C51_pcie_write_partial`, `C51_pm_others`, `C51_pm_read_partial`, `C51_pm_write_partial`, `C52_ptile_layout`, `C52_s10_func_partial`, `C52_s10_layout_partial`, `C52_us_be_partial`, `C52_us_layout`, `C53_no_pass`, `C53_nonposted_order_partial`, `C53_posted_at_once`, `C53_posted_order`, `C54_alias_violated`, `C54_config`, `C54_down`, `C54_enumerated`, `C54_enumerated_peer`, `C54_enumerated_unclaimed`, `C54_host_limit_violated`, `C54_peer`, `C54_reach`, `C54_to_root_partial`, `C54_unclaimed`, `C54_windows_partial`, `C55_host_read_partial`, `C55_host_write_partial`, `C55_io_host_read_partial`, `C55_io_host_write_partial`, `C55_io_region_read`, `C55_io_region_write`, `C55_nobody_read`, `C55_nobody_write`, `C55_odd_region_violated`, `C55_region_read_partial`, `C55_region_roundtrip_partial`, `C55_region_write_partial`, `C56_after_scan`, `C56_nobody`, `C56_numbers`, `C56_read`, `C56_scan`, `C56_write`, `C57_apart`, `C57_raises`, `C57_regions`, `C58_claimed_partial`, `C58_credits`, `C58_eventually`, `C58_frames`, `C58_io_function`, `C58_no_pass`, `C58_order`, `C58_prompt`, `C58_unclaimed`, `C59_apart`, `C59_apart_ext`, `C59_by_id`, `C59_read`, `C59_read_ext`, `C59_walk`, `C59_walk_ext`, `C59_write`, `C59_write_by_id`, `C59_write_ext`, `C60_effect`, `C60_exactly_once`, `C60_latency`, `C60_no_exception`, `C61_app_acks`, `C61_app_messages`, `C61_messages`, `C61_status`, `C62_msi_partial`, `C62_msix`, `C62_quiet`, `C63_calls`, `C63_enabled`, `C63_msi_partial`, `C63_msix`, `C63_rest`, `C64_claimed_ptile_partial`, `C64_claimed_s10_partial`, `C64_completion_ptile`, `C64_completion_s10`, `C64_eventually`, `C64_tx_ptile`, `C64_tx_s10`, `C64_unclaimed`, `C65_infinite`, `C65_ptile`, `C65_s10_exact_partial`, `C65_s10_safe`, `C65_send`, `C65_us_exact_partial`, `C65_us_limit`, `C65_us_receive`, `C65_us_receive_infinite`, `C65_us_safe`, `C66_function_status_partial`, `C66_htile`, `C66_ltile_partial`, `C66_msi`, `C66_ptile`, `C66_rcb`, `C66_turns`, `C66_us`, `C66_usp`, `C67_bytes`, `C67_host`, `C67_tags`, `C67_user`, `C69_completions`, `C69_io_nobody`, `C69_io_read`, `C69_io_write`, `C69_nobody`, `C69_read`, `C69_read_completions`, `C69_write`, `C70_io_nobody`, `C70_io_read_ptile`, `C70_io_read_s10`, `C70_io_write_ptile`, `C70_io_write_s10`, `C70_nobody`, `C70_read_completions_ptile`, `C70_read_completions_s10`, `C70_read_ptile`, `C70_read_s10`, `C70_write_ptile`, `C70_write_s10`, `C71_enumerate`, `C71_find`, `C72_bridges_partial`, `C72_decode`, `C72_master`, `C73_msi_read`, `C73_msi_write_partial`, `C73_msix_read`, `C73_msix_write`, `C74_bytes_ptile`, `C74_bytes_s10`, `C74_host`, `C74_taken_ptile`, `C74_taken_s10`, `C74_user_ptile`, `C74_user_s10`, `C75_attributes`, `C75_device_partial`, `C75_get`, `C75_mps_partial`, `C75_serr`, `C75_set_mps_partial`, `C75_set_readrq_partial`, `C75_setup`, `C75_status_violated`, `C75_tags_off`, `C75_tags_partial`, `C76_enable`, `C76_found`, `C76_given_up`, `C76_hidden`, `C76_schedule`, `C77_order`, `C77_read`, `C77_read_back`, `C78_calls_ok`, `C78_endpoint_memory`, `C78_finishes`, `C78_hierarchy_host`, `C78_hierarchy_read_only`, `C78_hierarchy_region`, `C78_host_memory`, `C78_no_deadlock`, `C78_order`, `C78_read_call`, `C78_request`, `C78_write_then_read`, `C79_credits_return`, `C79_link`, `C79_port`, `C79_sender_unblocked`, `C79_time_passes`, `C80_bounded`, `C80_outstanding`, `C80_port`, `C80_received_acked`, `C80_retry_empty`, `C80_sent_acked`, `C81_always_ends`, `C81_credits_known`, `C81_first_send`, `C81_initialised`, `C81_not_before`, `C81_port`, `C82_idle_partial`, `C82_idle_violated`, `C82_limit`, `C82_ptile_partial`, `C82_ptile_returns_partial`, `C82_s10_partial`, `C82_s10_returns_partial`, `C82_sink_clear_violated`, `C82_us_partial`, `C82_us_returns_partial`, `C82_wait_partial`, `C82_wait_returns_partial`, `C83_once`, `C83_release`, `C84_dma_partial`, `C84_peer_violated`, `C84_peer_write_violated`, `C84_progress_partial`, `C84_root_traffic_partial`, `C85_all_completions`, `C85_all_in_order`, `C85_completions`, `C85_data_before_interrupt`, `C85_hierarchy`, `C85_in_order`, `C85_no_overtaking`, `C87_us_tlp_partial`, `Cfg.C06_frame_writeTlp`
<!-- /axioms -->
