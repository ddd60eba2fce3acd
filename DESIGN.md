# Formal model of nfqueue-loadbalancer: design

The model is written in Lean 4 (`/verif/lean`, Lake project `verif`). It is a
hand-written functional transcription of the C code in `/repo/src`, one Lean
definition per C function (or per loop of a C function); every definition
cites the file and lines it models and says where it is simpler than the code.
`/repo` is only read as text; nothing of it was built or run.

## Layout

| directory | content |
|---|---|
| `lean/Verif/Model/*.lean` | executable model of the C code, nothing else |
| `lean/Verif/Spec/*.lean`  | small specifications, independent of the model's helpers |
| `lean/Verif/Proof/*.lean` | helper lemmas and invariants |
| `lean/Verif/Props/*.lean` | the property theorems (named `Cnn_...`), each with examples that show that its hypotheses can be met |
| `properties.jsonl` | the properties in English |
| `MANIFEST.json` | which theorems prove which property |
| `seeded/LOG.jsonl` | wrong programs tried against the theorems, with the theorems that failed |

Naming: `Cnn_x` is a theorem for property Cnn. `Cnn_x_partial` proves a part of
the property, the comment of the theorem and the note below say what is missing.
`Cnn_violated...` (or another name given below) proves with a concrete witness
that the property as stated does not hold for the code.

## Trusted base

* **Lean's kernel** (4.33.0). The axioms of every theorem are among `propext`,
  `Classical.choice` and `Quot.sound`; there are no own axioms, no `sorry`, no
  `native_decide`, no `bv_decide`. `decide +kernel` is used for examples,
  witnesses and finite tables; it is checked by the kernel alone. `vcheck`
  replays all modules and lists the axioms.
* **The reading of the C code**: that the Lean definitions say what the cited
  lines say. The conventions are:
  * LP64, little-endian; `unsigned`/`int` 32 bits, `size_t`/`uint64_t` 64 bits.
    Unsigned arithmetic wraps, written as `u32`/`u64` (`Model/Basic.lean`)
    wherever the wrap can be reached.
  * Undefined behaviour (access outside an object, null dereference, use after
    free, division by zero, signed overflow, undefined shift) is the outcome
    `.ub`, an endless loop `.hang`, `die()` and `assert` `.die` of the type
    `Res` (`Model/Basic.lean`). In the models written before that type the same
    outcomes have other names (`none`, `oob`); they are never made total
    silently.
  * `malloc`, `calloc`, `strdup` succeed. The code calls `die` otherwise.
    Exceptions are said in the model.
  * libc functions have their documented (glibc) meaning: `qsort` is any
    sorted permutation (a parameter of the theorems, ties in any order);
    `rand` any stream; `strtok`, `strtol`, `atoi`, `sscanf("%u")`, `fgets`,
    `snprintf`, `inet_pton`, `inet_ntop`, `regcomp/regexec` for the one expression in use,
    and `getopt_long_only` are written out in Lean
    (`Model/CText.lean`, `Regex.lean`, `Cmd.lean`).
  * A mutex makes its critical section one step; a C11 atomic operation is one
    step; every other load or store of shared memory is a step of its own in
    the interleaving models (sequentially consistent memory).
* **The specifications** in `Spec/`, which are meant to be short enough to be
  read.

## What is modelled

| C file | Lean model |
|---|---|
| `lib/prime.c` | `Prime` |
| `lib/maglevdyn.c` | `Maglev`, `MaglevMem`, `MaglevRace` |
| `lib/maglev.c` | `MagStatic` |
| `nfqlb/cmdConfig.c` (init, activate, deactivate; shared memory store by store) | `Maglev`, `MaglevMark`, `MaglevMem`, `MaglevRace` |
| `lib/hash.c`, `lib/iputils.c` | `Packet` |
| `lib/conntrack.c` | `Conntrack` |
| `lib/itempool.c` | `ItemPool` |
| `lib/reassembler.c` | `Reassembler` |
| `lib/fragutils.c` | `FragTable` (calls run to their end), `FragDestroy` (`fragTableDestroy`), `FragRace` (interleavings), `Report` (printing) |
| `lib/rangeset.c` | `RangeSet` (pointer heap), `CText` (text) |
| `lib/match.c` | `Match`, `Regex` |
| `lib/flow.c` | `Flow`, `FlowPrint` |
| `nfqlb/cmdLb.c` packetHandleFn, injectFrag | `Lb`, `EndToEnd`, `Tun` |
| `nfqlb/cmdFlowLb.c` packetHandleFn, control requests, load-balancer references, control thread | `Lb`, `FlowLb`, `LbRace`, `EndToEnd`, `Tun` |
| `nfqlb/cmdFlowLb.c` flowThread, traceHandleFlowCmd | `Server` |
| `nfqlb/cmdFlowLb.c` packetHandleFn with tracing, `lib/iputils.c` printIcmp, `nfqlb/cmdTrace.c` str2mask, mask of cmdTrace | `Trace` |
| `lib/log.c` tracef, traceServerThread | `TraceSrv` |
| `lib/log.c` logp, with the messages of traceServerThread; `lib/log.h` macros | `Log` |
| `lib/log.c` logConfigShm, `nfqlb/cmdTrace.c` loglevel | `LogShm` |
| `lib/argv.c`, `nfqlb/remoteCmd.c`, `nfqlb/cmdFlow.c` (clients) | `Argv`, `RemoteCmd` |
| `lib/nfqueue.c` (call-back and verdict) | `Nfqueue` |
| `lib/nfqueue.c` (copy range) | `Copy` |
| `lib/nfqueue.c` (messages to the kernel, set-up of the queue) | `NlMsg` |
| `lib/cmd.c` and the registration of commands | `Cmd` |
| option tables of all commands, `lib/cmd.c` parseOptionsOrDie | `Options` |
| start of `nfqlb/cmdLb.c` and `nfqlb/cmdFlowLb.c`, `lib/tuntap.c` | `Start` |
| `lib/shmem.c` | `Shmem` (writing), `Reinit` (mapping, while `init` runs) |
| `nfqlb/cmdShm.c` show, stats | `Report`; the statistics that load-balancers share: `FtShm` |
| `nfqlb/cmdShm.c` and `nfqlb/cmdConfig.c`, whole command lines one after the other | `Session` |
| `nfqlb/cmdFlow.c` and `nfqlb/cmdTrace.c`, the clients after the request; the messages of `flowDefine` and `matchParse` | `Client` |
| `ipu/ipu.c` | `Ipu`, `IpuCmd` (command lines) |
| `lib/iputils.c` parseAddress, parseProto, `nfqlb/cmdFwmark.c` | `Addr` |
| `nfqlb/remoteCmd.c` connectToLb, `lib/log.c` traceServerThread and `nfqlb/cmdFlowLb.c` flowThread up to listen, the connection of `nfqlb trace` | `Sock` |
| the copy loops of `nfqlb trace` and the list commands, with the results of `write` (`nfqlb/cmdTrace.c`, `nfqlb/cmdFlow.c`) | `CopyOut` |
| `nfqlb/cmdLb.c` from the command line to the messages for the kernel, all parts together | `System` |
| `nfqlb/cmdFlowLb.c`, `nfqlb/cmdFlow.c` from the command line, the requests and the packets to the messages, all parts together | `FlowSystem` |
| `extension/cmdXlb.c` | `Lb` (packetHandleFn), `Xlb` (all parts together) |

## What is not modelled

Netlink and libnetfilter_queue below the call-back, socket calls (accept,
bind, connect), `die.c` and log output (except where a
section below says so), thread creation, the order in
which a linker runs constructors (a parameter in C55), memory models weaker than
sequential consistency.

## Properties

Status words: *proved* means the full statement; *partial* means that the code
does not satisfy the full statement (the negation is then proved with a witness)
or that only a part of it is proved; the note says which.


### C01 primeBelow returns the largest prime not above its argument (proved)

Modelled: `isPrime`, `primeBelow` with the prime table. The table is shown complete below 1000 by the kernel over the whole table; so trial division is exact up to 997^2, and the search ends at a prime by induction on n.

Theorems: `C01_primeBelow_largest_prime`, `C01_primeBelow_dies_below_two`, `C01_header_comment_is_wrong`.

Note: All 32-bit n. The comment in prime.h about 994009 is shown wrong.

### C02 Every lookup slot refers to an active target after (re)configuration (partial)

Modelled: `populate`, `createMagDataDyn`, `setActiveDyn` as nested loops with reads outside the rows as an outcome and 32-bit arithmetic of the permutation. Loop invariants: filled slots = steps done, consumed prefixes of the rows are filled; rows are permutations because M is prime. Finding: for M > 65536 `offset + j*skip` wraps at 32 bits, the row is no permutation any more and `populate` can run past its end (`C02_large_table_fails`, M = 65537).

Theorems: `C02_every_slot_active_partial`, `C02_table_good_if_defined`, `C02_large_table_fails`.

Note: Proved for every M <= 65536 and every history. False for M > 65536 (32-bit wrap in the permutation row): witness M=65537 gives an out-of-bounds read.

### C03 Load is spread evenly over active targets (proved)

Same model. Invariant of the round-robin: the numbers of slots differ by at most one in each round.

Theorems: `C03_load_even`, `C03_every_active_target_used`.

Note: Floor/ceil of M/k for every history that ran without undefined behaviour (see C02).

### C04 The lookup table depends only on which targets are active, not on the command history (proved)

The lookup table is a function of the permutation and the set of active indices; induction over two histories.

Theorems: `C04_history_independent`.

Note: Any two histories that meet in the same active indices.

### C05 activate/deactivate by fwmark have set semantics (partial)

Modelled: activate and deactivate of `cmdConfig.c` on the active array, by mark and by index. Set semantics by an invariant (marks unique) over histories. Finding: `--index` can put one mark in two slots; deactivate by mark then removes one only.

Theorems: `C05_set_semantics_partial`, `C05_deactivate_removes_partial`, `C05_deactivate_fails_with_index`, `C05_activate_active_is_noop`, `C05_deactivate_inactive_is_noop`, `C05_activate_takes_effect`, `C05_bad_index_refused`, `C05_activate_at`, `C05_deactivate_at`.

Note: deactivate does not remove a fwmark that --index has put in two slots (witness); proved for histories without --index, the other parts in any state.

### C06 Shared-memory layout of the Maglev tables is in bounds and non-overlapping (partial)

Layout arithmetic with wrap. Finding: M*N+M+N+6 >= 2^30 wraps in the 32-bit computation of the length.

Theorems: `C06_layout_partial`, `C06_large_table_fails`, `C06_init_roundtrip`.

Note: Proved when M*N+M+N+6 < 2^30. False for larger tables accepted by init (witness M=N=65537).

### C07 A packet handled while the target table is being rewritten never gets a bogus fwmark (partial)

Every store of activate/deactivate in program order; the reader's two loads happen at any two positions of the trace of any history. Finding: the `xlb` extension reads the tables in an order for which the claim is false.

Theorems: `C07_stores_faithful`, `C07_race_safe`, `C07_history_race_safe`, `C07_xlb_quiescent`, `C07_xlb_race_fails`.

Note: Proved for lb and flowlb, all interleavings of any history of commands. False for the xlb extension (witness).

### C08 A crash of `init` at any point leaves no half-initialised table in use (partial)

Trace of the stores of `init`; a crash is a prefix of it. Findings: a crash before M is written gives a division by zero in the packet handler, a crash later gives mark 0 or uninitialised marks, a short file gives a bus error.

Theorems: `C08_late_crash_harmless_partial`, `C08_crash_division_by_zero`, `C08_crash_bogus_fwmark`, `C08_crash_short_file`.

Note: False: three crash points with harmful effect are exhibited. Proved for crashes in the last M stores.

### C09 Flow affinity and target validity for unfragmented packets (lb) (proved)

Model of `packetHandleFn` of `cmdLb.c`; uses C02-C05 for reachable tables.

Theorems: `C09_valid_target`, `C09_affinity`, `C09_flow_ipv4`, `C09_flow_ipv6`, `C09_xlb`.

Note: lbDecide models packetHandleFn of cmdLb.c up to the calls of the fragment table; any table reachable by init and activate/deactivate.

### C10 SCTP ports-only hashing is independent of addresses (proved)

`djb2_hash`, `hashKey`, `hashKeyAddresses` over the 40-byte key.

Theorems: `C10_sctp_ports_only`, `C10_multihomed`, `C10_whole_key`, `C10_key_size`, `C10_tier`, `C10_same_target`.

Note: Hash functions for all keys; target chosen by lb for SCTP packets.

### C11 All fragments of a datagram are handled by one load-balancer and redirected at most once (proved)

Tier lookup of the handlers as a function of the addresses only; all members share one table.

Theorems: `C11_one_member`, `C11_ipv4_fragments`, `C11_ipv6_fragments`.

Note: One tier table shared by all members; concerns fragments the parser accepts (rc >= 0).

### C12 Packet parsing never reads outside the packet (partial)

Byte-level model of `getHashKey`: every read is checked against the packet and outside reads give `.ub`. Findings: ICMP and ICMPv6 headers and the IPv6 fragment header are read without bounds check, as are extension headers of a first fragment.

Theorems: `C12_ipv4_partial`, `C12_ipv6_partial`, `C12_other`, `C12_violated_ipv4`, `C12_violated_echo`, `C12_violated_ipv6`.

Note: False in general: ICMP, ICMPv6 and IPv6 fragment headers are read without bounds checks (witnesses proved). Proved for all packets in which these headers are not cut short.

### C13 Packet parsing terminates on every packet (partial)

The loops over IPv6 headers take fuel; it is shown when the fuel is never used up. Finding: an endless loop for each first fragment with an extension header (or fragment header) behind the fragment header, since the `reserved` byte, which is 0, is taken as length.

Theorems: `C13_ipv4`, `C13_ipv6_partial`, `C13_violated`.

Note: False for IPv6: a first fragment whose fragment header is followed by an extension header makes the loop endless (proved for every such packet). Proved for IPv4 and for all other IPv6 packets.

### C14 IPv4 five-tuple extraction (proved)

Packets are built from their RFC fields (`Spec/Packet.lean`), the parser is run on their bytes.

Theorems: `C14_ipv4_five_tuple`.

Note: UDP to the encapsulation port is C19.

### C15 IPv6 five-tuple extraction, also behind extension headers (partial)

As C14. Finding: the length of extension headers lacks the +1 of RFC 8200; 8-byte headers are refused, longer ones shift all later fields by 8 bytes.

Theorems: `C15_ipv6_five_tuple_partial`, `C15_violated_short`, `C15_violated_long`.

Note: False behind extension headers (length field interpreted without the +1 of RFC 8200); proved without extension headers.

### C16 All fragments of a datagram get the same fragment-table key, different datagrams different keys (partial)

As C14. Finding: behind a 16-byte extension header the bytes of an option are taken for the fragment header (follows from C15).

Theorems: `C16_ipv4_first`, `C16_ipv4_later`, `C16_ipv6_first_partial`, `C16_ipv6_later_partial`, `C16_injective`, `C16_mapped_injective`, `C16_violated_ext`.

Note: IPv4 complete; IPv6 with the fragment header directly after the IPv6 header. False behind a 16-byte extension header (witness).

### C17 Ports of a first fragment are the ports of the datagram (partial)

As C14. Finding: for IPv6 the loop over the headers stops on the fragment header itself (length 0), the ports are bytes of the fragment header.

Theorems: `C17_ipv4_first`, `C17_ipv4_same_key_partial`, `C17_handler_ipv4_partial`, `C17_violated_ipv6`, `C17_violated_ipv6_witness`.

Note: IPv4 complete. False for IPv6: the ports are read from the fragment header.

### C18 ICMP errors follow the flow they refer to (partial)

As C14, with quoted packets. Findings: an ICMP error that quotes only the RFC 792 minimum of a UDP-encapsulated packet is refused; ICMPv6 time exceeded and parameter problem and ICMP parameter problem are not followed to the quoted flow (`C18_violated_types`).

Theorems: `C18_ipv4_partial`, `C18_ipv6_partial`, `C18_ipv4_encap_partial`, `C18_violated_encap`, `C18_violated_types`.

Note: Plain flows proved for IPv4 and IPv6 (no extension headers in the quote); SCTP in UDP only if the quote has more than 12 bytes of UDP (violated for the RFC 792 minimum). ICMPv6 time exceeded and parameter problem and ICMP parameter problem are not followed at all (C18_violated_types).

### C19 SCTP in UDP is hashed as the inner SCTP flow (partial)

As C14. The IPv6 findings of C15 and C17 apply here too.

Theorems: `C19_ipv4`, `C19_ipv4_first`, `C19_ipv6_partial`, `C19_other_port`, `C19_violated`.

Note: IPv4 complete (also first fragments); IPv6 without extension headers. False for IPv6 with extension or fragment headers (C19_violated).

### C20 The connection tracker is a TTL map (partial)

Slot/chain model with an abstraction function to a TTL map; refinement by induction over histories, all hash collisions included (the hash is a parameter). Finding: size 0 is accepted and divides by zero.

Theorems: `C20_ttl_map_partial`, `C20_insert_default`, `C20_size_zero_undefined`.

Note: proved for every table with at least one bucket; missing: size 0, which ctCreate accepts and which divides by zero on every access (proved)

### C21 Every value handed to the connection tracker is released exactly once (partial)

Same model; each call of the user's free function is logged. Finding: `ctDestroy` garbage collects with a time of 2^64-1 and leaks entries whose referred + ttl reaches it.

Theorems: `C21_freed_once_partial`, `C21_balance`, `C21_returned_not_freed`, `C21_refused_not_freed`, `C21_destroy_leak`.

Note: proved for all histories in which time + ttl stays below 2^64-1; beyond that ctDestroy leaks (proved). Balance, no use after free and no free of refused values hold without that condition

### C22 Extra buckets are returned and the limit is respected (proved)

Counting invariant over histories.

Theorems: `C22_balance`, `C22_all_returned`, `C22_insert_fails`, `C22_insert_null`.

Note: all histories, any order of time stamps

### C23 A live entry survives concurrent access from several threads (partial)

Same model without the assumption on the order of time stamps. Finding: unsigned subtraction `now - refered` of an older time stamp gives a huge age, a live entry is freed.

Theorems: `C23_found_partial`, `C23_violated`.

Note: violated by the code: a lookup with an older time stamp frees a live entry (proved for all keys and times). Partial: entries referenced at or before the time of the lookup are found after any history

### C24 Tracker statistics are exact (proved)

Counting invariant; 32-bit counters are modelled, equations are modulo 2^32.

Theorems: `C24_active`, `C24_counters`, `C24_balance`, `C24_collisions`.

Note: counters are 32 bits, so all equations are modulo 2^32

### C25 An item pool never hands out an item twice (partial)

Pointer-level free list over item numbers; invariant: free list and used items partition the pool. Finding: `size * n` overflows 32 bits.

Theorems: `C25_create_partial`, `C25_fresh_partial`, `C25_exhausted_partial`, `C25_count_partial`, `C25_free_partial`, `C25_with_next_partial`, `C25_overflow_undefined`, `C25_stats`.

Note: proved for all pools whose items need less than 4 GB; larger ones overflow a 32-bit size and write outside their memory (proved)

### C26 Pools of size zero can be created and destroyed (partial)

As C25. Finding: with size 0 the destroy function frees a pointer that was never set.

Theorems: `C26_balanced_partial`, `C26_after_use_partial`, `C26_size_zero_violated`.

Note: violated for size 0 (free of an uninitialised pointer, proved); proved for all other sizes below 4 GB

### C27 The reassembler reports completion exactly when all bytes have arrived (partial)

Hole list together with the stale contents of the pool items, specified by the set of bytes covered. Finding: when a fragment lies inside a hole the new item is filled wrongly, completion is reported too early, and `itemDeleted` is never reset so that holes get lost (`C27_drops_next_hole`).

Theorems: `C27_complete_partial`, `C27_ipv4`, `C27_ipv6`, `C27_empty`, `C27_violated`, `C27_drops_next_hole`.

Note: proved for all sequences in which no fragment leaves a gap on both sides (in order, reverse order, duplicates, overlaps), and that empty fragments never complete anything; violated otherwise (proved)

### C28 The reassembler survives any traffic (partial)

As C27. Finding: NULL dereference when the pool of holes is exhausted.

Theorems: `C28_terminates`, `C28_given_back`, `C28_survives_partial`, `C28_packet_safe`, `C28_violated`, `C28_violated_reachable`.

Note: termination and balance for all histories; NULL dereference when the pool is exhausted (proved)

### C29 All fragments follow the first fragment (proved)

Fragment table on top of the tracker, pool and reassembler models; ghost history of events; induction over histories of calls with arbitrary keys and packets.

Theorems: `C29_all_fragments_follow`.

Note: Sequential histories (each call runs to its end before the next starts); the memory pools, tracker collisions, expiry and exhaustion are in the model.

### C30 Stored fragments are delivered exactly once and never leak (proved)

As C29; each stored fragment has an identity that is followed to its one delivery or discard.

Theorems: `C30_accounted`, `C30_same_datagram`, `C30_delivered`.

Note: Sequential histories; with an inject function set (nfqlb only enables the table together with one).

### C31 A datagram that lost a fragment is dropped as a whole (proved)

As C29. (The refusal of fragments larger than the MTU does not poison the entry; this is not part of the claim.)

Theorems: `C31_dropped_as_a_whole`.

Note: Sequential histories.

### C32 The fragment ttl is the configured one (partial)

Conversion of the timeout with 32-bit wrap. Finding: wrong for every timeout above 4294 ms.

Theorems: `C32_ttl_partial`, `C32_effective`, `C32_violated`.

Note: Holds for timeouts up to 4294 ms; the multiplication wraps at 32 bits for every larger timeout (C32_violated).

### C33 Reference counting of fragment data is safe in all schedules (partial)

Interleaving model of threads with explicit reference counts and tracker entries. Findings: between insert and REFINC (fragutils.c:124-127) and between UNLOCK and the read of b->data (conntrack.c:171-172) another thread can free the data.

Theorems: `C33_safe_partial`, `C33_violated`.

Note: Proved for every number of threads and every interleaving in which no entry is taken out of the tracker in one of two windows (insert before REFINC; ctLookup reads b->data after UNLOCK). The full claim is false: C33_violated gives schedules with use after free and with a leak.

### C34 A range set contains exactly the values that were added (proved)

Pointer heap model of `rangeset.c`; refinement to a pure tree; set of values by induction over the list of ranges.

Theorems: `C34_exact`, `C34_create`.

### C35 A range set is stored minimally and balanced (proved)

As C34; sortedness, disjointness, minimality against any list of ranges with the same values; depth bound.

Theorems: `C35_minimal_balanced`.

### C36 Printing a range set and parsing the result gives the same set (partial)

As C34 with `snprintf` semantics. Findings: writes outside a small buffer, a truncated last item is not reported, parsing cuts at 1024 characters.

Theorems: `C36_text`, `C36_round_trip_partial`, `C36_no_overflow_partial`, `C36_violated`, `C36_exact`.

Note: Proved when the text has at most 1024 characters (round trip) and when all but the last range fit (no overflow). The full claim is false: C36_violated. C36_exact: exactly which buffer lengths are overrun (a range that is not the last does not fit although at least three characters of room are left).

### C37 A range set can be extended and updated again (partial)

Pointer heap for repeated updates. Finding: second update can make a loop or use freed memory.

Theorems: `C37_again_partial`, `C37_destroy`, `C37_violated`.

Note: Proved for any number of rounds if later rounds do not touch stored ranges and the middle range is new. The full claim is false: C37_violated.

### C38 CIDR matching is prefix equality (partial)

CIDR text, masks of 64-bit words with undefined shifts, specified by the first p bits. `inet_pton` is modelled in full, and accepts exactly the texts of addresses (`C38_only_partial`). Findings in the note.

Theorems: `C38_prefix_partial`, `C38_refused_partial`, `C38_total_partial`, `C38_only_partial`, `C38_violated`.

Note: Missing: IPv4 prefix lengths of 2^32-96 and more wrap round and are accepted (10.0.0.0/4294967200 contains every address), text after the number is ignored, 12/24 is taken as IPv6, texts of 128 or more characters with a colon are undefined; all proved in C38_violated.

### C39 A flow matches iff all of its criteria hold (proved)

`flowMatch` and helper functions against criteria over sets; the definition text is connected by C34, C38, C46.

Theorems: `C39_criteria`, `C39_as_written`.

Note: From the text of the definition to the packet; byte matches as in C46.

### C40 Flow lookup selects a matching flow of highest priority (partial)

Flow array sorted by any correct `qsort`; first match of a sorted array. Finding: `cmpFlows` subtracts priorities, signed overflow.

Theorems: `C40_best_partial`, `C40_defined`, `C40_violated`, `C40_ping`, `C40_exact`.

Note: Missing: priorities whose difference overflows an int (undefined in cmpFlows), C40_violated. Which definitions are undefined is characterised exactly (C40_exact, with all pairs of the array counted, also those that qsort may not compare); all others are defined, for histories whose priorities are pairwise close (C40_defined).

### C41 Flow definition is atomic and names are unique (partial)

`flowDefine`, `flowDelete` over histories with all failing branches.

Theorems: `C41_names`, `C41_define_partial`, `C41_accepted_partial`, `C41_delete`, `C41_lookup_name`, `C41_violated`, `C41_accepted_exact`.

Note: Missing: the undefined cases of parseCidrs and cmpFlows, C41_violated. Documented definitions are never refused, and accepted exactly if no two priorities overflow (C41_accepted_exact).

### C42 UDP-encapsulated SCTP is load-balanced by the SCTP flow (partial)

Control requests and packet handler of `cmdFlowLb.c` together. Finding: `flowLookup` goes on after the helper flow (which has no target) and resets `*udpencap` when it finds a flow of lower priority that matches the UDP packet (flow.c:428-431, 443-453).

Theorems: `C42_configured`, `C42_ipv4_partial`, `C42_ipv6_partial`, `C42_violated`.

Note: A request with udpencap gives the two flows; a UDP packet that only the helper flow matches is handled as the SCTP packet in it. Missing: as stated it is false, a flow of lower priority that matches the UDP packet takes it (C42_violated).

### C43 Load-balancer references balance (partial)

Reference counts over histories of requests and packets. Findings: failing requests change helper flows, a client can delete helper flows by name.

Theorems: `C43_balance_partial`, `C43_target_partial`, `C43_violated`.

Note: Balance for all histories of requests with name and target and of packets. Missing: requests that crash or that name the helper flows, for which it is false (C43_violated).

### C44 Releasing a load-balancer is safe against concurrent lookup by name (partial)

Interleaving model of release and find. Finding: a lookup between decrement and unlink returns a load-balancer that is freed.

Theorems: `C44_safe_partial`, `C44_released_partial`, `C44_violated`.

Note: All interleavings of any number of threads without a lookup by name in the window between the decrement to 0 and the removal from the list. In that window it is false (C44_violated).

### C45 Control requests never crash the load-balancer (partial)

Every request, with missing fields. Findings: NULL name and NULL target crash; long names.

Theorems: `C45_set_partial`, `C45_delete_partial`, `C45_violated`.

Note: Set requests with name and target and a name that fits, all delete requests. Missing: the other requests, for which it is false (C45_violated).

### C46 A byte-match expression is evaluated as written (partial)

Parser with the regular expression engine for the expression in use, evaluator on bytes. Findings: octal numbers, mask 0, 32-bit cut, header without payload.

Theorems: `C46_syntax`, `C46_parse_total`, `C46_as_written_partial`, `C46_violated`.

Note: Proved for plain numbers, complete header plus at least one byte, no IPv6 extension headers; the rest is false (C46_violated).

### C47 Evaluating an accepted byte-match expression stays inside the transport header (partial)

As C46. Finding: offset + length wraps.

Theorems: `C47_in_header_partial`, `C47_headerlength`, `C47_refused_partial`, `C47_violated`, `C47_exact`, `C47_accepted`.

Note: Offset plus length wraps at 32 bits: an accepted expression can read outside the packet (C47_violated); proved when it does not wrap. C47_exact: every text is refused, or its item is inside the header and safe, or offset plus length reaches 2^32 and every complete packet of the protocol is read outside; C47_accepted says which plain expressions are accepted.

### C48 Printed match expressions parse back to the same expression (proved)

As C46, with the printing function.

Theorems: `C48_round_trip`, `C48_room`, `C48_no_buffer`.

Note: Round trip for every accepted list, with the return value.

### C49 The verdict for fragments agrees with the first fragment (end to end) (partial)

History of packets through handler and fragment table together.

Theorems: `C49_first_before_partial`, `C49_all_partial`, `C49_ipv4_partial`, `C49_ipv6_partial`, `C49_violated`.

Note: All histories of packets of lb and flowlb, keyed as the handlers key them; the key identifies the datagram for IPv4 and for IPv6 with the fragment header directly after the IPv6 header. Missing: behind other extension headers, where it is false (C49_violated).

### C50 flowlb forwards only to configured marks (proved)

Both handlers as decision functions; every return path.

Theorems: `C50_results`, `C50_nolb`.

Note: Fragments end in the fragment table (C49); their mark is one that was stored for a first fragment.

### C51 A flow definition sent by the client is received unchanged by the server (proved)

Client text composed by `cmdFlow.c` and reader `readFlowCmd` as functions on texts; round trip. `C51_long_name` shows that the client does not test the length of the name.

Theorems: `C51_flow_set`, `C51_others`, `C51_sent`.

Note: For all requests with values that can be sent (no newline or NUL, name of at most 1000 characters). C51_long_name (counterexample, not part of the claim): the client does not test the length of the name.

### C52 Malformed control requests are rejected (partial)

Reader on arbitrary byte streams; memory accounted. Finding: unknown names are ignored.

Theorems: `C52_any_input`, `C52_no_end_mark`, `C52_ends_before_mark`, `C52_bad_line_partial`, `C52_violated`.

Note: Refusal for a missing end mark and for lines without colon, bounded memory and release for every byte stream. Lines with an unknown name are ignored by the code: C52_violated.

### C53 List arguments are split at the delimiters (proved)

`mkargv` on texts with `strtok_r`.

Theorems: `C53_mkargv`, `C53_unique`, `C53_none`.

Note: All texts shorter than 2^32-1.

### C54 Verdict and mark (proved)

The call-back for each queue message; handler is a parameter.

Theorems: `C54_verdicts`, `C54_counts`, `C54_bad_message`, `C54_no_payload`.

Note: For each handler and each sequence of messages that carry packets. A message without data attribute is undefined behaviour (C54_no_payload); one without header ends the program.

### C55 Every registered command can be invoked (partial)

Table of 20 commands and its look-up. Finding: nfqlb registers 21 commands; one of them is lost (with files sorted by name `trace-flow-list-names`).

Theorems: `C55_reachable_partial`, `C55_first`, `C55_usage`, `C55_lost`, `C55_violated`, `C55_violated_sorted`, `C55_ipu`.

Note: Holds for up to 20 commands. nfqlb registers 21 (C55_violated): one of them is unknown, in whatever order they are registered.

### C56 Required options are enforced (partial)

Option table, required mask, `getopt_long_only` of glibc on argument vectors.

Theorems: `C56_required_partial`, `C56_argv_partial`, `C56_dashes_partial`, `C56_bad_or_help`, `C56_too_many`, `C56_violated`.

Note: Holds unless --help or an option that is not in the table is given; these two cases are described by C56_bad_or_help. C56_dashes_partial: with -- in the command line.

### C57 makeip composes network, subnet and host bits (partial)

`cmdMakeip` from text to bytes, with 32-bit signed shifts.

Theorems: `C57_makeip4_partial`, `C57_makeip6_partial`, `C57_template`, `C57_refused`, `C57_violated`, `C57_argv`, `C57_exact`, `C57_missing`.

Note: Proved for first sizes from 2 (98 with IPv6) on and int numbers, and the refusals. Missing because false or undefined: first size 1 and 97, numbers that are no int, text longer than 52 characters (C57_violated). Also for command lines with the options in any order and form (C57_argv). For first size 1 (97) everything that is not refused is undefined (C57_exact). C57_missing: without --cidr it is refused.

### C58 contains decides prefix membership (partial)

`cmdContains`, `mask_ipv6` from text to the exit code.

Theorems: `C58_contains_partial`, `C58_violated`, `C58_argv`, `C58_exact`, `C58_missing`.

Note: Proved for all addresses and all sizes other than 1, 33, 65, 97 (undefined shift) and size 0 with different families (the program says contained), see C58_violated. Also for command lines (C58_argv). The result is characterised exactly for all sizes and addresses by C58_exact. C58_missing: without --cidr it is refused.

### C59 Shared memory is written completely (proved)

`write_full` for each sequence of results of `write(2)`.

Theorems: `C59_complete`, `C59_prefix`, `C59_success`, `C59_error`, `C59_zero_waits`, `C59_value`.

Note: For each sequence of results of write(2); data shorter than 2^63 bytes.

### C60 linklocal makes the modified EUI-64 address (proved)

Six octets to sixteen.

Theorems: `C60_linklocal`, `C60_injective`.

Note: For all hardware addresses, from the six octets on; reading the text is ether_aton, printing is inet_ntop, both libc.

### C61 Listing flows gives JSON that says what each flow is (partial)

Printing functions as functions to texts, with `inet_ntop`, `strtok` and the cut at 1024 characters; the JSON reader is a separate specification (`Spec/Json.lean`), and what an object says about a flow is `Lists` in `Spec/FlowPrint.lean`. Histories by induction. Findings in the theorem `C61_violated`.

Theorems: `C61_list_partial`, `C61_one_partial`, `C61_names_partial`, `C61_violated`.

Note: Hypotheses: definitions that can be listed (plain characters in names and targets, priority not negative, at least one protocol, ports with fewer than 1023 characters, at most 15 match expressions). The code violates the statement outside of them: no escaping, %u for a negative priority, match text cut at 1024 characters, empty list of protocols.

### C62 A listed flow can be defined again (partial)

What is listed is turned into arguments of `flowDefine` (`Listed.args`); equality of the results of `flowMatch` for all packets, then replay of a whole set by induction.

Theorems: `C62_again_partial`, `C62_restore_partial`, `C62_violated`.

Note: Same hypotheses as C61; for whole sets the priorities must be different, as qsort leaves the order of equal priorities open. C62_violated: cut match expressions are refused when given again.

### C63 The control server executes exactly the complete requests, in order (proved)

The loop of the control thread on sequences of connections (bytes, environment, whether the client has gone) and packets; refinement to `FlowLb.run` by induction, `Spec/Server.lean` says which requests count (`effect`).

Theorems: `C63_refines`, `C63_memory`, `C63_answers`, `C63_client`.

Note: Connections one after the other, as the code serves them; accept, fdopen and dup succeed.

### C64 No client can stop the control server (partial)

Totality of one turn of the loop from every state in `Srv.Hist`, by an invariant over flows, trace flows and names. Findings: SIGPIPE, `strdup(NULL)`, `strcmp(NULL)`, and use after free after a refused change of target.

Theorems: `C64_goes_on_partial`, `C64_gone_partial`, `C64_gone_exact`, `C64_violated`.

Note: As stated false: five ways to stop the server. Proved for benign requests of clients that wait, in all histories; and for clients that go away without a complete request, in any state.

### C65 Trace flows are separate from flows, and own their names (partial)

Frame lemmas for the handlers, invariant on the heap of names.

Theorems: `C65_apart`, `C65_answers`, `C65_names_partial`, `C65_violated`.

Note: Separation and ownership proved; as stated false: copies of names leak, and an accepted trace flow is not answered.

### C66 A flow that was set is listed, one that was deleted is not (partial)

Composition of C63, C43 and C61.

Theorems: `C66_visible_partial`, `C66_listed_partial`, `C66_violated`.

Note: For benign histories and plain names; false for names with quotation marks.

### C67 Tracing changes no decision (partial)

The packet handler once more, with every `trace`/`tracef` and what it reads (`Model/Trace.lean`); its result, without the text, is that of `FlowLb.pktHandle`. Totality from `SInv`. Findings in `C67_violated`: ICMP header read without a check, target read after the reference was given back, name of a trace flow read without the lock.

Theorems: `C67_same`, `C67_same_parts`, `C67_silent`, `C67_others`, `C67_tells`, `C67_total_partial`, `C67_violated`.

Note: Same decision, same state and the text are proved for every packet for which the handler returns. That tracing stops nothing is false (C67_violated: ICMP header cut off, target read after release, trace flow deleted concurrently); C67_total_partial excludes these.

### C68 No packet stops the process (partial)

Totality of the two packet steps from every state in `Srv.Hist`: parser (C12, C13), look-up with match expressions (C47), redirection, reassembly bookkeeping, table look-up (C01). The excluded packets and expressions are the known violations; witnesses in `C68_violated`. The excluded packets are exactly those of C92, and `C68_exact` shows that each of them is read beyond its end or never finished, in every state.

Theorems: `C68_arrive_partial`, `C68_exact`, `C68_finish_partial`, `C68_violated`.

Note: False exactly for the packets of C92, the match expressions of C47, and UDP port 0 (C68_violated, C68_exact); proved for all others.

### C69 Trace selection (proved)

`cmdTrace` from the text of the options to the mask; the list of events is in `Spec/Trace.lean`.

Theorems: `C69_selection`, `C69_line`, `C69_one`.

Note: Full.

### C70 A trace client gets what it selected (partial)

The trace server as a state machine with nine places; clients, other threads and the server are interleaved arbitrarily. Induction over the events of a session. Finding: a second client overwrites the mask of the first, and loses its own when the first one leaves.

Theorems: `C70_client_partial`, `C70_off_partial`, `C70_violated`, `C70_greeting`, `C70_early_partial`.

Note: Proved for one client at a time; false for two (C70_violated). C70_early_partial: what other threads trace between accept and the announcement comes before it; so do messages of the log if log is selected (C98_greeting).

### C71 A trace client that leaves does not stop the process (partial)

Invariant: a connection whose client has gone exists only while SIGPIPE is ignored, if clients leave while the server reads. Finding: SIGPIPE is made ignored after the first write to the connection.

Theorems: `C71_alive_partial`, `C71_again_partial`, `C71_violated`.

Note: False if the client leaves before the server ignores SIGPIPE (C71_violated); proved otherwise.

### C72 The trace server closes its own descriptors only (partial)

Invariant on the table of descriptors; the kernel may give any free number. Finding: the descriptor is closed twice.

Theorems: `C72_others_partial`, `C72_own`, `C72_violated`.

Note: False: double close (C72_violated); proved if nothing is opened between the two calls.

### C73 Socket addresses in text are read as documented (partial)

`parseAddress` on lists of characters and a list of bytes for the structure; `getaddrinfo` is a parameter with the five expectations in `Spec/Addr.lean` (`GaiOk`), which a simplified glibc is proved to meet. Findings: `strcpy` into `sun_path` without a check; `atoi` as the check of the port.

Theorems: `C73_tcp`, `C73_layout`, `C73_unix_partial`, `C73_refused_partial`, `C73_safe_partial`, `C73_violated`, `C73_glibc`.

Note: The code violates the statement (C73_violated): long unix names overflow sun_path, ports are taken modulo 2^32, an empty port is accepted.

### C74 nfqlb fwmark tells what nfqlb lb does (partial)

`cmdFwmark` from the option texts to the printed numbers, compared with `lbDecide` of `Model/Lb.lean` through the key of C14/C15. IPv6 packets are those without extension headers. Findings: bracketed IPv4 addresses (uninitialised or stale bytes are hashed).

Theorems: `C74_ipv4`, `C74_ipv6`, `C74_tier`, `C74_argv`, `C74_safe_partial`, `C74_argv_safe_partial`, `C74_violated`.

Note: The code violates the statement for IPv4 addresses in brackets (C74_violated); IPv6 without extension headers.

### C75 No command uses the NULL value of an option (proved)

The option tables of all 26 commands with the values their variables begin with, `parseOptionsOrDie` on top of the model of C56, and for each command the options whose pointers it uses without a test. By induction over what `getopt_long_only` reports: an accepted command line leaves each of these with a text. The table is checked as a whole by `decide +kernel`.

Theorems: `C75_value`, `C75_commands`, `C75_tested`.

### C76 Exactly the queues of --queue are served (partial)

`queues` is the text of `--queue` to the list of queue numbers, on the `sscanf`/`atoi` models of C36/C47; the number is cut to 16 bits where it is put in the netlink message. Findings in `C76_violated`.

Theorems: `C76_single`, `C76_range`, `C76_refused`, `C76_some`, `C76_argv`, `C76_violated`, `C76_exact`, `C76_number`.

Note: Proved for all decimal numbers and ranges up to 65535, in both orders and with a missing number. Not true of other texts: 5-7, 65538, 1:2:3 and texts without a number are accepted (C76_violated). Which texts with a colon are accepted or refused is characterised exactly (C76_exact). Texts without a colon: C76_number.

### C77 The program starts with a usable fragment table, or not at all (partial)

The two commands from the options to the table of fragments and the list of queues (`Model/Start.lean`), with the kernel as a parameter. The statements about later packets are inductions over the steps of the table (C30) with the sizes of the start. Findings: `--ft_size=0`, and products that overflow.

Theorems: `C77_started`, `C77_numbers`, `C77_no_tun`, `C77_fits`, `C77_safe_partial`, `C77_violated`.

Note: All parts proved; freedom from undefined behaviour only for sizes whose products fit in 32 bits and device names up to 15 characters: --ft_size=0 and --ft_frag=2900000 are accepted and undefined (C77_violated).

### C78 The tun device is opened under its name without leaks (partial)

`tun_alloc` and `get_mtu` with the set of open descriptors; `strcpy` of a name that does not fit is undefined behaviour. Findings: overflow for names of 16 and more characters, descriptor leak.

Theorems: `C78_tun_partial`, `C78_violated`, `C78_alloc`, `C78_mtu_exact`.

Note: Proved for names up to 15 characters; longer names overflow in get_mtu, and a failing request for the mtu leaks the socket (C78_violated). When reading the mtu overflows or leaks is characterised exactly (C78_mtu_exact).

### C79 nfqlb stats prints the counters as JSON (partial)

The text of `fragPrintStats` and the JSON reader of C61: the comma that is missing makes every output unreadable (induction over the members before it). The counters are followed through all histories of the fragment table.

Theorems: `C79_violated`, `C79_values_partial`, `C79_table_partial`, `C79_timeout_violated`.

Note: False as it stands: there is no comma after fragsDiscarded, so the output is never JSON (C79_violated, for all values). With the comma the object has all counters with their values. The counters that are about the history of the table are proved to be right, modulo 2^32; ttlMillis is the timeout only below 4295 ms.

### C80 nfqlb show shows exactly the active targets (proved)

The loops of `cmdShow` with a check for each access; a reader for the output in `Spec/Report.lean`; the invariant of C02 gives the lengths of the tables, C05 the set.

Theorems: `C80_show`, `C80_shown_iff_active`, `C80_shown_set`.

Note: The output is read back by a reader that knows nothing of the model.

### C81 Sessions of command lines give the load-balancers that the user asked for (partial)

The commands on the model of the options (C56, C75), `atoi`, and the tables (C02, C05), over a store of shared memory objects by name. The command lines are rendered by `Line.argv` in `Spec/Session.lean`, where also the effect of each line is defined on sets. Induction over the lines: the store represents the abstract load-balancers. Which object a name stands for is a parameter (`shm_open`). Finding: `activate x` activates target 0.

Theorems: `C81_session_partial`, `C81_show_partial`, `C81_no_crash_partial`, `C81_only_named`, `C81_violated`.

Note: Proved for tables of at most 65536 slots (C02) whose size fits (C06). Violated: words that are no numbers are taken as 0 (C81_violated).

### C82 The clients report what the server did (partial)

The messages of `flowDefine` and `matchParse` as functions of their own (`flowDefineErr`, `matchErr`); it is proved that there is a message exactly if the model of `flowDefine` (C41) refuses the flow, so `writeReply` never gets NULL, and what each message means (an expression of the syntax in C46, or a flow with only this option that is refused). The bytes of the answers are added to the server of C63; the clients are functions of the bytes and of how the kernel divides them. Findings: see the note; two of the five reasons in `matchParse` can never be given, because the regular expression refuses these texts before.

Theorems: `C82_answered`, `C82_set_partial`, `C82_reason_partial`, `C82_delete_partial`, `C82_list`, `C82_set_list_partial`, `C82_violated`.

Note: False as stated (C82_violated): the message about an item to match with 35 or more characters does not fit in the buffer of 64 bytes and has no NUL there, an answer in two pieces has none either (undefined behaviour); an accepted trace flow is not answered and the client exits with -1; wrong source ports are reported as Invalid dports. Proved: the answer is always defined; flow-set if the answer comes in one piece and items to match have at most 34 characters (unchanged flows after a failure only without udpencap); the reasons with this exception; flow-delete; the lists in any pieces.

### C83 The tables in arrays of fixed size are good and equal those in shared memory (proved)

The arrays as lists of the full lengths, with a check for each store and load. A simulation: a state of the model is the state of the model of `maglevdyn.c` with longer arrays, and whatever the latter does without undefined behaviour the former does as well; so the results of C02 to C04 carry over. `C83_limits` is by induction over the loops.

Theorems: `C83_init`, `C83_populate`, `C83_same`, `C83_limits`, `C83_not_prime`.

Note: For every MAX_M and MAX_N. That p is a prime is needed: C83_not_prime shows that populate leaves the array for 4 slots (the callers must choose a prime, nothing in lib/maglev.c checks it).

### C84 init on the shared memory of a running load-balancer is safe (partial)

A file of words, mappings in pages with bus errors behind the end of the file, `init` as a list of steps (truncate, writes in any pieces, the stores of C06) between which packets are handled, also between their two loads. Names and objects are separate, so that `delete` takes away the name only; invariant: an object without name is never changed.

Theorems: `C84_same_size_partial`, `C84_table_partial`, `C84_window_partial`, `C84_deleted`, `C84_release_partial`, `C84_truncated`, `C84_violated`, `C84_release`, `C84_load`.

Note: The statement is violated. Every init empties the file first, and a packet at this moment is a bus error for every table (C84_truncated); then the file holds uninitialised memory, which is used as an index; after an init with other dimensions the running load-balancer goes on with the old ones and uses fwmarks of no active target, or crashes on each packet when the file has become shorter; after the memset packets get fwmark 0; release unmaps by the new size (C84_violated). Proved: with the same dimensions the new table is used once init has ended; from the memset on there is no undefined behaviour and the target is 0 or none; after delete nothing changes for the running load-balancer. Memory is modelled in 4-byte words.

### C85 The log settings in shared memory are the same for all processes (partial)

A state machine with one step for each system call and access; the object is absent, empty or full. Invariant: once the object is full and nobody is about to create it, it stays so. `Agrees` in `Spec/LogShm.lean` says what a shared setting is.

Theorems: `C85_shared_partial`, `C85_first_partial`, `C85_loglevel`, `C85_violated`.

Note: Proved for all interleavings if the object exists, or if the first process creates it before another one starts. Violated if two processes start at the same time without the object: the one that comes later truncates the object that the first has mapped already (bus error at the next log message), a level that was set is lost, or a process dies with FAILED mapSharedData (C85_violated).

### C86 What is not copied of a packet does not matter (partial)

`Model/Copy.lean` has the copy range. Every read and every bounds check of the parsers and of the byte matches is below byte 141 when there are no extension headers (IPv4 headers have at most 60 bytes, also the quoted one), so the functions give equal results for a packet and its first k > 140 bytes (`Proof/Copy.lean`, `*_take`). For all packets the parsers are monotone: more bytes do not change a key (`*_more`). The flows of `flowlb` are those of any history of the server (`Hist` of C64), whose match expressions read in the headers by C47. Assumed of the kernel: it copies the first `copyRange mtu` bytes.

Theorems: `C86_lb_partial`, `C86_xlb_partial`, `C86_flowlb_partial`, `C86_key`, `C86_lb_all`, `C86_never_too_long`, `C86_violated`.

Note: Proved for all packets without IPv6 extension headers, for lb, xlb and flowlb; for all packets, that what is copied has no key or the key of the packet. Violated: a packet with extension headers longer than the mtu is dropped, and a later fragment longer than the mtu is stored and injected without its end, because the test for its length can never fail (C86_violated).

### C87 The netlink messages say what the program means (partial)

`Model/NlMsg.lean` builds the messages byte by byte in buffers of given size (too small: undefined). `Spec/NlMsg.lean` reads bytes as netlink messages (lengths, padding, attributes, big-endian fields) and says what a configuration message does in the kernel. The round trip of writing and reading is proved for all attributes (`attrs_enc`, `read_bytes`). The verdicts are those of the loop of C54, for any handler and any messages. Trusted: libmnl and libnetfilter_queue put attributes as they are documented, and the target is little-endian.

Theorems: `C87_setup_partial`, `C87_exit`, `C87_defined`, `C87_verdicts`, `C87_rcvbuf_partial`, `C87_violated`, `C87_setup_exact`.

Note: Set-up proved for queue numbers below 65536 (larger ones are cut: 65538 sets up queue 2), receive buffer for products below 2^32 (2863312 * 1500 wraps to a size of 0): both proved in C87_violated. Verdicts, room in the buffers and exits hold without restriction. C87_setup_exact: for all numbers, it is the number modulo 65536 that is set up.

### C88 From command lines and packets to the answers for the kernel (partial)

`Model/System.lean` puts the models together: `boot` (options as in C75, shared memory, start as in C77), `packet` (C54 callback, C49 handler with the fragment table, C87 bytes) and `line` (C81). `Spec/System.lean` says what is right in terms of what the user types, the packets' bytes and what the kernel reads: `Right` goes through the events with the set of load-balancers, the packets so far and those since the last command. The proof is by induction with the invariant that the store is as the session says, every value in the fragment table was given to an earlier fragment of this datagram, and all marks are of type int.

Theorems: `C88_whole_partial`, `C88_options_partial`, `C88_violated`, `C88_missing`.

Note: The statement is violated: one IPv6 first fragment that goes on with an extension header stops the program for ever, and an ICMP packet that is cut off is undefined behaviour (C88_violated); init and delete of the shared memory in use: C84. Proved for all other packets and lines: the whole path, with the default options for the fragment table (C88_whole_partial), and with any options with which the program starts (C88_options_partial; ft_size not 0). Messages are handled one after the other; each command runs to its end between two messages (C07, C33 for what happens in between). Statistics, trace, log and the injection of stored fragments are left out. If the shared memory of a table is missing, nfqlb lb exits (C88_missing).

### C89 From command lines, flow requests and packets to the answers of nfqlb flowlb (partial)

`Model/FlowSystem.lean` puts the models together: `boot` (options, shared memory of the tier, start as in C77), `packet` (C54 callback, C43 handler, fragment table, C87 bytes), `step` with the control server (C79) and command lines (C81). `Spec/FlowSystem.lean` says what is right in terms of what the user types: `Right` goes through the events with the load-balancers, the flows as the user defined them, the packets so far and those since the last change; `Chosen` is the choice of the flow by priority. The proof is by induction with an invariant that ties the flow set of the server, its load-balancers and its reference counts to the user's flows; requests go through the client's text and back (C61, C62), the choice of the flow is `C39_implements`.

Theorems: `C89_whole_partial`, `C89_options_partial`, `C89_violated`.

Note: The statement is violated: the IPv6 first fragment of C88 stops the program, and a refused flow-set for a flow that exists with another target leaves the flow with a load-balancer that was freed; the next packet is undefined behaviour (C89_violated). Proved for all other events: the whole path with the default options for the fragment table (C89_whole_partial) and with any options with which the program starts (C89_options_partial; ft_size not 0). Left out: flows for SCTP in UDP (C42), UDP packets to port 0 (they leak a reference, C43), init and delete of shared memory in use (C84), overlapping requests and packets (C07, C33, C72).

### C90 The fragment table loses nothing as long as there is room (proved)

`Spec/FragIdeal.lean` is the ideal table: a list of datagrams, with `Fits` for the bound. The proof is a simulation: what the real table knows about each datagram that is not old is what the ideal one remembers, and every entry the real table still holds, old or not, is remembered by the ideal one; so the number of extra buckets, objects and buffers in use is bounded by the ideal table, and the error branches of `fragDataLookup` and `storeFragment` are not taken.

Theorems: `C90_room`, `C90_few`.

Note: C90_few: at most ft_buckets datagrams and ft_frag later fragments in the whole history always fit. Calls do not overlap in time (C33).

### C91 nfqlb xlb: all that a client sends to an address goes to one target (partial)

The parser, the tables, the netlink messages, the command lines and the start of the program put together (`Verif/Model/Xlb.lean`), invariant over all events; the key of each kind of packet is shown to have the addresses of the flow. Finding: ICMPv6 time exceeded is not treated as an error (iputils.c:300-301), unlike the one of IPv4.

Theorems: `C91_whole_partial`, `C91_options_partial`, `C91_violated`.

Note: Proved for packets that are not cut off and do not make the parser loop, with init and delete of other shared memory only. False as stated (C91_violated): ICMPv6 errors of type 3 (time exceeded) are sent by their own addresses, not by those of the packet they are about; the parser loops for first IPv6 fragments that go on with an extension header, and reads beyond the end of packets that are cut off in ICMP.

### C92 Exactly which packets the parser cannot cope with (proved)

`Verif/Spec/PacketExact.lean` describes the bad packets by their bytes (`Cut4`, `Cut6`, `Circle6`; the unchecked walk is the inductive relation `Follow`). The checked loop is shown to find exactly the chain `ChainEnd`, the unchecked loop to end in exactly one of three ways (ends, leaves the packet, circles) within `length + 2` turns; the rest is case analysis over all branches of the parser.

Theorems: `C92_ipv4`, `C92_ipv6`, `C92_turns`.

Note: If-and-only-if characterisation of the violations of C12 and C13.

### C93 Fragments that overtake the first fragment are not lost (proved)

The packet handlers of C49 with a memory of packets, so that stored items have bytes. The table is replaced by the ideal table of C90 (refinement, one packet at a time), then the history is cut at the first fragment and each part is an induction. Without a tun device, or without room, the fragments are lost; both are shown as examples.

Theorems: `C93_through`, `C93_only`, `C93_ipv4`.

Note: Calls do not overlap in time (see C33 for threads). Room is counted over the whole history, because the table is never cleaned as a whole (C94). When the first fragment has no target it is not registered, and what waits for it is lost, as is the datagram. That packets written to the tun device come back is the kernel's part.

### C94 Datagrams that timed out take no room from others (partial)

The model of C90. After `ctStats` no entry is older than the ttl, so the table is the ideal one that knows nothing; for the violation the model is evaluated with a variable for the time.

Theorems: `C94_stats_partial`, `C94_violated`.

Note: False for the load-balancers: old entries are only looked at when a packet with a key in the same bucket comes, and the one function that cleans the whole table (ctStats) is never called by them. A fragment whose first fragment never comes can keep its place for ever, and others are refused for lack of room (C94_violated, for every time). It holds once the statistics are read (C94_stats_partial).

### C95 Clients reach the server with their address, and load-balancers can be started again (partial)

A host with any number of processes: state = listening sockets and connections in TIME_WAIT; the kernel's rules are a parameter with stated expectations (`NetOk`), met by a concrete kernel. Invariant by induction over the history: listening addresses exclude each other, and they are those that the running starts asked for.

Theorems: `C95_flow`, `C95_trace`, `C95_only`, `C95_default`, `C95_second`, `C95_again_partial`, `C95_violated`, `C95_violated_port0`.

Note: Proved for unix sockets, the default. False for TCP addresses: SO_REUSEADDR is not set, so after an answer to flow-list (the server closes first) nfqlb flowlb can not be started again until the kernel has forgotten the connection (C95_violated, for every host and port). With port 0 the server runs but no client reaches it (C95_violated_port0). Also by C95_second: two load-balancers in one network namespace need different --trace_address, or the second ends.

### C96 The clients print what arrives, or say that they could not (partial)

Model `CopyOut`: the kernel gives the pieces, the end and the results of `write`; `printf` is buffered unless the output is a terminal. Induction over the pieces. `C96_terminal` composes with `C70_client_partial`, `C96_client` says that the loop is that of C82 if everything is taken.

Theorems: `C96_trace`, `C96_terminal`, `C96_list_partial`, `C96_client`, `C96_violated`, `C96_mask`.

Note: nfqlb trace on a terminal proved completely, also from the trace server on (with C70). The list commands only for outputs that take everything: they ignore the result of write, so that a gap in the output goes with exit code 0; and if the output is no terminal, trace prints the mask last, or never if it is ended by a signal (C96_violated).

### C97 The trace shows the packet that was matched (partial)

`Shows` in Spec/TraceText.lean is the text with holes; protocols by a table, addresses by the grammar of RFC 4291 (`Addr6`, the same as for C61). From `handle_facts` (Proof/Trace.lean) the text begins with that of `traceMatch`; the flow comes from the theorems of C14, C15 and C18, the ICMP line from following `printIcmp` over the packet's fields.

Theorems: `C97_ipv4`, `C97_ipv6_partial`, `C97_icmp`, `C97_icmp6_partial`, `C97_error`, `C97_error6_partial`, `C97_others`, `C97_violated`.

Note: Proved for IPv4 with TCP/UDP/SCTP, with ICMP, with ICMP errors that quote a packet with ports, with all other protocols, and for the same over IPv6 without extension headers. False for IPv6 with extension headers: wrong ports are shown, or nothing (C97_violated; reason: C15). ICMPv6 errors 3 and 4 are shown with the addresses of the message, not of the quoted packet (C18).

### C98 Each message is logged once, and goes to the clients that want it (partial)

The trace server of C70 extended by the level, standard error with the origin of each line, and messages that are between the two halves of logp. Simulation by the machine of C70, in which messages are lines that are written late; invariant for the file; permutation of what the client got and what was logged by induction over the session. Findings: before the first client the trace goes to standard error; a message of the server comes before the announcement.

Theorems: `C98_log`, `C98_client`, `C98_refines`, `C98_greeting`, `C98_once_partial`, `C98_alive_partial`, `C98_violated`, `C98_message`, `C98_idle`, `C98_transcript`.

Note: The messages of the threads are on standard error once and in order, always (C98_log), a client gets those it wants exactly once (C98_client, up to those that are about to be written, in an order in which threads overtake each other). False: until the first client is accepted tracefile is stderr, so what is selected is written there, and messages twice (C98_violated); proved afterwards (C98_once_partial). With log selected a message of the trace server comes before the announcement (C98_greeting). Missing in C98_alive_partial: clients that leave at other times (as C71). What the message of the server before the announcement says is C98_message. The messages of the server itself: C98_transcript, C98_idle.

### C99 Destroying a fragment table gives back everything it holds (partial)

The function is modelled with the arithmetic of C (undefined on overflow) and with wrapping arithmetic, and with the value on the stack as a parameter. The invariant of C30 is kept by collecting at any time, also an earlier one; nothing is left after collecting a ttl after the last operation; destroying the tracker equals collecting at the last moment of 64 bits.

Theorems: `C99_frees_partial`, `C99_check_partial`, `C99_violated`, `C99_clock`, `C99_time`.

Note: False as it stands: MAXTIME seconds are multiplied with 10^9 in signed arithmetic, so every call is undefined, and now.tv_nsec is not initialised, so that even with wrapping arithmetic the assertions of SANITY_CHECK may fail (C99_violated). With wrapping arithmetic everything comes back, whatever tv_nsec is, since ctDestroy collects again with UINT64_MAX (C99_frees_partial); with a valid tv_nsec the assertions hold (C99_check_partial). Times before the year 2262 do not overflow (C99_clock). Only tests call the function.

### C100 Starting with a range of queues sets up exactly these queues, however the threads overlap (proved)

A message acts on each queue by itself (config_local) and on no other queue than its own (config_other); the messages for the protocol family act on none. Induction over the shuffle: for each queue only the messages of one thread count, in their order, and for these C87_setup_exact gives the result.

Theorems: `C100_range`, `C100_threads`.

Note: C100_threads is about any list of numbers that are different modulo 65536, C100_range adds the command line (C76). What the kernel does with a message is the small specification of C87.

### C101 Load-balancers do not disturb each other through the statistics in shared memory (partial)

The objects in shared memory and the processes, with a start in three steps (`O_TRUNC`, zeros, statistics of the table), lookups by the size in the memory, and increments (`Model/FtShm.lean`). Invariant over all histories with names of their own: the memory of a running load-balancer has its sizes; a step changes it by the increments of this load-balancer only. Finding: with the same name, which is the default, a running load-balancer divides by 0 or leaves its array of buckets.

Theorems: `C101_alone_partial`, `C101_stats_partial`, `C101_exact`, `C101_violated`, `C101_none`, `C101_default`.

Note: Proved if no two load-balancers have the same --ft_shm. Violated otherwise, and lb and flowlb have the same default name: the size of the hash table is read from the shared memory for each packet (conntrack.c:102), so that the start of a second load-balancer makes the first one divide by 0, or, if the table of the second one is larger, take a bucket behind the end of its own (C101_violated, for all sizes). When this happens is characterised exactly (C101_exact).

## Findings that belong to no single property

* `lb` and `flowlb` return `notargets_fwmark` for a first fragment without
  registering it in the fragment table.
* `raHandleFragment` refuses legal 8-byte extension headers and computes the
  length of others without +1; the payload length of an IPv4 packet wraps if
  `ihl*4 > len`.
* A fragment that arrives while fragments are stored switches off reassembly for
  that datagram.
* Without inject function stored fragments are freed silently and not counted.
* `fragTableDestroy`: `MAXTIME*1e9` overflows, `tv_nsec` is not initialised (`C99_violated`).
* Ports "0-65535" are refused in a flow, and port 0 never matches a port set.
* The remote reader ends at any line that starts with `eoc:`; values that are no
  numbers are 0; a second value for a field is ignored; the length of name,
  priority and udpencap is not tested by the client, so that a long name injects
  further fields (`C51_long_name`).
* Requests: the trace request without name dereferences NULL; a refused
  redefinition leaks the user reference.
* `createSharedData` leaks the file descriptor on failure, `mapSharedData` on
  success. `write()` returning 0 makes `write_full` loop without pause.
* `verifyRequiredOptions` shifts 1 by 31 (signed) for the 32nd option.
