{"id": "C01", "title": "primeBelow returns the largest prime not above its argument", "statement": "For every n >= 2, primeBelow(n) (and `nfqlb primebelow n`) returns a prime p with p <= n and p <= 994009, and no larger prime satisfies both bounds; for n < 2 the program terminates with an error. The search always terminates and never hits the 'n too large' abort.", "quantifier": "all 32-bit unsigned n", "why_tests_cant": "There are 2^32 inputs and primality of the result is a number-theoretic fact about a trial-division table; tests sample a handful of values.", "anchors": ["src/lib/prime.c: primeBelow, isPrime, primes[]", "src/lib/prime.h"]}
{"id": "C02", "title": "Every lookup slot refers to an active target after (re)configuration", "statement": "After initialisation and any (de)activation the lookup table is rebuilt without reading outside the permutation rows, the rebuild terminates, and: if at least one target is active every one of the M slots holds the index of an active target; if none is active every slot is -1. It holds for every table size M that `init` accepts.", "quantifier": "all M, N, all random offset/skip draws, all active arrays", "why_tests_cant": "The number of (M,N,permutation,active) configurations is astronomically large; the loop has no explicit bound, its termination and memory safety depend on each row being a permutation of 0..M-1.", "anchors": ["src/lib/maglevdyn.c: magDataDyn_init, magDataDyn_populate", "src/nfqlb/cmdShm.c: cmdInit"]}
{"id": "C03", "title": "Load is spread evenly over active targets", "statement": "After (re)configuration any two active targets own numbers of lookup slots that differ by at most one, i.e. each owns floor(M/k) or ceil(M/k) slots when k targets are active.", "quantifier": "all table sizes, permutations and active arrays with k >= 1 active targets", "why_tests_cant": "A fairness bound over all permutations; tests only measure a few random tables statistically.", "anchors": ["src/lib/maglevdyn.c: magDataDyn_populate"]}
{"id": "C04", "title": "The lookup table depends only on which targets are active, not on the command history", "statement": "After any sequence of activate/deactivate commands, the lookup table equals the one computed from scratch for the present set of active indices: two load-balancers created with the same M, N (same permutations) that ended up with the same active indices map every packet hash to the same index, whatever the order of commands that led there and whatever fwmark values are used.", "quantifier": "all histories of activate/deactivate commands on two instances", "why_tests_cant": "Histories are unbounded; equality must hold for each pair of histories that meets in the same active set.", "anchors": ["src/nfqlb/cmdConfig.c: cmdActivate, cmdDeactivate", "src/lib/maglevdyn.c: magDataDyn_populate"]}
{"id": "C05", "title": "activate/deactivate by fwmark have set semantics", "statement": "`activate fw` makes fw an active target if it already was or if there is a free slot, never disturbs another active target and changes nothing if fw is already active; `deactivate fw` removes fw so that afterwards no packet is sent to fw, and disturbs no other target. Both commands are idempotent. An index outside 0..N-1 is refused and changes nothing.", "quantifier": "all active tables reachable by any sequence of commands, all fwmarks", "why_tests_cant": "Needs an invariant (each fwmark in at most one slot) over unbounded command histories, and with --index the invariant can be broken.", "anchors": ["src/nfqlb/cmdConfig.c: cmdActivate, cmdDeactivate"]}
{"id": "C06", "title": "Shared-memory layout of the Maglev tables is in bounds and non-overlapping", "statement": "For the M and N accepted by `init`, the length computed for the shared memory covers the header, the lookup array, all N permutation rows and the active array as they are mapped, and these regions do not overlap.", "quantifier": "all M and N accepted by init", "why_tests_cant": "Depends on 32-bit wrap-around for large M*N; tests use small tables.", "anchors": ["src/lib/maglevdyn.c: magDataDyn_len, magDataDyn_map", "src/nfqlb/cmdShm.c: initShm, cmdInit"]}
{"id": "C07", "title": "A packet handled while the target table is being rewritten never gets a bogus fwmark", "statement": "A packet-handling thread reads the lookup and active arrays in shared memory without lock while another process runs activate/deactivate. For every interleaving the packet gets a fwmark that was active before or after the command, or the 'no targets' outcome; no index outside the arrays is ever used.", "quantifier": "all interleavings of the reader's two loads with the writer's individual stores, all tables and commands", "why_tests_cant": "Schedules cannot be enumerated by tests; windows are nanoseconds wide.", "anchors": ["src/nfqlb/cmdLb.c: packetHandleFn", "src/nfqlb/cmdFlowLb.c: packetHandleFn", "src/extension/cmdXlb.c: packetHandleFn, FW", "src/nfqlb/cmdConfig.c: cmdActivate, cmdDeactivate", "src/lib/maglevdyn.c: magDataDyn_populate"]}
{"id": "C08", "title": "A crash of `init` at any point leaves no half-initialised table in use", "statement": "If `init` is interrupted at any point, a load-balancer that maps the shared memory afterwards either cannot open it or sees a completely initialised table (M >= 3, all slots -1, all targets inactive).", "quantifier": "all crash points of init between individual stores", "why_tests_cant": "Crash points are not enumerable by unit tests.", "anchors": ["src/nfqlb/cmdShm.c: initShm", "src/lib/shmem.c: createSharedData, write_full", "src/lib/maglevdyn.c: magDataDyn_init"]}
{"id": "C09", "title": "Flow affinity and target validity for unfragmented packets (lb)", "statement": "While the configuration is unchanged, all unfragmented packets with the same hash key get the same fwmark from `lb`, and that fwmark is the mark of an active target, or notargets_fwmark exactly when no target is active.", "quantifier": "all packets, all reachable target tables", "why_tests_cant": "Quantifies over all packet contents and all configurations.", "anchors": ["src/nfqlb/cmdLb.c: packetHandleFn", "src/lib/hash.c: hashKey"]}
{"id": "C10", "title": "SCTP ports-only hashing is independent of addresses", "statement": "With hash_mode=1 the target chosen for an SCTP packet is a function of its source and destination port only, so all paths of a multi-homed association reach the same target; for any other protocol, and in hash_mode 0, the hash is the djb2 hash of the whole 40-byte key. The hash used for the lb-tier is a function of the two addresses only.", "quantifier": "all keys and hash modes", "why_tests_cant": "Quantifies over all 320-bit keys.", "anchors": ["src/lib/hash.c: djb2_hash, hashKey, hashKeyAddresses", "src/lib/conntrack.h: struct ctKey"]}
{"id": "C11", "title": "All fragments of a datagram are handled by one load-balancer and redirected at most once", "statement": "In an lb-tier where all load-balancers have the same tier table, any fragment (first or not) of a datagram is sent to the same tier member by every load-balancer, and that member handles it locally instead of redirecting it again.", "quantifier": "all fragments, all tier tables, all members", "why_tests_cant": "Quantifies over all packets and all tier configurations; loops would only show up in multi-node tests.", "anchors": ["src/nfqlb/cmdLb.c: packetHandleFn", "src/nfqlb/cmdFlowLb.c: packetHandleFn", "src/lib/hash.c: hashKeyAddresses"]}
{"id": "C12", "title": "Packet parsing never reads outside the packet", "statement": "getHashKey only reads bytes inside the received packet, whatever the packet contains and however short it is.", "quantifier": "all byte strings, all ethertypes, all udpencap ports", "why_tests_cant": "Inputs are attacker controlled; the number of packets is unbounded and reads a few bytes past a buffer do not fail tests.", "anchors": ["src/lib/iputils.c: getHashKey, getHashKey4, getHashKey6 and ICMP helpers, IN_BOUNDS"]}
{"id": "C13", "title": "Packet parsing terminates on every packet", "statement": "getHashKey returns after a number of steps bounded by the packet length, whatever the packet contains.", "quantifier": "all byte strings, all ethertypes", "why_tests_cant": "A looping input must be found among 2^12000 packets.", "anchors": ["src/lib/iputils.c: getHashKey (IPv6 extension header loops)"]}
{"id": "C14", "title": "IPv4 five-tuple extraction", "statement": "For every well-formed unfragmented IPv4 packet carrying TCP, UDP or SCTP (any options, any payload), the key holds the IPv4-mapped source and destination address, the protocol and the source and destination port of the packet, and the result code reports 'not a fragment'.", "quantifier": "all well-formed packets, any header length 20..60, any payload", "why_tests_cant": "Quantifies over all packets; tests use a few captures.", "anchors": ["src/lib/iputils.c: getHashKey"]}
{"id": "C15", "title": "IPv6 five-tuple extraction, also behind extension headers", "statement": "For every well-formed unfragmented IPv6 packet carrying TCP, UDP or SCTP directly or after hop-by-hop, routing or destination option headers (RFC 8200 length encoding), the key holds the addresses, protocol and ports of the packet.", "quantifier": "all well-formed packets with any chain of extension headers", "why_tests_cant": "Quantifies over all header chains and contents.", "anchors": ["src/lib/iputils.c: getHashKey (IPv6), ipv6IsExtensionHeader"]}
{"id": "C16", "title": "All fragments of a datagram get the same fragment-table key, different datagrams different keys", "statement": "The key under which the first fragment of a datagram is registered equals the key looked up by each later fragment with the same source, destination and identification; fragments that differ in source, destination or identification have different keys.", "quantifier": "all pairs of fragments (IPv4 and IPv6), any payload", "why_tests_cant": "Relational property over pairs of arbitrary packets.", "anchors": ["src/lib/iputils.c: getHashKey", "src/nfqlb/cmdLb.c: packetHandleFn", "src/nfqlb/cmdFlowLb.c: packetHandleFn"]}
{"id": "C17", "title": "Ports of a first fragment are the ports of the datagram", "statement": "The key computed for the first fragment of a TCP/UDP/SCTP datagram carries the same addresses, protocol and ports as an unfragmented packet of the same flow, so that both are sent to the same target.", "quantifier": "all first fragments, IPv4 and IPv6", "why_tests_cant": "Relational property over arbitrary packets.", "anchors": ["src/lib/iputils.c: getHashKey"]}
{"id": "C18", "title": "ICMP errors follow the flow they refer to", "statement": "The key computed for an ICMP/ICMPv6 'destination unreachable' or 'packet too big' message that quotes a packet sent by a target back to a client equals the key of the client's packets in that flow, so the error reaches the same target.", "quantifier": "all flows, all quoted packets, all ICMP senders", "why_tests_cant": "Relational property over arbitrary packets.", "anchors": ["src/lib/iputils.c: getHashKey ICMP inner header handling"]}
{"id": "C19", "title": "SCTP in UDP is hashed as the inner SCTP flow", "statement": "With UDP encapsulation configured on port e, a UDP packet to port e that carries SCTP gets the same key as the plain SCTP packet with the same addresses and inner ports; a UDP packet to any other port is not treated as encapsulated.", "quantifier": "all packets and ports e", "why_tests_cant": "Relational property over arbitrary packets.", "anchors": ["src/lib/iputils.c: getHashKey udpencap handling"]}
{"id": "C20", "title": "The connection tracker is a TTL map", "statement": "Under non-decreasing time stamps ctLookup/ctInsert/ctRemove behave as a map from key to (value, last reference, ttl): a lookup returns the value most recently inserted for exactly that key iff it has not been removed and was last referenced no longer than its ttl ago, and refreshes it; an insert of a live key is refused with 1; other keys are not affected by operations on colliding keys (except that no extra room may be left).", "quantifier": "all finite histories of operations, all hash collisions, all table sizes and bucket allocators", "why_tests_cant": "Histories and collision patterns are unbounded.", "anchors": ["src/lib/conntrack.c: ctLookup, ctInsert, ctInsertWithTTL, ctRemove, ctLookupBucket, bucketGC"]}
{"id": "C21", "title": "Every value handed to the connection tracker is released exactly once", "statement": "For every history, each value accepted by ctInsert is passed to the user's free function exactly once: when removed, when garbage collected or when the table is destroyed; no value still returned by lookups has been freed, and values refused by ctInsert are never freed by the tracker.", "quantifier": "all finite histories, ending in destroy", "why_tests_cant": "Absence of leaks and double frees over unbounded histories.", "anchors": ["src/lib/conntrack.c: bucketGC, ctRemove, ctDestroy, ctInsertWithTTL"]}
{"id": "C22", "title": "Extra buckets are returned and the limit is respected", "statement": "The number of extra buckets held by the tracker equals the number of stored entries that are not in a main slot; every bucket taken from the allocator is given back when its entry is removed or collected; an insert fails with -1 only if an extra bucket was needed and the allocator had none, and then no entry is lost or added.", "quantifier": "all finite histories", "why_tests_cant": "Resource balance over unbounded histories.", "anchors": ["src/lib/conntrack.c: ctInsertWithTTL, ctRemove, bucketGC", "src/lib/fragutils.c: bucketPoolAllocate, bucketPoolFree"]}
{"id": "C23", "title": "A live entry survives concurrent access from several threads", "statement": "An entry whose last reference is not older than its ttl is found by every lookup, also when several threads that each read the clock before taking the lock access the same entry in any order.", "quantifier": "all interleavings of lookups with time stamps taken by different threads", "why_tests_cant": "The failing schedule is a nanosecond window.", "anchors": ["src/lib/conntrack.c: ctLookup, ctLookupBucket", "src/nfqlb/cmdLb.c: packetHandleFn (clock_gettime before the lock)"]}
{"id": "C24", "title": "Tracker statistics are exact", "statement": "The number of active entries reported by ctStats is the number of live entries at that time; accepted inserts equal active entries plus removed plus garbage-collected ones, and lookups, rejected inserts and collisions count exactly the corresponding events.", "quantifier": "all finite histories", "why_tests_cant": "Counters must be exact after any history.", "anchors": ["src/lib/conntrack.c: ctStats, struct ctStats counters"]}
{"id": "C25", "title": "An item pool never hands out an item twice", "statement": "itemAllocate returns an item that is not in use by anyone, or NULL exactly when all items are in use; items given back (singly or as linked lists) become available again; the reported number of free items is exact; the total number of items never changes.", "quantifier": "all histories of allocate/allocate-with-next/free by well-behaved clients, all list shapes", "why_tests_cant": "Unbounded histories of a linked-list structure.", "anchors": ["src/lib/itempool.c: itemPoolCreate, itemAllocate, itemAllocateWithNext, itemFree, itemPoolStats"]}
{"id": "C26", "title": "Pools of size zero can be created and destroyed", "statement": "Creating an item pool with any size, including 0, and destroying it releases exactly the memory that was allocated.", "quantifier": "all sizes", "why_tests_cant": "Uninitialised memory makes the outcome depend on what malloc returns.", "anchors": ["src/lib/itempool.c: itemPoolCreate, itemPoolDestroy"]}
{"id": "C27", "title": "The reassembler reports completion exactly when all bytes have arrived", "statement": "For a set of fragments fed in any order, the reassembler answers 'complete' if and only if the last fragment has been seen and every byte below its end is covered by some fragment seen so far.", "quantifier": "all sequences of fragments, any order, duplicates and overlaps, any pool content", "why_tests_cant": "Arrival orders and overlaps are unbounded; memory recycled from earlier packets matters.", "anchors": ["src/lib/reassembler.c: handleFragment, raHandleFragment"]}
{"id": "C28", "title": "The reassembler survives any traffic", "statement": "No sequence of fragments makes the reassembler dereference a null pointer or loop for ever, also when its pool of holes is exhausted, and each hole taken from the pool is given back when the packet is finished.", "quantifier": "all fragment sequences and pool sizes", "why_tests_cant": "Exhaustion depends on interleavings of many packets.", "anchors": ["src/lib/reassembler.c: handleFragment, raNew, raDestroy"]}
{"id": "C29", "title": "All fragments follow the first fragment", "statement": "After the first fragment of a datagram has been registered with a forwarding value, every later fragment with the same key gets exactly that value, as long as no gap between consecutive fragments exceeds the ttl and the datagram has not been completely reassembled; a second first fragment cannot change the value.", "quantifier": "all histories mixing any number of datagrams, within the ttl", "why_tests_cant": "Unbounded histories with hash collisions and exhaustion of pools.", "anchors": ["src/lib/fragutils.c: fragInsertFirst, fragGetValue, fragGetValueOrStore, fragDataLookup"]}
{"id": "C30", "title": "Stored fragments are delivered exactly once and never leak", "statement": "A fragment that arrives before the first fragment is stored and later handed out exactly once with the first fragment of the same datagram, or is discarded and counted; the number of free fragment buffers plus the number of stored ones is constant.", "quantifier": "all histories", "why_tests_cant": "Unbounded histories with exhaustion and expiry.", "anchors": ["src/lib/fragutils.c: fragGetValueOrStore, fragInsertFirst, fragDataUnlock, handleFirstFragment"]}
{"id": "C31", "title": "A datagram that lost a fragment is dropped as a whole", "statement": "When a fragment could not be stored because the fragment store was exhausted, all fragments stored for that datagram are discarded and every later fragment of it, also the first, is refused until the entry has expired.", "quantifier": "all histories", "why_tests_cant": "Unbounded histories.", "anchors": ["src/lib/fragutils.c: fragGetValueOrStore (poison), fragInsertFirst"]}
{"id": "C32", "title": "The fragment ttl is the configured one", "statement": "A fragment table created with a timeout of t milliseconds keeps entries for t milliseconds after the last reference.", "quantifier": "all t that fit in the argument type", "why_tests_cant": "Arithmetic wrap-around occurs only for values tests do not use.", "anchors": ["src/lib/fragutils.c: fragTableCreate", "src/lib/conntrack.c: ctCreate"]}
{"id": "C33", "title": "Reference counting of fragment data is safe in all schedules", "statement": "With several threads inserting, looking up and expiring entries of the same datagram in any interleaving, the state of a datagram is never used after it has been given back to its pool and is given back exactly once.", "quantifier": "all interleavings of any number of threads", "why_tests_cant": "Race windows of a few instructions.", "anchors": ["src/lib/fragutils.c: fragDataLookup, fragDataLock, fragDataUnlock, fragInsertFirst, fragGetValueOrStore"]}
{"id": "C34", "title": "A range set contains exactly the values that were added", "statement": "After adding ranges and an update, rangeSetIn(v) is true iff v lies in one of the ranges added since creation; ranges that are reversed or outside the limits are refused and add nothing.", "quantifier": "all lists of ranges (overlapping, adjacent, up to UINT_MAX), all values v", "why_tests_cant": "All subsets of a 32-bit universe.", "anchors": ["src/lib/rangeset.c: rangeSetAdd, rangeSetUpdate, rangeSetIn"]}
{"id": "C35", "title": "A range set is stored minimally and balanced", "statement": "After an update the stored ranges are sorted, disjoint and non-adjacent, their number is minimal and a lookup visits at most floor(log2(size))+1 nodes.", "quantifier": "all lists of ranges", "why_tests_cant": "Structural invariant for all inputs.", "anchors": ["src/lib/rangeset.c: rangeSetUpdate, insertSorted, rangeSetSize"]}
{"id": "C36", "title": "Printing a range set and parsing the result gives the same set", "statement": "The text printed for a range set, when there is room for it, parses to a set with the same members; nothing is written outside the buffer, also when it is too small.", "quantifier": "all range sets, all buffer sizes", "why_tests_cant": "Quantifies over all sets and buffer lengths.", "anchors": ["src/lib/rangeset.c: rangeSetString, printTree, rangeSetAddStr"]}
{"id": "C37", "title": "A range set can be extended and updated again", "statement": "Adding more ranges after an update and updating again gives the set of all ranges added so far.", "quantifier": "all sequences of add and update", "why_tests_cant": "Unbounded histories; failure shows as use of freed or cyclic memory.", "anchors": ["src/lib/rangeset.c: rangeSetUpdate, insertSorted, storeNodes"]}
{"id": "C38", "title": "CIDR matching is prefix equality", "statement": "A flow address entry a/p matches an address x iff the first p bits of a and x are equal (IPv4 entries are compared inside ::ffff:0:0/96 so that IPv4 entries never match other IPv6 addresses); a prefix length larger than the address family allows is refused.", "quantifier": "all addresses, all prefix lengths including 0, 32, 64, 96, 128, any text given for the length", "why_tests_cant": "2^256 address pairs for every length.", "anchors": ["src/lib/flow.c: parseCidrs, addrInCidr"]}
{"id": "C39", "title": "A flow matches iff all of its criteria hold", "statement": "A flow matches a packet iff the destination is in one of its destination networks (or it has none), the source in one of its source networks (or none), the protocol is listed (or none listed), the ports are in the port sets (or none) and the byte match holds (or none); with promiscuous ping an ICMP packet only needs an address match.", "quantifier": "all flows and keys", "why_tests_cant": "Quantifies over all flows and packets.", "anchors": ["src/lib/flow.c: flowMatch"]}
{"id": "C40", "title": "Flow lookup selects a matching flow of highest priority", "statement": "flowLookup returns the target of a flow that matches the packet and no matching flow with a target has higher priority; it returns nothing iff no flow with a target matches.", "quantifier": "all flow sets built by any history of define/delete with any priorities, any order qsort may produce, all packets", "why_tests_cant": "Unbounded histories; qsort leaves ties unspecified.", "anchors": ["src/lib/flow.c: flowLookup, flowDefine, cmpFlows"]}
{"id": "C41", "title": "Flow definition is atomic and names are unique", "statement": "flowDefine either succeeds and the named flow has exactly the new definition while all other flows are unchanged, or returns an error and the flow set is unchanged; at no time do two flows have the same name; flowDelete removes exactly the named flow and returns its target.", "quantifier": "all histories of define/delete with all arguments", "why_tests_cant": "Unbounded histories with errors in any argument.", "anchors": ["src/lib/flow.c: flowDefine, flowDelete, flowLookupName"]}
{"id": "C42", "title": "UDP-encapsulated SCTP is load-balanced by the SCTP flow", "statement": "When a flow with udpencap=e is configured and matches, a UDP packet to port e within the flow's addresses is handled as SCTP by that flow, also when flows of lower priority would match the UDP packet.", "quantifier": "all flow sets, all packets", "why_tests_cant": "Depends on the combination of several flows.", "anchors": ["src/nfqlb/cmdFlowLb.c: packetHandleFn, cmd_set", "src/lib/flow.c: flowLookup"]}
{"id": "C43", "title": "Load-balancer references balance", "statement": "After any history of set, delete and packet handling, the reference count of each load-balancer equals the number of flows that refer to it plus the packets in progress: a load-balancer that some flow refers to is never freed, and one that no flow refers to is freed.", "quantifier": "all histories of successful and failing commands and packets", "why_tests_cant": "Unbounded histories with failures in any step.", "anchors": ["src/nfqlb/cmdFlowLb.c: cmd_set, cmd_delete, loadbalancerLock, loadbalancerRelease, loadbalancerFindOrCreate, packetHandleFn"]}
{"id": "C44", "title": "Releasing a load-balancer is safe against concurrent lookup by name", "statement": "When a packet thread drops the last reference while the control thread looks up the same target by name, in any interleaving no thread obtains a load-balancer that is being freed.", "quantifier": "all interleavings of two threads", "why_tests_cant": "Race window of a few instructions.", "anchors": ["src/nfqlb/cmdFlowLb.c: loadbalancerRelease, loadbalancerFindOrCreate"]}
{"id": "C45", "title": "Control requests never crash the load-balancer", "statement": "Any request received on the control socket is executed or refused with an error; missing fields and any names are handled.", "quantifier": "all requests, all flow sets", "why_tests_cant": "Field combinations and states are unbounded.", "anchors": ["src/nfqlb/cmdFlowLb.c: flowThread, cmd_set, cmd_delete, traceHandleFlowCmd", "src/lib/flow.c: flowLookupName"]}
{"id": "C46", "title": "A byte-match expression is evaluated as written", "statement": "An accepted match expression matches a packet iff for each item the big-endian number in the given bytes of the transport header, masked if a mask is given, equals the given value, for every packet whose transport header is complete.", "quantifier": "all expressions and packets", "why_tests_cant": "All expressions times all packets.", "anchors": ["src/lib/match.c: matchParse, matchMatches, matchesItem"]}
{"id": "C47", "title": "Evaluating an accepted byte-match expression stays inside the transport header", "statement": "Every expression accepted by the parser only reads bytes inside the transport header of the packet; expressions that would read beyond it are refused.", "quantifier": "all expressions, all packets", "why_tests_cant": "Wrap-around occurs for offsets near 2^32 only.", "anchors": ["src/lib/match.c: matchParse, matchesItem, l4headerIpv4, l4headerIpv6"]}
{"id": "C48", "title": "Printed match expressions parse back to the same expression", "statement": "The text printed for an accepted match expression is accepted by the parser and gives the same items.", "quantifier": "all accepted expressions", "why_tests_cant": "Round trip over an infinite set.", "anchors": ["src/lib/match.c: matchString, matchParse"]}
{"id": "C49", "title": "The verdict for fragments agrees with the first fragment (end to end)", "statement": "For every history of packets handled by one load-balancer within the ttl, each non-first fragment that is forwarded gets the fwmark given to the first fragment of its datagram, and a fragment is never forwarded before its first fragment.", "quantifier": "all packet histories, any interleaving of datagrams", "why_tests_cant": "Unbounded packet histories.", "anchors": ["src/nfqlb/cmdLb.c: packetHandleFn", "src/nfqlb/cmdFlowLb.c: packetHandleFn", "src/lib/fragutils.c"]}
{"id": "C50", "title": "flowlb forwards only to configured marks", "statement": "The result of flowlb's packet handler is always -1 (drop), nolb_fwmark, notargets_fwmark, an active fwmark of the load-balancer selected by the flow lookup, a mark stored for a first fragment or an active mark of the lb-tier; nolb_fwmark is given to unfragmented packets exactly when no flow matches.", "quantifier": "all packets, flow sets, tables", "why_tests_cant": "Quantifies over all configurations and packets.", "anchors": ["src/nfqlb/cmdFlowLb.c: packetHandleFn"]}
{"id": "C51", "title": "A flow definition sent by the client is received unchanged by the server", "statement": "For field values without newline and within the length limits the client's request for flow-set is parsed by the server to exactly the same name, target, priority, port strings, protocol, address and match lists.", "quantifier": "all field values within the limits", "why_tests_cant": "Round trip over an infinite set, with line-buffer boundaries.", "anchors": ["src/nfqlb/cmdFlow.c: cmdFlowSet", "src/nfqlb/remoteCmd.c: readFlowCmd", "src/lib/argv.c: mkargv"]}
{"id": "C52", "title": "Malformed control requests are rejected", "statement": "A request that ends before the end mark or contains a line that is not a known 'name:value' is refused, nothing from it is used and all memory of the partially read request is released; the reader consumes the request in bounded memory for any input.", "quantifier": "all byte streams", "why_tests_cant": "All byte streams.", "anchors": ["src/nfqlb/remoteCmd.c: readFlowCmd, freeFlowCmd"]}
{"id": "C53", "title": "List arguments are split at the delimiters", "statement": "mkargv returns exactly the maximal non-empty runs of non-delimiter characters in order, without leading spaces, terminated by NULL, or NULL if there are none.", "quantifier": "all strings and delimiter sets", "why_tests_cant": "All strings.", "anchors": ["src/lib/argv.c: mkargv"]}
{"id": "C54", "title": "Verdict and mark", "statement": "A packet for which the handler returns a negative value is dropped; for any other value it is accepted with exactly that value as fwmark; each queued packet gets exactly one verdict.", "quantifier": "all handler results and packets", "why_tests_cant": "All 2^32 results; property of the callback for each packet.", "anchors": ["src/lib/nfqueue.c: queue_cb"]}
{"id": "C55", "title": "Every registered command can be invoked", "statement": "Each command added with addCmd is executed when its name is given on the command line; in particular all commands of nfqlb are reachable.", "quantifier": "all lists of registered commands", "why_tests_cant": "Depends on the total number and link order of all modules.", "anchors": ["src/lib/cmd.c: addCmd, handleCmd", "src/nfqlb/cmd*.c: addCommands"]}
{"id": "C56", "title": "Required options are enforced", "statement": "parseOptions fails iff some option marked as required was not given, and then names exactly the missing ones; up to 31 options.", "quantifier": "all option tables and all subsets of given options", "why_tests_cant": "2^31 subsets.", "anchors": ["src/lib/cmd.c: parseOptions, verifyRequiredOptions"]}
{"id": "C57", "title": "makeip composes network, subnet and host bits", "statement": "For a base prefix of length s1, `ipu makeip` with subnet size s2, net number and host number gives the address whose first s1 bits are those of the base, the next s2-s1 bits are the net number and the remaining bits are the host number; numbers that do not fit are refused.", "quantifier": "all addresses, sizes and numbers, both families", "why_tests_cant": "All addresses and sizes.", "anchors": ["src/ipu/ipu.c: cmdMakeip"]}
{"id": "C58", "title": "contains decides prefix membership", "statement": "`ipu contains` reports that an address is in a CIDR iff family and the first s bits agree.", "quantifier": "all addresses and prefix lengths", "why_tests_cant": "All addresses and sizes.", "anchors": ["src/ipu/ipu.c: cmdContains, mask_ipv6"]}
{"id": "C59", "title": "Shared memory is written completely", "statement": "createSharedData reports success only if all bytes have been written in order, however the kernel splits, interrupts or refuses individual writes.", "quantifier": "all sequences of results of write(2)", "why_tests_cant": "Short writes and EINTR sequences are unbounded.", "anchors": ["src/lib/shmem.c: write_full, createSharedData"]}
{"id": "C60", "title": "linklocal makes the modified EUI-64 address", "statement": "For each hardware address, `ipu linklocal` gives an address in fe80::/64 whose lower half is the modified EUI-64 identifier (universal/local bit inverted, ff:fe in the middle); different hardware addresses give different link-local addresses.", "quantifier": "all 48-bit hardware addresses", "why_tests_cant": "There are 2^48 hardware addresses.", "anchors": ["src/ipu/ipu.c: cmdLinklocal"]}
{"id": "C61", "title": "Listing flows gives JSON that says what each flow is", "statement": "flow-list prints a JSON array with one object per flow, in the order of the set, whose fields (networks, ports, protocols, match expressions, priority) denote exactly what the flow in memory matches on; flow-list with a name prints that object alone; flow-list-names prints a JSON array of the names.", "quantifier": "all histories of flow definitions and deletions", "why_tests_cant": "Flows, names and lists of criteria are unbounded; that the printed text denotes the same set of addresses and ports is a statement about all packets.", "anchors": ["src/lib/flow.c: flowSetPrint, printFlow, printCidr, leadingones, printPorts, printMatch, flowSetPrintNames"]}
{"id": "C62", "title": "A listed flow can be defined again", "statement": "The values listed for a flow are accepted as a definition and give a flow that matches exactly the same packets; defining all listed flows in a new set gives the same target for every packet.", "quantifier": "all histories of definitions and all packets", "why_tests_cant": "Equality of behaviour is over all packets and all reachable sets of flows.", "anchors": ["src/lib/flow.c: flowSetPrint, flowDefine, flowLookup"]}
{"id": "C63", "title": "The control server executes exactly the complete requests, in order", "statement": "For any sequence of connections carrying any bytes, interleaved with packets: the flows and load-balancers are those after exactly the complete set and delete requests, in order; every connection is answered by what its action demands (nothing if there is no complete request, an error for a missing or unknown action, otherwise the reply of set, delete, list or list-names), and what nfqlb flow-set sends is executed with exactly its values. The memory for requests never exceeds that of one request.", "quantifier": "all byte streams, all numbers of connections, all interleavings with packets", "why_tests_cant": "Byte streams and sequences of connections are unbounded; that nothing of one connection leaks into the next is a statement about all pairs of states and streams.", "anchors": ["src/nfqlb/cmdFlowLb.c: flowThread, writeReply, lb2string", "src/nfqlb/remoteCmd.c: readFlowCmd, freeFlowCmd"]}
{"id": "C64", "title": "No client can stop the control server", "statement": "Whatever bytes a client sends, and whenever it closes its connection, the server goes on to serve the next connection, without undefined behaviour, in every reachable state.", "quantifier": "all histories of connections and packets, all byte streams", "why_tests_cant": "Robustness against all inputs in all reachable states; the failures depend on the state left by earlier requests.", "anchors": ["src/nfqlb/cmdFlowLb.c: flowThread, cmd_set, cmd_delete, traceHandleFlowCmd"]}
{"id": "C65", "title": "Trace flows are separate from flows, and own their names", "statement": "Requests for trace flows change no flow and no load-balancer, other requests change no trace flow; each trace flow owns one copy of its name, which is released when the trace flow goes away; every request for a trace flow is answered.", "quantifier": "all histories of requests", "why_tests_cant": "Ownership is an invariant over unbounded histories; a leak does not show in any single answer.", "anchors": ["src/nfqlb/cmdFlowLb.c: traceHandleFlowCmd"]}
{"id": "C66", "title": "A flow that was set is listed, one that was deleted is not", "statement": "After a set request that was answered with OK the next list of names is JSON and contains the name, and the next list of this flow is a JSON object with the name, priority, encapsulation port and target of the request and the criteria of the flow; after a delete request the name is not listed.", "quantifier": "all histories, all names", "why_tests_cant": "Histories and names are unbounded.", "anchors": ["src/nfqlb/cmdFlowLb.c: flowThread, cmd_set, cmd_delete", "src/lib/flow.c: flowSetPrintNames"]}
{"id": "C67", "title": "Tracing changes no decision", "statement": "For every packet, trace mask and set of trace flows the packet handler decides the same, leaves the same state and stops the process no more often than without tracing; it writes nothing when nothing is selected, and with `flows` selected it writes the name of the matching trace flow and the fwmark that was decided for unfragmented packets that match, and nothing for others.", "quantifier": "all packets, states, masks, trace flows", "why_tests_cant": "Packets, flow sets and masks are unbounded, and the trace code runs only when tracing is on.", "anchors": ["src/nfqlb/cmdFlowLb.c: packetHandleFn", "src/lib/iputils.c: printIcmp", "src/lib/log.h: TRACE"]}
{"id": "C68", "title": "No packet stops the process", "statement": "After every history of control requests and packets, every packet that arrives gets a decision or a load-balancer, and every packet that has a load-balancer gets a decision: no step ends in undefined behaviour, an endless loop or an exit.", "quantifier": "all histories of requests and packets, all packets", "why_tests_cant": "Histories and packets are unbounded.", "anchors": ["src/nfqlb/cmdFlowLb.c: packetHandleFn", "src/lib/iputils.c: getHashKey", "src/lib/flow.c: flowLookup", "src/lib/match.c: matchMatches", "src/lib/frag.c"]}
{"id": "C69", "title": "Trace selection", "statement": "For a comma separated list of event names the trace mask has exactly the bits of the events in the list; unknown names have no effect; exactly one of --mask and --selection must be given.", "quantifier": "all lists of names", "why_tests_cant": "Lists of names are unbounded.", "anchors": ["src/nfqlb/cmdTrace.c: str2mask, cmdTrace"]}
{"id": "C70", "title": "A trace client gets what it selected", "statement": "A client that selects events and connects to the trace server gets the announcement with its mask and then exactly the lines of the selected events, in order, until it leaves; when it has left nothing is selected.", "quantifier": "all interleavings of clients, the trace server and threads that trace", "why_tests_cant": "Interleavings are unbounded.", "anchors": ["src/lib/log.c: traceServerThread, tracef", "src/nfqlb/cmdTrace.c: cmdTrace"]}
{"id": "C71", "title": "A trace client that leaves does not stop the process", "statement": "Whenever a trace client ends its connection, the process goes on and the trace server accepts further clients.", "quantifier": "all interleavings of clients, the trace server and threads that trace", "why_tests_cant": "The window is a few instructions wide.", "anchors": ["src/lib/log.c:117-136"]}
{"id": "C72", "title": "The trace server closes its own descriptors only", "statement": "The trace server never closes a descriptor that belongs to another thread, and nobody closes the descriptor of the client that is served.", "quantifier": "all interleavings of the trace server and threads that open and close descriptors", "why_tests_cant": "Interleavings are unbounded, the window is between two calls.", "anchors": ["src/lib/log.c:131-135"]}
{"id": "C73", "title": "Socket addresses in text are read as documented", "statement": "parseAddress turns exactly the texts tcp:address:port (an IPv6 address in brackets, a port of at most 65535) and unix:name into the socket address they denote, refuses every other text, and writes nothing outside the structure.", "quantifier": "all texts, all addresses and ports, all names", "why_tests_cant": "Texts are unbounded; the test tries a dozen.", "anchors": ["src/lib/iputils.c:464-526"]}
{"id": "C74", "title": "nfqlb fwmark tells what nfqlb lb does", "statement": "For every packet that is not fragmented, the fwmark command called with the addresses, ports and protocol of the packet and with the table and hash mode of the load-balancer prints the hash and the fwmark that the load-balancer gives this packet; without protocol and with the table of an lb-tier it prints the member of the tier that gets the fragments. It never reads memory that was not written.", "quantifier": "all tables, all packets, all texts of the addresses, all option values", "why_tests_cant": "The space of addresses, ports and tables is unbounded, and the tool and the packet path compute the key independently.", "anchors": ["src/nfqlb/cmdFwmark.c:16-110", "src/nfqlb/cmdLb.c:31-121"]}
{"id": "C75", "title": "No command uses the NULL value of an option", "statement": "Whatever the command line of a command is, when the command begins its work every option whose value it uses without testing for NULL has a text as value; an option that is tested for NULL is NULL exactly when it was not given (the option without argument: when it was given).", "quantifier": "all commands of both programs, all command lines; for the general form all tables of options", "why_tests_cant": "The space of command lines is infinite, with abbreviations, repetitions, permutation and values in two forms; and the property depends on each table and each use.", "anchors": ["src/lib/cmd.c:94-144", "src/nfqlb/cmdLb.c:125-164", "src/nfqlb/cmdFlowLb.c:241-282", "src/nfqlb/cmdFlow.c:14-138", "src/nfqlb/cmdTrace.c:40-221", "src/nfqlb/cmdShm.c:36-147", "src/ipu/ipu.c:49-189"]}
{"id": "C76", "title": "Exactly the queues of --queue are served", "statement": "A value of --queue that is a decimal number up to 65535 makes the program serve this netfilter queue and no other; a range a:b makes it serve each queue from a to b once; every other value is refused.", "quantifier": "all texts for --queue, all outcomes of pthread_create", "why_tests_cant": "There are 2^31 ranges and infinitely many other texts; the conversions of atoi, sscanf and htons accept more than the documented forms.", "anchors": ["src/nfqlb/cmdLb.c:228-244", "src/nfqlb/cmdFlowLb.c:352-367", "src/lib/nfqueue.c:30-43"]}
{"id": "C77", "title": "The program starts with a usable fragment table, or not at all", "statement": "When nfqlb lb or flowlb begins to handle packets, the mtu is at least 576 and the numbers of the command line are those in use; with a tun device it is open, its mtu is not smaller, and no fragment larger than its mtu is ever stored; without one no fragment is ever stored or injected. Starting never has undefined behaviour.", "quantifier": "all command lines, all answers of the kernel, all sequences of fragments after the start", "why_tests_cant": "Needs a kernel with tun devices; the last part is about all later runs; the undefined behaviour depends on 32-bit products of options.", "anchors": ["src/nfqlb/cmdLb.c:123-245", "src/nfqlb/cmdFlowLb.c:239-368", "src/lib/fragutils.c:196-231", "src/lib/itempool.c:30-77"]}
{"id": "C78", "title": "The tun device is opened under its name without leaks", "statement": "For every name the device that is made is the one whose mtu is read, the name has a NUL within the 16 bytes of the request, and after success exactly the descriptor of the device is open, after failure none.", "quantifier": "all names, all answers of the kernel", "why_tests_cant": "Failures of ioctl and long names need a prepared kernel; an overflow on the stack may go unnoticed.", "anchors": ["src/lib/tuntap.c:14-56"]}
{"id": "C79", "title": "nfqlb stats prints the counters as JSON", "statement": "The output of `nfqlb stats` is a JSON object whose members are the counters of the fragment table, with the values that they have; and the counters say what happened: the sizes are the configured ones, bucketsUsed is the number of extra entries in the table, fragsAllocated the number of fragments taken over, fragsDiscarded the number of those that were lost.", "quantifier": "all values of the counters; all histories of a fragment table of any size", "why_tests_cant": "The repository has no test for the output, and the counters are unsigned 32 bit numbers in any combination; that they agree with the history is a statement about all histories.", "anchors": ["src/lib/fragutils.c:512-537", "src/nfqlb/cmdShm.c:136-150", "src/lib/fragutils.c:160-192"]}
{"id": "C80", "title": "nfqlb show shows exactly the active targets", "statement": "After any history of commands, `nfqlb show` reads nothing outside of the tables, and from its output the own mark, M, N, the first 25 entries of the lookup table and exactly the active targets with their indices can be read.", "quantifier": "all M, N and random numbers with which init succeeds, all histories of activate and deactivate, all names without a line break", "why_tests_cant": "Histories and table sizes are unbounded; tests compare the output of a few.", "anchors": ["src/nfqlb/cmdShm.c:100-134"]}
{"id": "C81", "title": "Sessions of command lines give the load-balancers that the user asked for", "statement": "Every sequence of command lines init, delete, activate and deactivate, from the words that are typed, runs without undefined behaviour. Exactly the wrong lines are refused. Afterwards exactly the load-balancers that the user asked for exist, each with its own mark, the largest prime number of slots up to the one asked for, and the set of its targets; packets get one of these targets; and `nfqlb show` shows them. A line changes no other load-balancer than the one it names.", "quantifier": "all sequences of command lines, all names, all numbers and random numbers; for the absence of crashes, any words", "why_tests_cant": "Sequences, names and numbers are unbounded, and the objects must not disturb each other in any order of the lines.", "anchors": ["src/nfqlb/cmdShm.c:22-134", "src/nfqlb/cmdConfig.c:15-121", "src/lib/shmem.c:35-78"]}
{"id": "C82", "title": "The clients report what the server did", "statement": "Whenever the control server goes on after a request it writes a well-defined answer. nfqlb flow-set, flow-delete, trace-flow-set and trace-flow-delete print this answer and exit with 0 exactly if the request was carried out; otherwise the flows are as before and the message names the option that is wrong. The list commands print what the server writes, in whatever pieces it arrives; a flow that was set with exit code 0 is in the next list of names.", "quantifier": "all histories of the server, all requests from command lines, all ways in which the kernel divides what is read", "why_tests_cant": "The texts of a request, the histories and the ways to divide an answer are unbounded; tests see answers that fit and come in one piece.", "anchors": ["src/nfqlb/cmdFlow.c:91-99", "src/nfqlb/cmdFlow.c:121-128", "src/nfqlb/cmdFlow.c:150-180", "src/nfqlb/cmdTrace.c:177-261", "src/nfqlb/cmdFlowLb.c:469-474", "src/lib/flow.c:207-312", "src/lib/match.c:68-104"]}
{"id": "C83", "title": "The tables in arrays of fixed size are good and equal those in shared memory", "statement": "For every prime p up to 65536 and every number of targets n within the limits MAX_M and MAX_N (whatever these are), initMagData makes for each target a permutation of the p slots, without access outside of the arrays. After that, whatever targets are made active and whatever is in the table, populate ends without undefined behaviour and changes only the first p slots: with active targets each slot is the index of an active one and the slots are shared evenly (numbers differ by at most one), without them all are -1. With the same random numbers and active targets it is the table that magDataDyn_populate computes. initMagData has undefined behaviour exactly if there are targets and p is below 2 or a limit is exceeded.", "quantifier": "all array limits, all prime table sizes up to 65536, all numbers of targets, all sequences of random numbers, all sets of active targets, all old contents of the table", "why_tests_cant": "Random permutations, sizes and sets of targets are unbounded; a search that leaves the row or a table that differs in one slot appears for rare draws only.", "anchors": ["src/lib/maglev.c:5-18", "src/lib/maglev.c:20-50", "src/lib/maglev.h:3-13", "src/lib/maglevdyn.c:76-108"]}
{"id": "C84", "title": "init on the shared memory of a running load-balancer is safe", "statement": "When nfqlb init is run on shared memory that a running load-balancer has mapped, every packet handled before, during and after it gets a target of the old table, a target of the new table or no target, without any access outside of the memory; afterwards the load-balancer uses the new table. After nfqlb delete a running load-balancer goes on with its table whatever commands follow. loadbalancerRelease unmaps exactly what was mapped.", "quantifier": "all table sizes, all random numbers, all ways in which the kernel takes the data, all contents of the malloc'ed block, all moments of init at which a packet is handled, all packets, all sequences of commands after a delete", "why_tests_cant": "It depends on the exact moment of the packet between two steps of init, on uninitialised memory and on pages of mappings.", "anchors": ["src/nfqlb/cmdShm.c:22-32", "src/nfqlb/cmdShm.c:79", "src/lib/shmem.c:38-47", "src/lib/shmem.c:54-93", "src/lib/maglevdyn.c:24-70", "src/nfqlb/cmdLb.c:93-95", "src/nfqlb/cmdFlowLb.c:187-189", "src/nfqlb/cmdFlowLb.c:408-411"]}
{"id": "C85", "title": "The log settings in shared memory are the same for all processes", "statement": "Any number of processes call logConfigShm and then read and set the log level and the trace mask, their steps interleaved in any way: no process dies or crashes, each reading gives the value that was set last by any process (level 5 and mask 0 if the object was created), and after loglevel n every process logs exactly the messages of severity up to n.", "quantifier": "all numbers of processes, all interleavings of their system calls and accesses, all levels and masks, whether the object exists or not", "why_tests_cant": "The interleavings are unbounded, and the bad ones are a few system calls wide.", "anchors": ["src/lib/log.c:18-19", "src/lib/log.c:66-73", "src/lib/log.h:11-45", "src/lib/shmem.c:38-78", "src/nfqlb/cmdTrace.c:97-114"]}
{"id": "C86", "title": "What is not copied of a packet does not matter", "statement": "The kernel copies at most mtu bytes of a packet to the load-balancer (packets can be longer, GSO is requested). With every accepted mtu (576 or more) each packet is handled as if all of it had been copied: it gets the same decision and the same fwmark.", "quantifier": "all packets of any length, all accepted values of mtu, all configurations and flows", "why_tests_cant": "It is about all packets longer than the mtu, with all header lengths; tests hand over whole packets.", "anchors": ["src/lib/nfqueue.c: nfqueueRun (NFQNL_COPY_PACKET, NFQA_CFG_F_GSO)", "src/nfqlb/cmdLb.c: cmdLb, packetHandleFn", "src/nfqlb/cmdFlowLb.c: cmdFlowLb, packetHandleFn", "src/lib/iputils.c: getHashKey", "src/lib/match.c: matchMatches", "src/lib/fragutils.c: fragGetValueOrStore"]}
{"id": "C87", "title": "The netlink messages say what the program means", "statement": "Setting up a queue makes the kernel queue packets for exactly the queue number that was given, copying up to the mtu, with the queue length that was given; every verdict is read by the kernel as the verdict for the same queue and packet with the same mark; the buffers in which the messages are built are always large enough; if a step of the set-up fails the program exits; the receive buffer of the socket is at least about half of queue length times mtu and is never made smaller.", "quantifier": "for all queue numbers, queue lengths, mtus and page sizes of at least 4096 bytes, all sequences of messages from the kernel, and all combinations of failing system calls", "why_tests_cant": "needs privileges and a kernel to run at all; the values and the points of failure are unbounded or too many, and a message that is built beyond its buffer need not show", "anchors": ["src/lib/nfqueue.c:31-71", "src/lib/nfqueue.c:109-208"]}
{"id": "C88", "title": "From command lines and packets to the answers for the kernel", "statement": "Some command lines init, activate, deactivate and delete make load-balancers. Then nfqlb lb is started with the shared memory of one of them (and maybe of a tier). From then on packets come from the kernel, and further command lines are typed, in any order. Every packet gets exactly one message as answer, in order, which the kernel reads as the answer to the packet with this number in this queue. It says drop, or accept with a mark; the mark is a target that is active at that moment (or the mark for the case that there are no targets), or for a fragment a target of the tier other than this machine, or the mark that an earlier fragment of the same datagram got. An unfragmented TCP, UDP or SCTP packet always gets an active target, or what is configured if there are none; and as long as no command is given, all packets of a flow get the same. No packet and no command line stops the program.", "quantifier": "all sequences of command lines with numbers in range, all random numbers, all names, all sequences of packets (messages) and command lines after the start, all times", "why_tests_cant": "The path goes through the parser of the command line, the shared memory, the Maglev table, the packet parser, the fragment table and the netlink encoding; a test sees one configuration and one order of events.", "anchors": ["src/nfqlb/cmdLb.c:20-245", "src/lib/nfqueue.c:45-221", "src/nfqlb/cmdConfig.c:15-121", "src/nfqlb/cmdShm.c:22-82", "src/lib/iputils.c:106-367", "src/lib/fragutils.c", "src/lib/maglevdyn.c"]}
{"id": "C89", "title": "From command lines, flow requests and packets to the answers of nfqlb flowlb", "statement": "Some command lines make load-balancers. Then nfqlb flowlb is started, maybe with a tier. From then on packets come from the kernel, the user sets and deletes flows with nfqlb flow-set and nfqlb flow-delete, other requests or garbage come to the control server, and further command lines are typed, in any order. Setting a flow is answered with OK exactly if its shared memory exists; deleting with OK. Every packet gets exactly one message as answer, which the kernel reads as the answer to this packet: drop, or accept with the mark for packets without flow, or with a target of a flow that is defined at that moment (or the mark for no targets), or for fragments with a target of the tier or the mark of an earlier fragment of the datagram. The answer for an unfragmented packet with ports comes from the load-balancer of a flow that is for the packet, by addresses, ports, protocol and bytes of the header, and no flow with a higher priority is for it; if no flow is for it, it is the mark for packets without flow. As long as nothing is changed, packets with the same addresses and ports for which the same flows are get the same mark. Nothing stops the program.", "quantifier": "all sequences of command lines with numbers in range, all launch options, all sequences of packets, requests, bytes and command lines after the start, all flows as documented", "why_tests_cant": "The path goes through the client, the socket, the parser of the request, the flow set, the reference counts, the shared memory, the packet parser, the fragment table and the netlink encoding; a test sees one set of flows and one order of events.", "anchors": ["src/nfqlb/cmdFlowLb.c:60-600", "src/nfqlb/remoteCmd.c:60-330", "src/lib/flow.c", "src/lib/match.c", "src/lib/nfqueue.c:45-221", "src/nfqlb/cmdConfig.c:15-121", "src/lib/iputils.c:106-367"]}
{"id": "C90", "title": "The fragment table loses nothing as long as there is room", "statement": "Take any history of the fragment table (first fragments, later fragments in any order, lookups and statistics, for any number of datagrams that may collide in the hash table), in which no reassembler reports a complete datagram. If a table with unlimited memory would at no time hold more than ft_buckets datagrams and ft_frag waiting fragments, then the real table gives exactly the answers of the unlimited one: every first fragment of a datagram that is not known registers its value and gets all fragments that wait for it, every later fragment gets the value or is stored, and a fragment is refused only because it is longer than the mtu, a first fragment only because there was one before.", "quantifier": "all sizes of the table (at least one bucket, sum below 2^32), all histories with a clock that does not go backwards, all datagrams", "why_tests_cant": "Whether something is lost depends on the history: which datagrams collide, which expired entries still occupy memory, how the pools are shared.", "anchors": ["src/lib/fragutils.c:195-222", "src/lib/fragutils.c:266-439", "src/lib/fragutils.c:453-491", "src/lib/conntrack.c:66-279"]}
{"id": "C91", "title": "nfqlb xlb: all that a client sends to an address goes to one target", "statement": "When load-balancers have been set up with command lines and `nfqlb xlb` runs on one of them, every packet that the kernel queues is answered once, with its queue and number, by drop or by accept with the mark of a target that is active at that time. All packets from one source address to one destination address, whatever the protocol and in fragments or not, and the ICMP errors about the packets in the other direction, get the same mark as long as no command is given, and are not dropped while there are targets. All queues of the range that was asked for are served.", "quantifier": "for all sequences of command lines before the start, all names and ranges of queues, all sequences of packets and command lines after it, all contents of packets, all generators of random numbers", "why_tests_cant": "The set of packets, of their fragments and of the orders in which they come between the commands can not be enumerated; a test sees some addresses only, and the errors about packets are rare.", "anchors": ["src/extension/cmdXlb.c:34-96", "src/lib/iputils.c:51-378", "src/lib/nfqueue.c:45-107", "src/lib/nfqueue.c:210-221", "src/lib/maglevdyn.c:56-108"]}
{"id": "C92", "title": "Exactly which packets the parser cannot cope with", "statement": "getHashKey reads outside the packet exactly if: for IPv4, the packet is ICMP, not a later fragment, and ends before the ICMP type or, for an echo request, before the end of its identifier; for IPv6, the header chain leads to an ICMPv6 header cut in the same way, to a fragment header that is not complete, or (first fragment) the unchecked headers after the fragment header lead to an extension header whose first two bytes are outside the packet or to a cut ICMPv6 header. It loops for ever exactly if the headers of a first fragment come to an extension header with length byte 0 that is followed by an extension header. Every other packet is parsed.", "quantifier": "all byte strings, all udpencap ports, any number of turns of the loop", "why_tests_cant": "That a list of bad packets is complete, and holds no good packet, is a statement about all packets.", "anchors": ["src/lib/iputils.c:106-184 getHashKeyIpv4", "src/lib/iputils.c:253-350 getHashKeyIpv6", "src/lib/iputils.c:284-288 unchecked loop"]}
{"id": "C93", "title": "Fragments that overtake the first fragment are not lost", "statement": "A fragment other than the first one that comes before the first fragment of its datagram (the fragments with the same key; for IPv4: same addresses and same identification) is dropped, but a copy is kept. When the first fragment is forwarded, the kept fragments are written to the tun device: exactly those that came, with the same bytes, each of them once. From then on fragments of this datagram, also those that come back from the tun device, get the mark of the first fragment. Nothing else is ever written to the tun device. This holds if there is room for all fragments, the fragments come within the ttl of each other and are not longer than the mtu, and no datagram is complete in between.", "quantifier": "all histories of packets of any length, handled one after the other by lb or flowlb in any configuration at any time, all sizes of the table, all collisions", "why_tests_cant": "The order of fragments, other packets and other datagrams between them, the sizes of the table and the times can be combined in unboundedly many ways.", "anchors": ["src/nfqlb/cmdLb.c:40-115", "src/nfqlb/cmdFlowLb.c:81-231", "src/lib/fragutils.c:266-309", "src/lib/fragutils.c:327-439", "src/lib/fragutils.c:453-474"]}
{"id": "C94", "title": "Datagrams that timed out take no room from others", "statement": "When the last fragment of a datagram came more than the ttl ago, the memory for the datagram and for its fragments that wait is available for other datagrams: a table in which everything timed out accepts whatever a new table accepts.", "quantifier": "all histories of operations on the fragment table, all sizes, all times", "why_tests_cant": "It depends on which buckets the keys fall in and on what came between; a test that uses one bucket, or reads the statistics in between, does not see it.", "anchors": ["src/lib/fragutils.c:327-439", "src/lib/fragutils.c:480-493", "src/lib/conntrack.c:62-127", "src/lib/conntrack.c:266-290"]}
{"id": "C95", "title": "Clients reach the server with their address, and load-balancers can be started again", "statement": "A client of the flow server reaches the nfqlb flowlb that runs with the same NFQLB_FLOW_ADDRESS, nfqlb trace reaches the process that runs with the same trace address, and nobody else answers. A second process that asks for an address in use ends and disturbs nobody. A load-balancer that ended can be started again at once with the same addresses.", "quantifier": "all histories of starts, ends and clients on a host, all addresses, for every kernel whose bind and connect behave as expected", "why_tests_cant": "It depends on what else runs or ran on the host and on connections that the kernel remembers; tests start one process with the default addresses.", "anchors": ["src/nfqlb/remoteCmd.c:87-103", "src/nfqlb/cmdFlowLb.c:484-510", "src/lib/log.c:82-96", "src/nfqlb/cmdTrace.c:75-84", "src/lib/iputils.c:464-510"]}
{"id": "C96", "title": "The clients print what arrives, or say that they could not", "statement": "nfqlb trace prints the mask and then exactly the bytes that the trace server sends, in order, in whatever pieces they arrive; the list commands print exactly the answer of the server. If the standard output does not take all of it, the exit code tells so.", "quantifier": "all byte streams, all ways to cut them into pieces, all results of write, terminals and files, ends by the server and by a signal", "why_tests_cant": "Pieces and results of write are decided by the kernel; full disks and stdio buffering depend on the environment.", "anchors": ["src/nfqlb/cmdTrace.c:70-95", "src/nfqlb/cmdFlow.c:150-156", "src/nfqlb/cmdFlow.c:174-180", "src/nfqlb/cmdTrace.c:231-237", "src/nfqlb/cmdTrace.c:255-261"]}
{"id": "C97", "title": "The trace shows the packet that was matched", "statement": "If `flows` is selected for tracing and a trace flow matches a packet that is no fragment, the text that is written names the trace flow, and then has one line with the protocol (by name for TCP, UDP, SCTP, ICMP and ICMPv6, by number for all others), the length of the packet, and the addresses and ports of the packet's flow, each address in a notation that denotes exactly that address. For an ICMP message there is a line before it: mtu of the next hop for \"fragmentation needed\" and \"packet too big\", code for other \"destination unreachable\", identifier and sequence number for echo requests, type and code for all others; the flow of an ICMP error is the one that the quoted packet belongs to.", "quantifier": "all states, all configurations, all trace flows, all packets", "why_tests_cant": "The text depends on every byte of addresses, ports and ICMP header; tests look at a few lines, if at all, and nothing reads the text by program.", "anchors": ["src/nfqlb/cmdFlowLb.c:138-156", "src/lib/iputils.c:380-462", "src/lib/iputils.c:512-527"]}
{"id": "C98", "title": "Each message is logged once, and goes to the clients that want it", "statement": "Every message whose severity is at most the log level of the moment is written to standard error exactly once, in order, whether or not anything is traced, and nothing else is; while a trace client that selected log is served it gets each of these messages exactly once too, and a client that did not select it gets none; logging changes nothing of what the trace server does.", "quantifier": "all interleavings of threads that log or trace, clients, changes of the level and the trace server, which logs too", "why_tests_cant": "The interleavings are unbounded; what is written twice depends on whether a trace client was ever connected.", "anchors": ["src/lib/log.c:27-61", "src/lib/log.c:76-79", "src/lib/log.c:82-140", "src/lib/log.h:33-45", "src/nfqlb/cmdTrace.c:72-84"]}
{"id": "C99", "title": "Destroying a fragment table gives back everything it holds", "statement": "fragTableDestroy, after any history, returns every FragData object, every fragment buffer and every extra bucket to its pool before the pools are freed, counts each waiting fragment as discarded once, and with SANITY_CHECK its assertions hold.", "quantifier": "all sizes, all histories of the table, all contents of the variable on the stack", "why_tests_cant": "What the variable contains and what the compiler makes of the overflow differs between builds; the tests pass on one build, on few histories.", "anchors": ["src/lib/fragutils.c:224-251", "src/lib/conntrack.c:59-62", "src/lib/conntrack.c:266-294"]}
{"id": "C100", "title": "Starting with a range of queues sets up exactly these queues, however the threads overlap", "statement": "When lb or flowlb is started with --queue=a:b (numbers up to 65535), and all calls succeed and the queues are free, then after the threads have set up their queues the kernel has exactly the queues a to b in addition to those it had, each with copies up to the mtu, the length asked for and GSO, in whatever order the messages of the threads reach the kernel.", "quantifier": "all ranges, all lengths and mtus, all interleavings of the messages of all threads, all states of the other queues", "why_tests_cant": "The order of the messages of up to 65536 threads is up to the scheduler.", "anchors": ["src/nfqlb/cmdLb.c:230-244", "src/nfqlb/cmdFlowLb.c:354-367", "src/lib/nfqueue.c:109-180"]}
{"id": "C101", "title": "Load-balancers do not disturb each other through the statistics in shared memory", "statement": "Whatever load-balancers are started, in any order and overlapping, each one looks for a key only in its own buckets and by its own size, no program ends because of the statistics, and nfqlb stats with --ft_shm prints the sizes of the table of the load-balancer with this name and how often it has incremented each counter since its start, modulo 2^32.", "quantifier": "all sequences of steps of starts, lookups and increments of any number of load-balancers, all names, sizes and hashes", "why_tests_cant": "The moments between the truncation of the memory, the zeros and the new statistics are short, and tests run one load-balancer at a time.", "anchors": ["src/nfqlb/cmdLb.c:176-179", "src/nfqlb/cmdLb.c:211-217", "src/nfqlb/cmdFlowLb.c:300-336", "src/nfqlb/cmdShm.c:136-150", "src/lib/shmem.c:38-77", "src/lib/fragutils.c:259-264", "src/lib/conntrack.c:102", "src/lib/conntrack.c:153-157"]}
