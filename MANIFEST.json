{"claims": [
{"property": "C01", "status": "proved", "theorems": ["Nfqlb.Props.C01_primeBelow_largest_prime", "Nfqlb.Props.C01_primeBelow_dies_below_two", "Nfqlb.Props.C01_header_comment_is_wrong"], "note": "All 32-bit n. The comment in prime.h about 994009 is shown wrong."},
{"property": "C02", "status": "partial", "theorems": ["Nfqlb.Props.C02_every_slot_active_partial", "Nfqlb.Props.C02_table_good_if_defined", "Nfqlb.Props.C02_large_table_fails"], "note": "Proved for every M <= 65536 and every history. False for M > 65536 (32-bit wrap in the permutation row): witness M=65537 gives an out-of-bounds read."},
{"property": "C03", "status": "proved", "theorems": ["Nfqlb.Props.C03_load_even", "Nfqlb.Props.C03_every_active_target_used"], "note": "Floor/ceil of M/k for every history that ran without undefined behaviour (see C02)."},
{"property": "C04", "status": "proved", "theorems": ["Nfqlb.Props.C04_history_independent"], "note": "Any two histories that meet in the same active indices."},
{"property": "C05", "status": "partial", "theorems": ["Nfqlb.Props.C05_set_semantics_partial", "Nfqlb.Props.C05_deactivate_removes_partial", "Nfqlb.Props.C05_deactivate_fails_with_index", "Nfqlb.Props.C05_activate_active_is_noop", "Nfqlb.Props.C05_deactivate_inactive_is_noop", "Nfqlb.Props.C05_activate_takes_effect", "Nfqlb.Props.C05_bad_index_refused", "Nfqlb.Props.C05_activate_at", "Nfqlb.Props.C05_deactivate_at"], "note": "deactivate does not remove a fwmark that --index has put in two slots (witness); proved for histories without --index, the other parts in any state."},
{"property": "C06", "status": "partial", "theorems": ["Nfqlb.Props.C06_layout_partial", "Nfqlb.Props.C06_large_table_fails", "Nfqlb.Props.C06_init_roundtrip"], "note": "Proved when M*N+M+N+6 < 2^30. False for larger tables accepted by init (witness M=N=65537)."},
{"property": "C07", "status": "partial", "theorems": ["Nfqlb.Props.C07_stores_faithful", "Nfqlb.Props.C07_race_safe", "Nfqlb.Props.C07_history_race_safe", "Nfqlb.Props.C07_xlb_quiescent", "Nfqlb.Props.C07_xlb_race_fails"], "note": "Proved for lb and flowlb, all interleavings of any history of commands. False for the xlb extension (witness)."},
{"property": "C08", "status": "partial", "theorems": ["Nfqlb.Props.C08_late_crash_harmless_partial", "Nfqlb.Props.C08_crash_division_by_zero", "Nfqlb.Props.C08_crash_bogus_fwmark", "Nfqlb.Props.C08_crash_short_file"], "note": "False: three crash points with harmful effect are exhibited. Proved for crashes in the last M stores."},
{"property": "C09", "status": "proved", "theorems": ["Nfqlb.Props.C09_valid_target", "Nfqlb.Props.C09_affinity", "Nfqlb.Props.C09_flow_ipv4", "Nfqlb.Props.C09_flow_ipv6", "Nfqlb.Props.C09_xlb"], "note": "lbDecide models packetHandleFn of cmdLb.c up to the calls of the fragment table; any table reachable by init and activate/deactivate."},
{"property": "C10", "status": "proved", "theorems": ["Nfqlb.Props.C10_sctp_ports_only", "Nfqlb.Props.C10_multihomed", "Nfqlb.Props.C10_whole_key", "Nfqlb.Props.C10_key_size", "Nfqlb.Props.C10_tier", "Nfqlb.Props.C10_same_target"], "note": "Hash functions for all keys; target chosen by lb for SCTP packets."},
{"property": "C11", "status": "proved", "theorems": ["Nfqlb.Props.C11_one_member", "Nfqlb.Props.C11_ipv4_fragments", "Nfqlb.Props.C11_ipv6_fragments"], "note": "One tier table shared by all members; concerns fragments the parser accepts (rc >= 0)."},
{"property": "C12", "status": "partial", "theorems": ["Nfqlb.Props.C12_ipv4_partial", "Nfqlb.Props.C12_ipv6_partial", "Nfqlb.Props.C12_other", "Nfqlb.Props.C12_violated_ipv4", "Nfqlb.Props.C12_violated_echo", "Nfqlb.Props.C12_violated_ipv6"], "note": "False in general: ICMP, ICMPv6 and IPv6 fragment headers are read without bounds checks (witnesses proved). Proved for all packets in which these headers are not cut short."},
{"property": "C13", "status": "partial", "theorems": ["Nfqlb.Props.C13_ipv4", "Nfqlb.Props.C13_ipv6_partial", "Nfqlb.Props.C13_violated"], "note": "False for IPv6: a first fragment whose fragment header is followed by an extension header makes the loop endless (proved for every such packet). Proved for IPv4 and for all other IPv6 packets."},
{"property": "C14", "status": "proved", "theorems": ["Nfqlb.Props.C14_ipv4_five_tuple"], "note": "UDP to the encapsulation port is C19."},
{"property": "C15", "status": "partial", "theorems": ["Nfqlb.Props.C15_ipv6_five_tuple_partial", "Nfqlb.Props.C15_violated_short", "Nfqlb.Props.C15_violated_long"], "note": "False behind extension headers (length field interpreted without the +1 of RFC 8200); proved without extension headers."},
{"property": "C16", "status": "partial", "theorems": ["Nfqlb.Props.C16_ipv4_first", "Nfqlb.Props.C16_ipv4_later", "Nfqlb.Props.C16_ipv6_first_partial", "Nfqlb.Props.C16_ipv6_later_partial", "Nfqlb.Props.C16_injective", "Nfqlb.Props.C16_mapped_injective", "Nfqlb.Props.C16_violated_ext"], "note": "IPv4 complete; IPv6 with the fragment header directly after the IPv6 header. False behind a 16-byte extension header (witness)."},
{"property": "C17", "status": "partial", "theorems": ["Nfqlb.Props.C17_ipv4_first", "Nfqlb.Props.C17_ipv4_same_key_partial", "Nfqlb.Props.C17_handler_ipv4_partial", "Nfqlb.Props.C17_violated_ipv6", "Nfqlb.Props.C17_violated_ipv6_witness"], "note": "IPv4 complete. False for IPv6: the ports are read from the fragment header."},
{"property": "C18", "status": "partial", "theorems": ["Nfqlb.Props.C18_ipv4_partial", "Nfqlb.Props.C18_ipv6_partial", "Nfqlb.Props.C18_ipv4_encap_partial", "Nfqlb.Props.C18_violated_encap", "Nfqlb.Props.C18_violated_types"], "note": "Plain flows proved for IPv4 and IPv6 (no extension headers in the quote); SCTP in UDP only if the quote has more than 12 bytes of UDP (violated for the RFC 792 minimum). ICMPv6 time exceeded and parameter problem and ICMP parameter problem are not followed at all (C18_violated_types)."},
{"property": "C19", "status": "partial", "theorems": ["Nfqlb.Props.C19_ipv4", "Nfqlb.Props.C19_ipv4_first", "Nfqlb.Props.C19_ipv6_partial", "Nfqlb.Props.C19_other_port", "Nfqlb.Props.C19_violated"], "note": "IPv4 complete (also first fragments); IPv6 without extension headers. False for IPv6 with extension or fragment headers (C19_violated)."},
{"property": "C20", "status": "partial", "theorems": ["Nfqlb.Props.C20_ttl_map_partial", "Nfqlb.Props.C20_insert_default", "Nfqlb.Props.C20_size_zero_undefined"], "note": "proved for every table with at least one bucket; missing: size 0, which ctCreate accepts and which divides by zero on every access (proved)"},
{"property": "C21", "status": "partial", "theorems": ["Nfqlb.Props.C21_freed_once_partial", "Nfqlb.Props.C21_balance", "Nfqlb.Props.C21_returned_not_freed", "Nfqlb.Props.C21_refused_not_freed", "Nfqlb.Props.C21_destroy_leak"], "note": "proved for all histories in which time + ttl stays below 2^64-1; beyond that ctDestroy leaks (proved). Balance, no use after free and no free of refused values hold without that condition"},
{"property": "C22", "status": "proved", "theorems": ["Nfqlb.Props.C22_balance", "Nfqlb.Props.C22_all_returned", "Nfqlb.Props.C22_insert_fails", "Nfqlb.Props.C22_insert_null"], "note": "all histories, any order of time stamps"},
{"property": "C23", "status": "partial", "theorems": ["Nfqlb.Props.C23_found_partial", "Nfqlb.Props.C23_violated"], "note": "violated by the code: a lookup with an older time stamp frees a live entry (proved for all keys and times). Partial: entries referenced at or before the time of the lookup are found after any history"},
{"property": "C24", "status": "proved", "theorems": ["Nfqlb.Props.C24_active", "Nfqlb.Props.C24_counters", "Nfqlb.Props.C24_balance", "Nfqlb.Props.C24_collisions"], "note": "counters are 32 bits, so all equations are modulo 2^32"},
{"property": "C25", "status": "partial", "theorems": ["Nfqlb.Props.C25_create_partial", "Nfqlb.Props.C25_fresh_partial", "Nfqlb.Props.C25_exhausted_partial", "Nfqlb.Props.C25_count_partial", "Nfqlb.Props.C25_free_partial", "Nfqlb.Props.C25_with_next_partial", "Nfqlb.Props.C25_overflow_undefined", "Nfqlb.Props.C25_stats"], "note": "proved for all pools whose items need less than 4 GB; larger ones overflow a 32-bit size and write outside their memory (proved)"},
{"property": "C26", "status": "partial", "theorems": ["Nfqlb.Props.C26_balanced_partial", "Nfqlb.Props.C26_after_use_partial", "Nfqlb.Props.C26_size_zero_violated"], "note": "violated for size 0 (free of an uninitialised pointer, proved); proved for all other sizes below 4 GB"},
{"property": "C27", "status": "partial", "theorems": ["Nfqlb.Props.C27_complete_partial", "Nfqlb.Props.C27_ipv4", "Nfqlb.Props.C27_ipv6", "Nfqlb.Props.C27_empty", "Nfqlb.Props.C27_violated", "Nfqlb.Props.C27_drops_next_hole"], "note": "proved for all sequences in which no fragment leaves a gap on both sides (in order, reverse order, duplicates, overlaps), and that empty fragments never complete anything; violated otherwise (proved)"},
{"property": "C28", "status": "partial", "theorems": ["Nfqlb.Props.C28_terminates", "Nfqlb.Props.C28_given_back", "Nfqlb.Props.C28_survives_partial", "Nfqlb.Props.C28_packet_safe", "Nfqlb.Props.C28_violated", "Nfqlb.Props.C28_violated_reachable"], "note": "termination and balance for all histories; NULL dereference when the pool is exhausted (proved)"},
{"property": "C29", "status": "proved", "theorems": ["Nfqlb.Props.C29_all_fragments_follow"], "note": "Sequential histories (each call runs to its end before the next starts); the memory pools, tracker collisions, expiry and exhaustion are in the model."},
{"property": "C30", "status": "proved", "theorems": ["Nfqlb.Props.C30_accounted", "Nfqlb.Props.C30_same_datagram", "Nfqlb.Props.C30_delivered"], "note": "Sequential histories; with an inject function set (nfqlb only enables the table together with one)."},
{"property": "C31", "status": "proved", "theorems": ["Nfqlb.Props.C31_dropped_as_a_whole"], "note": "Sequential histories."},
{"property": "C32", "status": "partial", "theorems": ["Nfqlb.Props.C32_ttl_partial", "Nfqlb.Props.C32_effective", "Nfqlb.Props.C32_violated"], "note": "Holds for timeouts up to 4294 ms; the multiplication wraps at 32 bits for every larger timeout (C32_violated)."},
{"property": "C33", "status": "partial", "theorems": ["Nfqlb.Props.C33_safe_partial", "Nfqlb.Props.C33_violated"], "note": "Proved for every number of threads and every interleaving in which no entry is taken out of the tracker in one of two windows (insert before REFINC; ctLookup reads b->data after UNLOCK). The full claim is false: C33_violated gives schedules with use after free and with a leak."},
{"property": "C34", "status": "proved", "theorems": ["Nfqlb.Props.C34_exact", "Nfqlb.Props.C34_create"], "note": ""},
{"property": "C35", "status": "proved", "theorems": ["Nfqlb.Props.C35_minimal_balanced"], "note": ""},
{"property": "C36", "status": "partial", "theorems": ["Nfqlb.Props.C36_text", "Nfqlb.Props.C36_round_trip_partial", "Nfqlb.Props.C36_no_overflow_partial", "Nfqlb.Props.C36_violated", "Nfqlb.Props.C36_exact"], "note": "Proved when the text has at most 1024 characters (round trip) and when all but the last range fit (no overflow). The full claim is false: C36_violated. C36_exact: exactly which buffer lengths are overrun (a range that is not the last does not fit although at least three characters of room are left)."},
{"property": "C37", "status": "partial", "theorems": ["Nfqlb.Props.C37_again_partial", "Nfqlb.Props.C37_destroy", "Nfqlb.Props.C37_violated"], "note": "Proved for any number of rounds if later rounds do not touch stored ranges and the middle range is new. The full claim is false: C37_violated."},
{"property": "C38", "status": "partial", "theorems": ["Nfqlb.Props.C38_prefix_partial", "Nfqlb.Props.C38_refused_partial", "Nfqlb.Props.C38_total_partial", "Nfqlb.Props.C38_only_partial", "Nfqlb.Props.C38_violated"], "note": "Missing: IPv4 prefix lengths of 2^32-96 and more wrap round and are accepted (10.0.0.0/4294967200 contains every address), text after the number is ignored, 12/24 is taken as IPv6, texts of 128 or more characters with a colon are undefined; all proved in C38_violated."},
{"property": "C39", "status": "proved", "theorems": ["Nfqlb.Props.C39_criteria", "Nfqlb.Props.C39_as_written"], "note": "From the text of the definition to the packet; byte matches as in C46."},
{"property": "C40", "status": "partial", "theorems": ["Nfqlb.Props.C40_best_partial", "Nfqlb.Props.C40_defined", "Nfqlb.Props.C40_violated", "Nfqlb.Props.C40_ping", "Nfqlb.Props.C40_exact"], "note": "Missing: priorities whose difference overflows an int (undefined in cmpFlows), C40_violated. Which definitions are undefined is characterised exactly (C40_exact, with all pairs of the array counted, also those that qsort may not compare); all others are defined, for histories whose priorities are pairwise close (C40_defined)."},
{"property": "C41", "status": "partial", "theorems": ["Nfqlb.Props.C41_names", "Nfqlb.Props.C41_define_partial", "Nfqlb.Props.C41_accepted_partial", "Nfqlb.Props.C41_delete", "Nfqlb.Props.C41_lookup_name", "Nfqlb.Props.C41_violated", "Nfqlb.Props.C41_accepted_exact"], "note": "Missing: the undefined cases of parseCidrs and cmpFlows, C41_violated. Documented definitions are never refused, and accepted exactly if no two priorities overflow (C41_accepted_exact)."},
{"property": "C42", "status": "partial", "theorems": ["Nfqlb.Props.C42_configured", "Nfqlb.Props.C42_ipv4_partial", "Nfqlb.Props.C42_ipv6_partial", "Nfqlb.Props.C42_violated"], "note": "A request with udpencap gives the two flows; a UDP packet that only the helper flow matches is handled as the SCTP packet in it. Missing: as stated it is false, a flow of lower priority that matches the UDP packet takes it (C42_violated)."},
{"property": "C43", "status": "partial", "theorems": ["Nfqlb.Props.C43_balance_partial", "Nfqlb.Props.C43_target_partial", "Nfqlb.Props.C43_violated"], "note": "Balance for all histories of requests with name and target and of packets. Missing: requests that crash or that name the helper flows, for which it is false (C43_violated)."},
{"property": "C44", "status": "partial", "theorems": ["Nfqlb.Props.C44_safe_partial", "Nfqlb.Props.C44_released_partial", "Nfqlb.Props.C44_violated"], "note": "All interleavings of any number of threads without a lookup by name in the window between the decrement to 0 and the removal from the list. In that window it is false (C44_violated)."},
{"property": "C45", "status": "partial", "theorems": ["Nfqlb.Props.C45_set_partial", "Nfqlb.Props.C45_delete_partial", "Nfqlb.Props.C45_violated"], "note": "Set requests with name and target and a name that fits, all delete requests. Missing: the other requests, for which it is false (C45_violated)."},
{"property": "C46", "status": "partial", "theorems": ["Nfqlb.Props.C46_syntax", "Nfqlb.Props.C46_parse_total", "Nfqlb.Props.C46_as_written_partial", "Nfqlb.Props.C46_violated"], "note": "Proved for plain numbers, complete header plus at least one byte, no IPv6 extension headers; the rest is false (C46_violated)."},
{"property": "C47", "status": "partial", "theorems": ["Nfqlb.Props.C47_in_header_partial", "Nfqlb.Props.C47_headerlength", "Nfqlb.Props.C47_refused_partial", "Nfqlb.Props.C47_violated", "Nfqlb.Props.C47_exact", "Nfqlb.Props.C47_accepted"], "note": "Offset plus length wraps at 32 bits: an accepted expression can read outside the packet (C47_violated); proved when it does not wrap. C47_exact: every text is refused, or its item is inside the header and safe, or offset plus length reaches 2^32 and every complete packet of the protocol is read outside; C47_accepted says which plain expressions are accepted."},
{"property": "C48", "status": "proved", "theorems": ["Nfqlb.Props.C48_round_trip", "Nfqlb.Props.C48_room", "Nfqlb.Props.C48_no_buffer"], "note": "Round trip for every accepted list, with the return value."},
{"property": "C49", "status": "partial", "theorems": ["Nfqlb.Props.C49_first_before_partial", "Nfqlb.Props.C49_all_partial", "Nfqlb.Props.C49_ipv4_partial", "Nfqlb.Props.C49_ipv6_partial", "Nfqlb.Props.C49_violated"], "note": "All histories of packets of lb and flowlb, keyed as the handlers key them; the key identifies the datagram for IPv4 and for IPv6 with the fragment header directly after the IPv6 header. Missing: behind other extension headers, where it is false (C49_violated)."},
{"property": "C50", "status": "proved", "theorems": ["Nfqlb.Props.C50_results", "Nfqlb.Props.C50_nolb"], "note": "Fragments end in the fragment table (C49); their mark is one that was stored for a first fragment."},
{"property": "C51", "status": "proved", "theorems": ["Nfqlb.Props.C51_flow_set", "Nfqlb.Props.C51_others", "Nfqlb.Props.C51_sent"], "note": "For all requests with values that can be sent (no newline or NUL, name of at most 1000 characters). C51_long_name (counterexample, not part of the claim): the client does not test the length of the name."},
{"property": "C52", "status": "partial", "theorems": ["Nfqlb.Props.C52_any_input", "Nfqlb.Props.C52_no_end_mark", "Nfqlb.Props.C52_ends_before_mark", "Nfqlb.Props.C52_bad_line_partial", "Nfqlb.Props.C52_violated"], "note": "Refusal for a missing end mark and for lines without colon, bounded memory and release for every byte stream. Lines with an unknown name are ignored by the code: C52_violated."},
{"property": "C53", "status": "proved", "theorems": ["Nfqlb.Props.C53_mkargv", "Nfqlb.Props.C53_unique", "Nfqlb.Props.C53_none"], "note": "All texts shorter than 2^32-1."},
{"property": "C54", "status": "proved", "theorems": ["Nfqlb.Props.C54_verdicts", "Nfqlb.Props.C54_counts", "Nfqlb.Props.C54_bad_message", "Nfqlb.Props.C54_no_payload"], "note": "For each handler and each sequence of messages that carry packets. A message without data attribute is undefined behaviour (C54_no_payload); one without header ends the program."},
{"property": "C55", "status": "partial", "theorems": ["Nfqlb.Props.C55_reachable_partial", "Nfqlb.Props.C55_first", "Nfqlb.Props.C55_usage", "Nfqlb.Props.C55_lost", "Nfqlb.Props.C55_violated", "Nfqlb.Props.C55_violated_sorted", "Nfqlb.Props.C55_ipu"], "note": "Holds for up to 20 commands. nfqlb registers 21 (C55_violated): one of them is unknown, in whatever order they are registered."},
{"property": "C56", "status": "partial", "theorems": ["Nfqlb.Props.C56_required_partial", "Nfqlb.Props.C56_argv_partial", "Nfqlb.Props.C56_dashes_partial", "Nfqlb.Props.C56_bad_or_help", "Nfqlb.Props.C56_too_many", "Nfqlb.Props.C56_violated"], "note": "Holds unless --help or an option that is not in the table is given; these two cases are described by C56_bad_or_help. C56_dashes_partial: with -- in the command line."},
{"property": "C57", "status": "partial", "theorems": ["Nfqlb.Props.C57_makeip4_partial", "Nfqlb.Props.C57_makeip6_partial", "Nfqlb.Props.C57_template", "Nfqlb.Props.C57_refused", "Nfqlb.Props.C57_violated", "Nfqlb.Props.C57_argv", "Nfqlb.Props.C57_exact", "Nfqlb.Props.C57_missing"], "note": "Proved for first sizes from 2 (98 with IPv6) on and int numbers, and the refusals. Missing because false or undefined: first size 1 and 97, numbers that are no int, text longer than 52 characters (C57_violated). Also for command lines with the options in any order and form (C57_argv). For first size 1 (97) everything that is not refused is undefined (C57_exact). C57_missing: without --cidr it is refused."},
{"property": "C58", "status": "partial", "theorems": ["Nfqlb.Props.C58_contains_partial", "Nfqlb.Props.C58_violated", "Nfqlb.Props.C58_argv", "Nfqlb.Props.C58_exact", "Nfqlb.Props.C58_missing"], "note": "Proved for all addresses and all sizes other than 1, 33, 65, 97 (undefined shift) and size 0 with different families (the program says contained), see C58_violated. Also for command lines (C58_argv). The result is characterised exactly for all sizes and addresses by C58_exact. C58_missing: without --cidr it is refused."},
{"property": "C59", "status": "proved", "theorems": ["Nfqlb.Props.C59_complete", "Nfqlb.Props.C59_prefix", "Nfqlb.Props.C59_success", "Nfqlb.Props.C59_error", "Nfqlb.Props.C59_zero_waits", "Nfqlb.Props.C59_value"], "note": "For each sequence of results of write(2); data shorter than 2^63 bytes."},
{"property": "C60", "status": "proved", "theorems": ["Nfqlb.Props.C60_linklocal", "Nfqlb.Props.C60_injective"], "note": "For all hardware addresses, from the six octets on; reading the text is ether_aton, printing is inet_ntop, both libc."},
{"property": "C61", "status": "partial", "theorems": ["Nfqlb.Props.C61_list_partial", "Nfqlb.Props.C61_one_partial", "Nfqlb.Props.C61_names_partial", "Nfqlb.Props.C61_violated"], "note": "Hypotheses: definitions that can be listed (plain characters in names and targets, priority not negative, at least one protocol, ports with fewer than 1023 characters, at most 15 match expressions). The code violates the statement outside of them: no escaping, %u for a negative priority, match text cut at 1024 characters, empty list of protocols."},
{"property": "C62", "status": "partial", "theorems": ["Nfqlb.Props.C62_again_partial", "Nfqlb.Props.C62_restore_partial", "Nfqlb.Props.C62_violated"], "note": "Same hypotheses as C61; for whole sets the priorities must be different, as qsort leaves the order of equal priorities open. C62_violated: cut match expressions are refused when given again."},
{"property": "C63", "status": "proved", "theorems": ["Nfqlb.Props.C63_refines", "Nfqlb.Props.C63_memory", "Nfqlb.Props.C63_answers", "Nfqlb.Props.C63_client"], "note": "Connections one after the other, as the code serves them; accept, fdopen and dup succeed."},
{"property": "C64", "status": "partial", "theorems": ["Nfqlb.Props.C64_goes_on_partial", "Nfqlb.Props.C64_gone_partial", "Nfqlb.Props.C64_gone_exact", "Nfqlb.Props.C64_violated"], "note": "As stated false: five ways to stop the server. Proved for benign requests of clients that wait, in all histories; and for clients that go away without a complete request, in any state."},
{"property": "C65", "status": "partial", "theorems": ["Nfqlb.Props.C65_apart", "Nfqlb.Props.C65_answers", "Nfqlb.Props.C65_names_partial", "Nfqlb.Props.C65_violated"], "note": "Separation and ownership proved; as stated false: copies of names leak, and an accepted trace flow is not answered."},
{"property": "C66", "status": "partial", "theorems": ["Nfqlb.Props.C66_visible_partial", "Nfqlb.Props.C66_listed_partial", "Nfqlb.Props.C66_violated"], "note": "For benign histories and plain names; false for names with quotation marks."},
{"property": "C67", "status": "partial", "theorems": ["Nfqlb.Props.C67_same", "Nfqlb.Props.C67_same_parts", "Nfqlb.Props.C67_silent", "Nfqlb.Props.C67_others", "Nfqlb.Props.C67_tells", "Nfqlb.Props.C67_total_partial", "Nfqlb.Props.C67_violated"], "note": "Same decision, same state and the text are proved for every packet for which the handler returns. That tracing stops nothing is false (C67_violated: ICMP header cut off, target read after release, trace flow deleted concurrently); C67_total_partial excludes these."},
{"property": "C68", "status": "partial", "theorems": ["Nfqlb.Props.C68_arrive_partial", "Nfqlb.Props.C68_exact", "Nfqlb.Props.C68_finish_partial", "Nfqlb.Props.C68_violated"], "note": "False exactly for the packets of C92, the match expressions of C47, and UDP port 0 (C68_violated, C68_exact); proved for all others."},
{"property": "C69", "status": "proved", "theorems": ["Nfqlb.Props.C69_selection", "Nfqlb.Props.C69_line", "Nfqlb.Props.C69_one"], "note": "Full."},
{"property": "C70", "status": "partial", "theorems": ["Nfqlb.Props.C70_client_partial", "Nfqlb.Props.C70_off_partial", "Nfqlb.Props.C70_violated", "Nfqlb.Props.C70_greeting", "Nfqlb.Props.C70_early_partial"], "note": "Proved for one client at a time; false for two (C70_violated). C70_early_partial: what other threads trace between accept and the announcement comes before it; so do messages of the log if log is selected (C98_greeting)."},
{"property": "C71", "status": "partial", "theorems": ["Nfqlb.Props.C71_alive_partial", "Nfqlb.Props.C71_again_partial", "Nfqlb.Props.C71_violated"], "note": "False if the client leaves before the server ignores SIGPIPE (C71_violated); proved otherwise."},
{"property": "C72", "status": "partial", "theorems": ["Nfqlb.Props.C72_others_partial", "Nfqlb.Props.C72_own", "Nfqlb.Props.C72_violated"], "note": "False: double close (C72_violated); proved if nothing is opened between the two calls."},
{"property": "C73", "status": "partial", "theorems": ["Nfqlb.Props.C73_tcp", "Nfqlb.Props.C73_layout", "Nfqlb.Props.C73_unix_partial", "Nfqlb.Props.C73_refused_partial", "Nfqlb.Props.C73_safe_partial", "Nfqlb.Props.C73_violated", "Nfqlb.Props.C73_glibc"], "note": "The code violates the statement (C73_violated): long unix names overflow sun_path, ports are taken modulo 2^32, an empty port is accepted."},
{"property": "C74", "status": "partial", "theorems": ["Nfqlb.Props.C74_ipv4", "Nfqlb.Props.C74_ipv6", "Nfqlb.Props.C74_tier", "Nfqlb.Props.C74_argv", "Nfqlb.Props.C74_safe_partial", "Nfqlb.Props.C74_argv_safe_partial", "Nfqlb.Props.C74_violated"], "note": "The code violates the statement for IPv4 addresses in brackets (C74_violated); IPv6 without extension headers."},
{"property": "C75", "status": "proved", "theorems": ["Nfqlb.Props.C75_value", "Nfqlb.Props.C75_commands", "Nfqlb.Props.C75_tested"], "note": ""},
{"property": "C76", "status": "partial", "theorems": ["Nfqlb.Props.C76_single", "Nfqlb.Props.C76_range", "Nfqlb.Props.C76_refused", "Nfqlb.Props.C76_some", "Nfqlb.Props.C76_argv", "Nfqlb.Props.C76_violated", "Nfqlb.Props.C76_exact", "Nfqlb.Props.C76_number"], "note": "Proved for all decimal numbers and ranges up to 65535, in both orders and with a missing number. Not true of other texts: 5-7, 65538, 1:2:3 and texts without a number are accepted (C76_violated). Which texts with a colon are accepted or refused is characterised exactly (C76_exact). Texts without a colon: C76_number."},
{"property": "C77", "status": "partial", "theorems": ["Nfqlb.Props.C77_started", "Nfqlb.Props.C77_numbers", "Nfqlb.Props.C77_no_tun", "Nfqlb.Props.C77_fits", "Nfqlb.Props.C77_safe_partial", "Nfqlb.Props.C77_violated"], "note": "All parts proved; freedom from undefined behaviour only for sizes whose products fit in 32 bits and device names up to 15 characters: --ft_size=0 and --ft_frag=2900000 are accepted and undefined (C77_violated)."},
{"property": "C78", "status": "partial", "theorems": ["Nfqlb.Props.C78_tun_partial", "Nfqlb.Props.C78_violated", "Nfqlb.Props.C78_alloc", "Nfqlb.Props.C78_mtu_exact"], "note": "Proved for names up to 15 characters; longer names overflow in get_mtu, and a failing request for the mtu leaks the socket (C78_violated). When reading the mtu overflows or leaks is characterised exactly (C78_mtu_exact)."},
{"property": "C79", "status": "partial", "theorems": ["Nfqlb.Props.C79_violated", "Nfqlb.Props.C79_values_partial", "Nfqlb.Props.C79_table_partial", "Nfqlb.Props.C79_timeout_violated"], "note": "False as it stands: there is no comma after fragsDiscarded, so the output is never JSON (C79_violated, for all values). With the comma the object has all counters with their values. The counters that are about the history of the table are proved to be right, modulo 2^32; ttlMillis is the timeout only below 4295 ms."},
{"property": "C80", "status": "proved", "theorems": ["Nfqlb.Props.C80_show", "Nfqlb.Props.C80_shown_iff_active", "Nfqlb.Props.C80_shown_set"], "note": "The output is read back by a reader that knows nothing of the model."},
{"property": "C81", "status": "partial", "theorems": ["Nfqlb.Props.C81_session_partial", "Nfqlb.Props.C81_show_partial", "Nfqlb.Props.C81_no_crash_partial", "Nfqlb.Props.C81_only_named", "Nfqlb.Props.C81_violated"], "note": "Proved for tables of at most 65536 slots (C02) whose size fits (C06). Violated: words that are no numbers are taken as 0 (C81_violated)."},
{"property": "C82", "status": "partial", "theorems": ["Nfqlb.Props.C82_answered", "Nfqlb.Props.C82_set_partial", "Nfqlb.Props.C82_reason_partial", "Nfqlb.Props.C82_delete_partial", "Nfqlb.Props.C82_list", "Nfqlb.Props.C82_set_list_partial", "Nfqlb.Props.C82_violated"], "note": "False as stated (C82_violated): the message about an item to match with 35 or more characters does not fit in the buffer of 64 bytes and has no NUL there, an answer in two pieces has none either (undefined behaviour); an accepted trace flow is not answered and the client exits with -1; wrong source ports are reported as Invalid dports. Proved: the answer is always defined; flow-set if the answer comes in one piece and items to match have at most 34 characters (unchanged flows after a failure only without udpencap); the reasons with this exception; flow-delete; the lists in any pieces."},
{"property": "C83", "status": "proved", "theorems": ["Nfqlb.Props.C83_init", "Nfqlb.Props.C83_populate", "Nfqlb.Props.C83_same", "Nfqlb.Props.C83_limits", "Nfqlb.Props.C83_not_prime"], "note": "For every MAX_M and MAX_N. That p is a prime is needed: C83_not_prime shows that populate leaves the array for 4 slots (the callers must choose a prime, nothing in lib/maglev.c checks it)."},
{"property": "C84", "status": "partial", "theorems": ["Nfqlb.Props.C84_same_size_partial", "Nfqlb.Props.C84_table_partial", "Nfqlb.Props.C84_window_partial", "Nfqlb.Props.C84_deleted", "Nfqlb.Props.C84_release_partial", "Nfqlb.Props.C84_truncated", "Nfqlb.Props.C84_violated", "Nfqlb.Props.C84_release", "Nfqlb.Props.C84_load"], "note": "The statement is violated. Every init empties the file first, and a packet at this moment is a bus error for every table (C84_truncated); then the file holds uninitialised memory, which is used as an index; after an init with other dimensions the running load-balancer goes on with the old ones and uses fwmarks of no active target, or crashes on each packet when the file has become shorter; after the memset packets get fwmark 0; release unmaps by the new size (C84_violated). Proved: with the same dimensions the new table is used once init has ended; from the memset on there is no undefined behaviour and the target is 0 or none; after delete nothing changes for the running load-balancer. Memory is modelled in 4-byte words."},
{"property": "C85", "status": "partial", "theorems": ["Nfqlb.Props.C85_shared_partial", "Nfqlb.Props.C85_first_partial", "Nfqlb.Props.C85_loglevel", "Nfqlb.Props.C85_violated"], "note": "Proved for all interleavings if the object exists, or if the first process creates it before another one starts. Violated if two processes start at the same time without the object: the one that comes later truncates the object that the first has mapped already (bus error at the next log message), a level that was set is lost, or a process dies with FAILED mapSharedData (C85_violated)."},
{"property": "C86", "status": "partial", "theorems": ["Nfqlb.Props.C86_lb_partial", "Nfqlb.Props.C86_xlb_partial", "Nfqlb.Props.C86_flowlb_partial", "Nfqlb.Props.C86_key", "Nfqlb.Props.C86_lb_all", "Nfqlb.Props.C86_never_too_long", "Nfqlb.Props.C86_violated"], "note": "Proved for all packets without IPv6 extension headers, for lb, xlb and flowlb; for all packets, that what is copied has no key or the key of the packet. Violated: a packet with extension headers longer than the mtu is dropped, and a later fragment longer than the mtu is stored and injected without its end, because the test for its length can never fail (C86_violated)."},
{"property": "C87", "status": "partial", "theorems": ["Nfqlb.Props.C87_setup_partial", "Nfqlb.Props.C87_exit", "Nfqlb.Props.C87_defined", "Nfqlb.Props.C87_verdicts", "Nfqlb.Props.C87_rcvbuf_partial", "Nfqlb.Props.C87_violated", "Nfqlb.Props.C87_setup_exact"], "note": "Set-up proved for queue numbers below 65536 (larger ones are cut: 65538 sets up queue 2), receive buffer for products below 2^32 (2863312 * 1500 wraps to a size of 0): both proved in C87_violated. Verdicts, room in the buffers and exits hold without restriction. C87_setup_exact: for all numbers, it is the number modulo 65536 that is set up."},
{"property": "C88", "status": "partial", "theorems": ["Nfqlb.Props.C88_whole_partial", "Nfqlb.Props.C88_options_partial", "Nfqlb.Props.C88_violated", "Nfqlb.Props.C88_missing"], "note": "The statement is violated: one IPv6 first fragment that goes on with an extension header stops the program for ever, and an ICMP packet that is cut off is undefined behaviour (C88_violated); init and delete of the shared memory in use: C84. Proved for all other packets and lines: the whole path, with the default options for the fragment table (C88_whole_partial), and with any options with which the program starts (C88_options_partial; ft_size not 0). Messages are handled one after the other; each command runs to its end between two messages (C07, C33 for what happens in between). Statistics, trace, log and the injection of stored fragments are left out. If the shared memory of a table is missing, nfqlb lb exits (C88_missing)."},
{"property": "C89", "status": "partial", "theorems": ["Nfqlb.Props.C89_whole_partial", "Nfqlb.Props.C89_options_partial", "Nfqlb.Props.C89_violated"], "note": "The statement is violated: the IPv6 first fragment of C88 stops the program, and a refused flow-set for a flow that exists with another target leaves the flow with a load-balancer that was freed; the next packet is undefined behaviour (C89_violated). Proved for all other events: the whole path with the default options for the fragment table (C89_whole_partial) and with any options with which the program starts (C89_options_partial; ft_size not 0). Left out: flows for SCTP in UDP (C42), UDP packets to port 0 (they leak a reference, C43), init and delete of shared memory in use (C84), overlapping requests and packets (C07, C33, C72)."},
{"property": "C90", "status": "proved", "theorems": ["Nfqlb.Props.C90_room", "Nfqlb.Props.C90_few"], "note": "C90_few: at most ft_buckets datagrams and ft_frag later fragments in the whole history always fit. Calls do not overlap in time (C33)."},
{"property": "C91", "status": "partial", "theorems": ["Nfqlb.Props.C91_whole_partial", "Nfqlb.Props.C91_options_partial", "Nfqlb.Props.C91_violated"], "note": "Proved for packets that are not cut off and do not make the parser loop, with init and delete of other shared memory only. False as stated (C91_violated): ICMPv6 errors of type 3 (time exceeded) are sent by their own addresses, not by those of the packet they are about; the parser loops for first IPv6 fragments that go on with an extension header, and reads beyond the end of packets that are cut off in ICMP."},
{"property": "C92", "status": "proved", "theorems": ["Nfqlb.Props.C92_ipv4", "Nfqlb.Props.C92_ipv6", "Nfqlb.Props.C92_turns"], "note": "If-and-only-if characterisation of the violations of C12 and C13."},
{"property": "C93", "status": "proved", "theorems": ["Nfqlb.Props.C93_through", "Nfqlb.Props.C93_only", "Nfqlb.Props.C93_ipv4"], "note": "Calls do not overlap in time (see C33 for threads). Room is counted over the whole history, because the table is never cleaned as a whole (C94). When the first fragment has no target it is not registered, and what waits for it is lost, as is the datagram. That packets written to the tun device come back is the kernel's part."},
{"property": "C94", "status": "partial", "theorems": ["Nfqlb.Props.C94_stats_partial", "Nfqlb.Props.C94_violated"], "note": "False for the load-balancers: old entries are only looked at when a packet with a key in the same bucket comes, and the one function that cleans the whole table (ctStats) is never called by them. A fragment whose first fragment never comes can keep its place for ever, and others are refused for lack of room (C94_violated, for every time). It holds once the statistics are read (C94_stats_partial)."},
{"property": "C95", "status": "partial", "theorems": ["Nfqlb.Props.C95_flow", "Nfqlb.Props.C95_trace", "Nfqlb.Props.C95_only", "Nfqlb.Props.C95_default", "Nfqlb.Props.C95_second", "Nfqlb.Props.C95_again_partial", "Nfqlb.Props.C95_violated", "Nfqlb.Props.C95_violated_port0"], "note": "Proved for unix sockets, the default. False for TCP addresses: SO_REUSEADDR is not set, so after an answer to flow-list (the server closes first) nfqlb flowlb can not be started again until the kernel has forgotten the connection (C95_violated, for every host and port). With port 0 the server runs but no client reaches it (C95_violated_port0). Also by C95_second: two load-balancers in one network namespace need different --trace_address, or the second ends."},
{"property": "C96", "status": "partial", "theorems": ["Nfqlb.Props.C96_trace", "Nfqlb.Props.C96_terminal", "Nfqlb.Props.C96_list_partial", "Nfqlb.Props.C96_client", "Nfqlb.Props.C96_violated", "Nfqlb.Props.C96_mask"], "note": "nfqlb trace on a terminal proved completely, also from the trace server on (with C70). The list commands only for outputs that take everything: they ignore the result of write, so that a gap in the output goes with exit code 0; and if the output is no terminal, trace prints the mask last, or never if it is ended by a signal (C96_violated)."},
{"property": "C97", "status": "partial", "theorems": ["Nfqlb.Props.C97_ipv4", "Nfqlb.Props.C97_ipv6_partial", "Nfqlb.Props.C97_icmp", "Nfqlb.Props.C97_icmp6_partial", "Nfqlb.Props.C97_error", "Nfqlb.Props.C97_error6_partial", "Nfqlb.Props.C97_others", "Nfqlb.Props.C97_violated"], "note": "Proved for IPv4 with TCP/UDP/SCTP, with ICMP, with ICMP errors that quote a packet with ports, with all other protocols, and for the same over IPv6 without extension headers. False for IPv6 with extension headers: wrong ports are shown, or nothing (C97_violated; reason: C15). ICMPv6 errors 3 and 4 are shown with the addresses of the message, not of the quoted packet (C18)."},
{"property": "C98", "status": "partial", "theorems": ["Nfqlb.Props.C98_log", "Nfqlb.Props.C98_client", "Nfqlb.Props.C98_refines", "Nfqlb.Props.C98_greeting", "Nfqlb.Props.C98_once_partial", "Nfqlb.Props.C98_alive_partial", "Nfqlb.Props.C98_violated", "Nfqlb.Props.C98_message", "Nfqlb.Props.C98_idle", "Nfqlb.Props.C98_transcript"], "note": "The messages of the threads are on standard error once and in order, always (C98_log), a client gets those it wants exactly once (C98_client, up to those that are about to be written, in an order in which threads overtake each other). False: until the first client is accepted tracefile is stderr, so what is selected is written there, and messages twice (C98_violated); proved afterwards (C98_once_partial). With log selected a message of the trace server comes before the announcement (C98_greeting). Missing in C98_alive_partial: clients that leave at other times (as C71). What the message of the server before the announcement says is C98_message. The messages of the server itself: C98_transcript, C98_idle."},
{"property": "C99", "status": "partial", "theorems": ["Nfqlb.Props.C99_frees_partial", "Nfqlb.Props.C99_check_partial", "Nfqlb.Props.C99_violated", "Nfqlb.Props.C99_clock", "Nfqlb.Props.C99_time"], "note": "False as it stands: MAXTIME seconds are multiplied with 10^9 in signed arithmetic, so every call is undefined, and now.tv_nsec is not initialised, so that even with wrapping arithmetic the assertions of SANITY_CHECK may fail (C99_violated). With wrapping arithmetic everything comes back, whatever tv_nsec is, since ctDestroy collects again with UINT64_MAX (C99_frees_partial); with a valid tv_nsec the assertions hold (C99_check_partial). Times before the year 2262 do not overflow (C99_clock). Only tests call the function."},
{"property": "C100", "status": "proved", "theorems": ["Nfqlb.Props.C100_range", "Nfqlb.Props.C100_threads"], "note": "C100_threads is about any list of numbers that are different modulo 65536, C100_range adds the command line (C76). What the kernel does with a message is the small specification of C87."},
{"property": "C101", "status": "partial", "theorems": ["Nfqlb.Props.C101_alone_partial", "Nfqlb.Props.C101_stats_partial", "Nfqlb.Props.C101_exact", "Nfqlb.Props.C101_violated", "Nfqlb.Props.C101_none", "Nfqlb.Props.C101_default"], "note": "Proved if no two load-balancers have the same --ft_shm. Violated otherwise, and lb and flowlb have the same default name: the size of the hash table is read from the shared memory for each packet (conntrack.c:102), so that the start of a second load-balancer makes the first one divide by 0, or, if the table of the second one is larger, take a bucket behind the end of its own (C101_violated, for all sizes). When this happens is characterised exactly (C101_exact)."}
]}
