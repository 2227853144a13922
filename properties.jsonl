{"id": "C01", "title": "RFC 6052 embedding round-trips", "statement": "Embedding an IPv4 address in a pool6 prefix and then extracting it with the same prefix returns the original IPv4 address, for every legal prefix length.", "quantifier": "for all IPv4 addresses, all IPv6 prefixes, all six legal lengths", "why_tests_cant": "2^32 addresses times 2^128 prefixes; tests sample a handful", "anchors": ["src/mod/common/rfc6052.c: __rfc6052_4to6, __rfc6052_6to4, rfc6052_6to4"]}
{"id": "C02", "title": "RFC 6052 result shape", "statement": "An embedded address lies inside the prefix, its reserved octet (bits 64-71) is zero unless the prefix itself covers those bits, its suffix is zero, and a prefix length other than 32/40/48/56/64/96 is refused; extraction refuses any address outside the prefix.", "quantifier": "for all addresses and all prefixes (any length 0..255)", "why_tests_cant": "the input space is astronomically large and the layout differs per length", "anchors": ["src/mod/common/rfc6052.c: __rfc6052_4to6, __rfc6052_6to4, rfc6052_6to4"]}
{"id": "C03", "title": "RFC 6052 is injective and extraction is exact only on canonical addresses", "statement": "Two different IPv4 addresses never embed to the same IPv6 address. Extract-then-embed returns the starting IPv6 address exactly when that address has the reserved octet and suffix zeroed; otherwise traffic of two IPv6 nodes would be indistinguishable on the IPv4 side.", "quantifier": "for all pairs of addresses and all legal prefixes", "why_tests_cant": "injectivity is a universally quantified statement over pairs", "anchors": ["src/mod/common/rfc6052.c"]}
{"id": "C04", "title": "Prefix arithmetic means what it says", "statement": "Asking whether a prefix contains an address answers yes exactly when the first len bits agree; asking whether two prefixes intersect answers yes exactly when some address is in both; the size-of-prefix count equals the number of addresses it contains.", "quantifier": "for all prefixes (len 0..32 / 0..128) and all addresses", "why_tests_cant": "boundary lengths (0, 32, 128) and masks are classic off-by-one sites; exhaustive tests are impossible", "anchors": ["src/mod/common/address.c: prefix4_contains, prefix6_contains, prefix4_intersects, prefix4_get_addr_count, get_prefix4_mask"]}
{"id": "C05", "title": "Prefix validation accepts exactly canonical prefixes", "statement": "The configuration interface accepts an IPv4/IPv6 prefix iff its length is in range and every bit past the length is zero.", "quantifier": "for all addresses and lengths", "why_tests_cant": "2^128 addresses by 256 lengths", "anchors": ["src/mod/common/address.c: prefix4_validate, prefix6_validate"]}
{"id": "C06", "title": "Scope screening", "statement": "Without the force flag a prefix is refused iff it shares at least one address with one of the non-global subnets (0/8, 127/8, 169.254/16, 224/4, 255.255.255.255/32); translatable-scope checks on single addresses agree with the same list.", "quantifier": "for all IPv4 prefixes and addresses", "why_tests_cant": "needs every prefix length against every subnet", "anchors": ["src/mod/common/address.c: prefix4_validate_scope, prefix4_has_subnet_scope, ipv4_is_... must_not_translate"]}
{"id": "C07", "title": "Denylist is a faithful multiset", "statement": "After any history of denylist add/remove/flush requests the denylist reports an address as denied iff it belongs to a prefix that has been added more times than removed since the last flush; the listing returns exactly those prefixes and pagination neither repeats nor omits.", "quantifier": "for all request histories, all addresses", "why_tests_cant": "quantifies over unbounded histories", "anchors": ["src/mod/common/db/denylist4.c: denylist4_add, denylist4_rm, denylist4_flush, denylist4_contains, denylist4_foreach"]}
{"id": "C08", "title": "EAMT lookup is longest-prefix match", "statement": "After any history of EAMT additions and removals, looking up an address finds the entry with the longest prefix containing it, or none if no entry contains it.", "quantifier": "for all histories of table updates and all addresses", "why_tests_cant": "the radix tree has several reshaping cases whose interplay only appears in long histories", "anchors": ["src/mod/common/rtrie.c: rtrie_add, rtrie_rm, rtrie_find, find_longest_common_prefix", "src/mod/common/db/eam.c"]}
{"id": "C09", "title": "EAMT updates never touch freed memory", "statement": "No history of EAMT additions and removals makes the table read or write a node that was already freed, nor lose nodes still in use.", "quantifier": "for all histories", "why_tests_cant": "dangling parent pointers only matter several operations later", "anchors": ["src/mod/common/rtrie.c: swap_nodes, rtrie_rm, add_full_collision, add_split_node"]}
{"id": "C10", "title": "EAMT refuses overlaps unless forced", "statement": "Without the force flag the EAMT never ends up with two entries whose IPv6 prefixes overlap or whose IPv4 prefixes overlap.", "quantifier": "for all histories of non-forced additions and removals", "why_tests_cant": "requires all pairs of prefixes and all insertion orders", "anchors": ["src/mod/common/db/eam.c: validate_overlapping, eamt_add"]}
{"id": "C11", "title": "EAM address translation is reversible", "statement": "Translating an IPv4 address through an EAM entry yields an address inside the entry's IPv6 prefix, and translating that back yields the original; in the other direction the round trip is exact iff the IPv6 bits beyond the IPv4 suffix are zero.", "quantifier": "for all entries accepted by the table and all addresses", "why_tests_cant": "all prefix length pairs by all addresses", "anchors": ["src/mod/common/db/eam.c: eamt_xlat_6to4, eamt_xlat_4to6, validate_prefixes"]}
{"id": "C12", "title": "The two halves of the EAMT stay in step", "statement": "An entry can be found by its IPv6 prefix iff it can be found by its IPv4 prefix, the reported count equals the number of entries, a failed addition changes nothing and removals by either prefix or both remove exactly the matching entry.", "quantifier": "for all histories including failed operations (duplicate, no memory)", "why_tests_cant": "error-path rollback needs every failure point in every state", "anchors": ["src/mod/common/db/eam.c: eamt_add, __rm, eamt_rm, eamt_flush, eamt_is_empty"]}
{"id": "C13", "title": "SIIT address translation priority", "statement": "In SIIT, an address is translated by the EAMT if an entry matches; else by pool6; addresses that are denylisted, of untranslatable scope, or outside of pool6 are never translated by the algorithmic mapping; and translating 4->6->4 returns the original address whenever both steps use the same mechanism.", "quantifier": "for all addresses and configurations", "why_tests_cant": "cross product of configuration flags, tables and addresses", "anchors": ["src/mod/common/address_xlat.c: addrxlat_siit64, addrxlat_siit46"]}
{"id": "C14", "title": "pool4 is a set of transport addresses", "statement": "After any history of pool4 additions and removals for a mark, a transport address belongs to the mark's pool iff some successful addition after the last removal covering it covers it; port ranges of each address remain sorted, disjoint and non-adjacent.", "quantifier": "for all histories of add/remove/flush with arbitrary ranges", "why_tests_cant": "merging/splitting of ranges has many geometrical cases; histories are unbounded", "anchors": ["src/mod/common/db/pool4/db.c: pool4_add_range, remove_range, fix_collisions, slip_in"]}
{"id": "C15", "title": "pool4 address counter", "statement": "The number of transport addresses the pool4 table believes it has equals the number it actually has, for any history, so that masking never divides by zero and never skips or repeats candidates.", "quantifier": "for all histories", "why_tests_cant": "counter drift is invisible until a particular later sequence", "anchors": ["src/mod/common/db/pool4/db.c: pool4_add_range, remove_range, slip_in, mask_domain_find, taddr_count"]}
{"id": "C16", "title": "Mask enumeration is complete and duplicate-free", "statement": "When a new connection needs an IPv4 mask, the candidates offered enumerate every transport address of the pool exactly once (in a rotation starting at the hash offset) before giving up, unless the configured maximum number of iterations is reached first, in which case exactly that many are offered.", "quantifier": "for all pool layouts, offsets and iteration limits", "why_tests_cant": "quantifies over pools of any shape and 2^32 offsets", "anchors": ["src/mod/common/db/pool4/db.c: mask_domain_find, mask_domain_next, compute_max_iterations"]}
{"id": "C17", "title": "pool4 membership agrees across marks", "statement": "A transport address is reported as belonging to the NAT64 iff some mark's pool contains it, for any history of additions/removals of several marks.", "quantifier": "for all histories over all marks", "why_tests_cant": "two independent indexes must agree after every history", "anchors": ["src/mod/common/db/pool4/db.c: pool4db_add, pool4db_rm, pool4db_contains, rm_from_addr_tree"]}
{"id": "C18", "title": "pool4 table lookup by mark is total", "statement": "Any mark given to pool4 can be found again: the mark-indexed table behaves as a finite map over all 2^32 marks.", "quantifier": "for all mark sets and insertion orders", "why_tests_cant": "comparison overflow only shows for marks 2^31 apart in particular tree shapes", "anchors": ["src/mod/common/db/pool4/db.c: cmp_mark, find_table, rbtree"]}
{"id": "C19", "title": "BIB is a bijection", "statement": "At any time, no two BIB entries of a protocol share an IPv6 transport address, and no two share an IPv4 transport address; hence the translation of a flow is deterministic and reversible.", "quantifier": "for all packet/administrator/joold/timer histories", "why_tests_cant": "arbitrary interleavings of traffic and configuration", "anchors": ["src/mod/common/db/bib/db.c: tree6, tree4, commit_add6, commit_add, bib_add6, bib_add4, bib_add_static, bib_add_session"]}
{"id": "C20", "title": "Session uniqueness and ownership", "statement": "No two sessions of the same BIB entry have the same remote IPv4 transport address, every session belongs to a live BIB entry and vice versa the lookup by packet in either direction finds the same session.", "quantifier": "for all histories", "why_tests_cant": "unbounded histories", "anchors": ["src/mod/common/db/bib/db.c: find_session_slot, commit_add6, attach_session"]}
{"id": "C21", "title": "Lifetime of BIB entries", "statement": "A dynamic BIB entry exists iff it has at least one session; a static entry survives the expiry of all of its sessions and disappears only through an explicit removal or flush.", "quantifier": "for all histories", "why_tests_cant": "histories with static/dynamic conversions and expirations in any order", "anchors": ["src/mod/common/db/bib/db.c: rm, detach_bib, decide_fate, __clean, bib_rm, bib_add_static"]}
{"id": "C22", "title": "Each session is on exactly one timer, sorted by age", "statement": "Every session is linked to exactly one expiration list of its protocol, and each list is ordered from the oldest update to the newest, so stopping the sweep at the first unexpired session misses nothing.", "quantifier": "for all histories with non-decreasing clock", "why_tests_cant": "depends on all the paths which move a session between timers", "anchors": ["src/mod/common/db/bib/db.c: expire_timer, decide_fate, attach_timer, handle_fate_timer, handle_fate_timer_slow, __clean"]}
{"id": "C23", "title": "No premature and no missed expiration", "statement": "A sweep removes (or probes) a session iff its idle time reached the configured timeout of its timer; sessions updated more recently are untouched.", "quantifier": "for all tables and times", "why_tests_cant": "all clock values and list contents", "anchors": ["src/mod/common/db/bib/db.c: __clean, bib_clean"]}
{"id": "C24", "title": "TCP state machine conforms to RFC 6146", "statement": "For every state and every segment (v4/v6 x SYN/FIN/RST/none), the next state and timer are those of RFC 6146 section 3.5.2.2 (with the documented deviations); over any segment sequence a session becomes ESTABLISHED only after SYNs from both sides or after recovery from TRANS, and closes only after FIN from both sides or RST.", "quantifier": "for all sequences of segments", "why_tests_cant": "sequences are unbounded", "anchors": ["src/mod/common/steps/filtering_and_updating.c: tcp_state_machine and its per-state functions, tcp_est_expire_cb, tcp_trans_expire_cb"]}
{"id": "C25", "title": "TCP state and timer agree", "statement": "A TCP session waiting on the two-hour established timer is always in a state in which RFC 6146 uses this timer (ESTABLISHED, V4 FIN RCV or V6 FIN RCV), so the expiration of the established timer never hits the can't-happen branch.", "quantifier": "for all histories without malformed synchronization messages", "why_tests_cant": "invariant over unbounded histories", "anchors": ["src/mod/common/steps/filtering_and_updating.c: tcp_est_expire_cb", "src/mod/common/db/bib/db.c: decide_fate"]}
{"id": "C26", "title": "Simultaneous-open storage is bounded and accounted", "statement": "The number of stored SYN packets never exceeds the configured maximum, the counter equals the number of stored packets, and each stored packet is eventually either replayed as an ICMP error, dropped, or consumed: never both and never twice.", "quantifier": "for all histories", "why_tests_cant": "counter drift appears only through rare administrative/traffic interleavings", "anchors": ["src/mod/common/db/bib/db.c: pkt_count, __bib_add_static, bib_add_tcp4, bib_add_tcp6", "src/mod/common/db/bib/pkt_queue.c"]}
{"id": "C27", "title": "Simultaneous-open upgrade is memory safe", "statement": "When an IPv6 SYN matches a stored IPv4 SYN the stored session is upgraded into the database or discarded; in no history is a freed object inserted into the database.", "quantifier": "for all histories", "why_tests_cant": "needs collision between mask allocation and a stored packet", "anchors": ["src/mod/common/db/bib/db.c: find_bib_session6, upgrade_pktqueue_session, commit_add6"]}
{"id": "C28", "title": "Address-dependent filtering", "statement": "With address-dependent filtering enabled, an IPv4 UDP or ICMP packet that would create a session is accepted iff the BIB entry already has a session with the same IPv4 peer address (any port).", "quantifier": "for all session trees and packets", "why_tests_cant": "the implementation decides during a binary search that visits only part of the tree", "anchors": ["src/mod/common/db/bib/db.c: find_session_slot, bib_add4"]}
{"id": "C29", "title": "New BIB entries use pool4 and never steal", "statement": "A BIB entry created by an IPv6 packet gets an IPv4 transport address that was offered by the pool and was not in use by another BIB entry; if no such address exists the packet is dropped and the state does not change.", "quantifier": "for all states and pools", "why_tests_cant": "search crosses two trees and a wrap-around", "anchors": ["src/mod/common/db/bib/db.c: find_available_mask, try_next, issue216 logic"]}
{"id": "C30", "title": "Range removal is exact", "statement": "Removing a pool4 range from the BIB deletes exactly the entries whose IPv4 transport address is in the range, along with their sessions, static or not.", "quantifier": "for all tables and ranges", "why_tests_cant": "tree navigation with removal while iterating", "anchors": ["src/mod/common/db/bib/db.c: bib_rm_range, bib_flush"]}
{"id": "C31", "title": "Pagination of BIB and session dumps", "statement": "Listing the table page by page with the last printed entry as offset returns every entry present throughout exactly once, in order, even if entries are added or removed between pages.", "quantifier": "for all tables, page sizes and interleaved updates", "why_tests_cant": "pages x interleavings are unbounded", "anchors": ["src/mod/common/db/bib/db.c: bib_foreach, bib_foreach_session, find_starting_point, find_session_offset"]}
{"id": "C32", "title": "Session synchronization message round-trips", "statement": "A session serialized by one joold instance and parsed by another yields the same session (addresses, ports, protocol, state, timer kind and remaining lifetime up to rounding), for TCP, UDP and ICMP.", "quantifier": "for all sessions", "why_tests_cant": "bit packing over all field values", "anchors": ["src/mod/common/nl/attribute.c: jnla_put_session_joold, jnla_get_session_joold"]}
{"id": "C33", "title": "Session synchronization parsing is safe", "statement": "No synchronization message makes the parser read outside of the message or yields a session with an undefined protocol, state or timer.", "quantifier": "for all byte strings", "why_tests_cant": "adversarial inputs", "anchors": ["src/mod/common/nl/attribute.c: jnla_get_session_joold", "src/mod/common/joold.c: joold_sync"]}
{"id": "C34", "title": "joold queue is FIFO, bounded and paced", "statement": "Sessions leave the joold queue in arrival order, each at most once; a multicast packet never has more than the configured number of sessions; unless a session is dropped because of the capacity limit, nothing is lost; no packet is sent before the previous one is acknowledged or the deadline passes.", "quantifier": "for all histories of adds, acks, ticks and advertisements", "why_tests_cant": "unbounded schedules", "anchors": ["src/mod/common/joold.c: joold_add, joold_ack, joold_advertise, should_send, send_to_userspace, joold_clean"]}
{"id": "C35", "title": "Synchronization converges", "statement": "Applying a received session to a table which has it updates its state and timestamps only; applying it to a table without it adds it; applying it twice equals applying it once; and a session which conflicts with a local one never replaces it.", "quantifier": "for all tables and sessions", "why_tests_cant": "all tables", "anchors": ["src/mod/common/joold.c: add_new_session, collision_cb", "src/mod/common/db/bib/db.c: bib_add_session"]}
{"id": "C36", "title": "ICMP type/code mapping follows RFC 7915", "statement": "The ICMPv4<->ICMPv6 type/code mapping equals the RFC 7915 tables for all 65536 type/code pairs in each direction; echo request/reply round-trip; anything not listed is dropped.", "quantifier": "for all type/code pairs", "why_tests_cant": "full table equality and round-trip are universally quantified", "anchors": ["src/mod/common/rfc7915/6to4.c: ttp64_icmp & xlat64_icmp_type", "src/mod/common/rfc7915/4to6.c: xlat46_icmp_type"]}
{"id": "C37", "title": "Parameter-problem pointers", "statement": "The pointer of a translated Parameter Problem designates the field corresponding to the original per RFC 7915 figures 3 and 6; untranslatable pointers are dropped.", "quantifier": "for all pointer values", "why_tests_cant": "full table equality over 2^32 / 2^8 pointers", "anchors": ["src/mod/common/rfc7915/6to4.c: icmp6_to_icmp4_param_prob_ptr", "src/mod/common/rfc7915/4to6.c: icmp4_to_icmp6_param_prob_ptr"]}
{"id": "C38", "title": "Checksums stay valid across translation", "statement": "If the transport checksum of the incoming packet is correct, then the checksum of the translated packet is correct with respect to the new pseudoheader/headers; if it was incorrect it stays incorrect (corruption is never hidden).", "quantifier": "for all headers and payloads", "why_tests_cant": "one's complement arithmetic corner cases (0 vs 0xffff) over all payloads", "anchors": ["src/mod/common/rfc7915/6to4.c: update_csum_6to4, update_icmp4_csum", "src/mod/common/rfc7915/4to6.c: update_csum_4to6, update_icmp6_csum"]}
{"id": "C39", "title": "4->6 fragmentation covers the payload exactly", "statement": "When an IPv4 packet has to be fragmented on the IPv6 side the fragments are contiguous, non-overlapping, each within the MTU, all but the last multiples of eight, and reassemble to exactly the original payload at its original offset with the correct more-fragments flag.", "quantifier": "for all payload lengths, offsets and MTUs", "why_tests_cant": "all sizes x MTUs", "anchors": ["src/mod/common/rfc7915/4to6.c: allocate_slow, autofill_hdr6, ttp46_alloc_skb"]}
{"id": "C40", "title": "MTU advice is translated within bounds", "statement": "A translated Packet Too Big / Fragmentation Needed never advertises an MTU larger than what the translated packet could use nor below the protocol minimum, for every advertised MTU.", "quantifier": "for all MTUs, link MTUs and plateau tables", "why_tests_cant": "32-bit arithmetic with wrap-around", "anchors": ["src/mod/common/rfc7915/6to4.c: compute_mtu4, validate_size", "src/mod/common/rfc7915/4to6.c: icmp6_minimum_mtu"]}
{"id": "C41", "title": "ICMP extension arithmetic", "statement": "After translating an ICMP error the packet does not exceed the protocol's maximum (576 / 1280), the length field is consistent with where the extension starts, aligned to the destination protocol's unit and fits in its field; the original datagram is padded to at least 128 bytes if an extension follows.", "quantifier": "for all packet sizes and length fields", "why_tests_cant": "all sizes", "anchors": ["src/mod/common/rfc7915/common.c: handle_icmp_extension", "src/mod/common/rfc7915/6to4.c, 4to6.c callers"]}
{"id": "C42", "title": "IPv6 extension-header walk", "statement": "Walking the extension header chain of any received packet terminates, never reads outside of the packet, and the two independent walkers (classification and header iterator) agree about transport protocol and offset on every accepted packet.", "quantifier": "for all byte strings", "why_tests_cant": "adversarial inputs", "anchors": ["src/mod/common/packet.c: summarize_skb6", "src/mod/common/ipv6_hdr_iterator.c: hdr_iterator_next, hdr_iterator_last"]}
{"id": "C43", "title": "IPv4 option scan terminates", "statement": "Looking for an unexpired source route in the IPv4 options terminates on every packet and stays inside of the header.", "quantifier": "for all option byte strings", "why_tests_cant": "adversarial inputs", "anchors": ["src/mod/common/rfc7915/4to6.c: has_unexpired_src_route"]}
{"id": "C44", "title": "Accepted packets have complete headers", "statement": "Once a packet is accepted for translation all the network and transport header bytes that the translator reads are inside of the linear buffer; an ICMP error contains at most one nested packet.", "quantifier": "for all packets", "why_tests_cant": "adversarial inputs", "anchors": ["src/mod/common/packet.c: pkt_init_ipv4, pkt_init_ipv6, handle_icmp4, handle_icmp6, validate_inner4, validate_inner6"]}
{"id": "C45", "title": "Hop limit", "statement": "A packet that arrives with TTL/hop limit 0 or 1 is never forwarded (a time-exceeded error is returned); otherwise exactly one is subtracted, also when the packet is hairpinned through two translations.", "quantifier": "for all packets", "why_tests_cant": "composition of two translations", "anchors": ["src/mod/common/rfc7915/6to4.c, 4to6.c: hop limit handling", "src/mod/common/steps/handling_hairpinning_*.c"]}
{"id": "C46", "title": "Fragment fields survive translation", "statement": "Fragment offset and more-fragments are preserved by both directions, identification's low 16 bits are preserved, and a packet which is not a fragment gets no fragment header (except as RFC 7915 requires).", "quantifier": "for all header values", "why_tests_cant": "bit-field manipulations over all values", "anchors": ["src/mod/common/rfc7915/6to4.c: build_ipv4_frag_off, xlat_proto, build_protocol; 4to6.c: will_need_frag_hdr"]}
{"id": "C47", "title": "Plateau list normalization", "statement": "A configured MTU plateau list is stored sorted in strictly decreasing order, without zeros or duplicates, with the same non-zero elements; a list with no usable element is refused.", "quantifier": "for all lists", "why_tests_cant": "all lists", "anchors": ["src/mod/common/nl/attribute.c: validate_plateaus"]}
{"id": "C48", "title": "Instance table uniqueness", "statement": "No two instances in a namespace share translator type and name, and a namespace has at most one Netfilter instance per translator type, whatever sequence of add/remove/atomic replacement is performed.", "quantifier": "for all administrative histories", "why_tests_cant": "unbounded histories", "anchors": ["src/mod/common/xlator.c: validate_collision, xlator_add, xlator_replace, xlator_rm"]}
{"id": "C49", "title": "Atomic configuration is atomic", "statement": "Loading a configuration file changes the running instance only upon the final commit, then to exactly the described configuration; failed or expired uploads leave it unchanged; existing BIB and sessions survive; no freed memory is accessed.", "quantifier": "for all interleavings of several clients' messages, failures and time-outs", "why_tests_cant": "interleavings are unbounded", "anchors": ["src/mod/common/atomic_config.c: atomconfig_add, commit, get_candidate", "src/mod/common/xlator.c: xlator_replace"]}
{"id": "C50", "title": "Reference counting of instance databases", "statement": "The databases (pool4, BIB, EAMT, ...) of an instance are released exactly when neither the instance table, nor an in-flight packet, nor a pending configuration uses them; never earlier and never twice.", "quantifier": "for all interleavings of packets, removals and replacements", "why_tests_cant": "interleavings are unbounded", "anchors": ["src/mod/common/xlator.c: xlator_get, xlator_put, xlator_find, xlator_replace, destroy_jool_instance"]}
{"id": "C51", "title": "Global settings keep their minima", "statement": "Whatever sequence of global-setting updates is issued the timeouts never fall below the RFC minimum, the lowest IPv6 MTU never below 1280, the hairpin mode and f-args remain in range, and a refused update leaves the setting unchanged.", "quantifier": "for all update sequences", "why_tests_cant": "unbounded histories over 32-bit values", "anchors": ["src/common/global.c: nl2raw_*", "src/mod/common/db/global.c"]}
{"id": "C52", "title": "Hairpin classification", "statement": "A NAT64 packet is sent back through the translator iff its translated destination belongs to pool4; a packet whose IPv6 source is already in pool6 is dropped, so hairpinning never loops.", "quantifier": "for all packets and pools", "why_tests_cant": "universally quantified", "anchors": ["src/mod/common/steps/handling_hairpinning_nat64.c", "src/mod/common/steps/filtering_and_updating.c: ipv6 source check"]}
{"id": "C53", "title": "Outgoing tuple matches the session in both directions", "statement": "The addresses written in a translated packet are the ones of its session, and the reply built by swapping the translated packet's addresses translates back to the swap of the original packet's addresses.", "quantifier": "for all sessions and packets", "why_tests_cant": "quantifies over the state and the packets", "anchors": ["src/mod/common/steps/compute_outgoing_tuple.c", "src/mod/common/steps/determine_incoming_tuple.c"]}
{"id": "C54", "title": "Table statistics equal the real contents", "statement": "After any history of packets, joold messages, timer sweeps and administrative operations, the statistics that count BIB entries and sessions equal the number of entries and sessions that a full dump would list.", "quantifier": "for all histories", "why_tests_cant": "a missed or doubled update only shows in rare orders of operations", "anchors": ["src/mod/common/db/bib/db.c: jstat_inc/jstat_dec of JSTAT_BIB_ENTRIES and JSTAT_SESSIONS"]}
{"id": "C55", "title": "TCP state is only created by SYN packets", "statement": "A TCP packet without SYN never creates a BIB entry or a session; it only follows existing ones.", "quantifier": "for all tables, packets and pools", "why_tests_cant": "depends on state left by earlier packets", "anchors": ["src/mod/common/db/bib/db.c: bib_add_tcp6, bib_add_tcp4, upgrade_pktqueue_session"]}
{"id": "C56", "title": "Isolation between nodes", "statement": "A packet, synchronization message or timer sweep only creates, changes or deletes sessions of its own node or flow (or expired ones, for the sweep, or removed ones, for removals); all the other sessions stay exactly as they were. An IPv6 packet only creates or deletes BIB entries of its source node and an IPv4 packet none.", "quantifier": "for all histories, operations and sessions", "why_tests_cant": "the non-effects are over all other entries of an unbounded table", "anchors": ["src/mod/common/db/bib/db.c: bib_add6, bib_add4, bib_add_tcp6, bib_add_tcp4, bib_add_session, bib_clean, issue216_needed, detach_bib"]}
{"id": "C57", "title": "Address-dependent filtering of TCP", "statement": "With address-dependent filtering enabled, an IPv4 SYN for a known address and an unknown flow is never translated at once: it is either kept, as a session in state V4 INIT with the short timeout, or refused without any effect because the storage is full.", "quantifier": "for all histories, configurations and packets", "why_tests_cant": "depends on the state left by earlier packets", "anchors": ["src/mod/common/db/bib/db.c: bib_add_tcp4"]}
{"id": "C58", "title": "Traffic class", "statement": "The TOS of a packet becomes its traffic class and vice versa (unless configured otherwise), all eight bits of it, and the flow label of translated packets is zero; both for the packet and for the packet inside an ICMP error.", "quantifier": "for all header values and configurations", "why_tests_cant": "bit-level field packing; depends on the kernel version", "anchors": ["src/mod/common/rfc7915/6to4.c: xlat_tos, compute_flowix64, ttp64_ipv4_external", "src/mod/common/rfc7915/4to6.c: ttcp46_ipv6_common"]}
{"id": "C59", "title": "Size checks let through only what fits", "statement": "A packet that the translator decides to send without splitting fits in the MTU of the next hop once translated (and under the configured IPv6 limit if it may be fragmented); a sender that obeys the limit in a rejection is not rejected again.", "quantifier": "for all packet layouts and MTUs", "why_tests_cant": "depends on how the driver laid out the packet in memory and on sizes near the limit", "anchors": ["src/mod/common/rfc7915/6to4.c: fragment_exceeds_mtu64, validate_size", "src/mod/common/rfc7915/4to6.c: fragment_exceeds_mtu46, get_frag_max_size, ttp46_alloc_skb"]}
{"id": "C60", "title": "Listing of pool4 and its iteration limits", "statement": "Listing pool4 in pages of any size while nobody modifies it yields every range of every mark exactly once; a page always continues right after the last entry of the previous one, and if that entry is gone the client is told to start again. The iteration limit of a mark is the one of the last request that carried one, and removals and requests for other marks do not change it; a finite limit is never zero (which means no limit), and no packet tries more candidates than its mark's limit: the given number, or by default 1/128 of the size that is kept for the mark (C15), between 1024 and 8192.", "quantifier": "for all histories, marks, page sizes and packets", "why_tests_cant": "the pages depend on buffer sizes; limits depend on the order of requests", "anchors": ["src/mod/common/db/pool4/db.c: pool4db_foreach_sample, find_offset, compute_max_iterations, max_iterations_validate, pool4db_add, pool4db_update", "src/mod/common/nl/pool4.c: handle_pool4_foreach", "src/usr/nl/pool4.c: joolnl_pool4_foreach"]}
{"id": "C61", "title": "EAMT listing and size", "statement": "Listing the EAMT from the start returns every entry exactly once, continuing the list after any entry returns exactly the remaining ones, and continuing after a prefix that is not in the table either is refused or returns entries of the table, none of them twice. The memory held is proportional to the contents: a table of n entries has fewer than 2n nodes per half.", "quantifier": "for all histories and offsets", "why_tests_cant": "depends on the shape of the tree that the history left behind", "anchors": ["src/mod/common/rtrie.c: rtrie_foreach, find_exact", "src/mod/common/db/eam.c: eamt_foreach"]}
{"id": "C62", "title": "Source of ICMP errors and fate of SIIT packets", "statement": "SIIT translates a packet if and only if its destination can be translated and so can its source, or, if it is an ICMP error whose source has no translation, a substitute (RFC 6791) replaces it: an address of the configured prefix, or none so that the host picks one. Every other packet is returned untouched, and the counter that is incremented names the address that could not be translated.", "quantifier": "for all packets and configurations", "why_tests_cant": "cross product of tables, flags and addresses", "anchors": ["src/mod/common/steps/compute_outgoing_tuple_siit.c: translate_addrs64_siit, translate_addrs46_siit", "src/mod/common/db/rfc6791v4.c: rfc6791v4_find", "src/mod/common/db/rfc6791v6.c: rfc6791v6_find"]}
{"id": "C63", "title": "Hairpinning of EAM nodes", "statement": "With intrinsic hairpinning, two nodes of the EAMT behind the same SIIT translator can reach each other through pool6: the packet arrives from the pool6 address of its sender, the answer arrives at the first node from the very address it had written to, and the packet inside an ICMP error arrives as it was sent. Packets are not sent back if hairpinning is off.", "quantifier": "for all pairs of nodes and configurations (RFC 7757)", "why_tests_cant": "needs two translations of the same packet, with particular tables", "anchors": ["src/mod/common/steps/compute_outgoing_tuple_siit.c: translate_addrs64_siit, translate_addrs46_siit, disable_src_eam, disable_dst_eam"]}
{"id": "C64", "title": "Endpoint-independent mapping", "statement": "As long as an IPv6 transport address has a BIB entry, all of its translated packets leave from the IPv4 transport address of the entry, whatever their destinations. The exception is that pool4 is empty and the address is not one of those that the translator may use now: then the entry is deleted and a candidate takes its place.", "quantifier": "for all histories, packets and pools", "why_tests_cant": "depends on the entry's age and on changes to pool4 and the interfaces", "anchors": ["src/mod/common/db/bib/db.c: issue216_needed, find_bib_session6, bib_add6, bib_add_tcp6", "src/mod/common/db/pool4/db.c: mask_domain_matches, mask_domain_is_dynamic"]}
{"id": "C65", "title": "Settings can be listed and loaded back", "statement": "Listing the global settings in pages of any size returns each setting of the instance's type exactly once, with its current value; feeding such a listing to another instance of the same type (with force) is always accepted and makes every setting equal.", "quantifier": "for all reachable settings and page sizes", "why_tests_cant": "32 settings with their own encodings and validations; the pages depend on buffer sizes", "anchors": ["src/common/global.c: raw2nl_*, nl2raw_*, globals_metadata", "src/mod/common/db/global.c: globals_foreach", "src/mod/common/nl/global.c: handle_global_foreach, global_update", "src/usr/nl/global.c: joolnl_global_foreach"]}
{"id": "C66", "title": "What comes in from IPv4, and what is handed back", "statement": "A UDP or echo packet from IPv4 to a transport address of pool4 is translated if and only if that address has a BIB entry and, with address-dependent filtering, the node behind it has a session with the packet's source address; if the filter forbids it, it is dropped with an ICMP error. Packets that are not the translator's (IPv4 packets without BIB entry or not to pool4; IPv6 packets not to pool6) continue their way through the kernel, and the translator's tables are as if they had never come.", "quantifier": "for all states, configurations and packets; for IPv6, of all histories", "why_tests_cant": "depends on the sessions, the time and the whole configuration", "anchors": ["src/mod/common/core.c: core_common, core_4to6, core_6to4, validate_xlator", "src/mod/common/steps/filtering_and_updating.c: filtering_and_updating, ipv4_simple, ipv6_simple", "src/mod/common/db/bib/db.c: bib_add4", "src/mod/common/steps/determine_incoming_tuple.c"]}
{"id": "C67", "title": "Requests and listings arrive intact", "statement": "Whatever entry (EAM, pool4, BIB, denylist prefix, instance; for addition, removal or as the position at which to continue a listing) the client puts in a request, the kernel module reads exactly that entry from the message. Whatever entries the module puts in a page of a listing, the client reads exactly those: a prefix of what was left to list, with the 'more' flag if and only if something was left out, and at least one entry if the message has room for one. The answer of an address query says the address and the method that the module found.", "quantifier": "for all entries, lists of entries and message sizes", "why_tests_cant": "two separately written encoders and decoders of nested attributes, with paddings, lengths and policies", "anchors": ["src/mod/common/nl/attribute.c", "src/usr/nl/attribute.c", "src/mod/common/nl/eam.c: handle_eamt_rm", "src/mod/common/nl/bib.c: handle_bib_rm", "src/mod/common/nl/address.c", "src/usr/nl/address.c", "src/usr/nl/eamt.c: __update"]}
{"id": "C68", "title": "Requests are read safely", "statement": "No bytes in the operand or offset of a request make the kernel module read outside of the attributes, dereference NULL or use unset memory; a request that lacks a mandatory attribute is refused and the optional ones default to zero. The client reads the module's responses equally safely.", "quantifier": "for all byte strings, with or without strict validation", "why_tests_cant": "attacker-chosen bytes: an unbounded space of malformed nestings", "anchors": ["src/mod/common/nl/attribute.c", "src/common/config.c: policies", "src/usr/nl/attribute.c"]}
{"id": "C69", "title": "Requests do what was asked, to whom it was asked", "statement": "A privileged client's request about the EAMT, the denylist, pool4 or the BIB has on the instance that it names exactly the effect of the operation with the given arguments and options, and the answer is the operation's result. No message, whatever its bytes, changes an instance that it does not name or one of the other type; nor does one without privileges, with another version, another type of instance or an unknown name change anything. A refused request leaves everything as it was. Any sequence of messages leaves the databases in states that sequences of operations can leave them in, without undefined behaviour.", "quantifier": "for all requests, byte strings, states and sequences of messages", "why_tests_cant": "needs the whole way from the client's call to the database, and malformed messages from untrusted clients", "anchors": ["src/mod/common/nl/nl_common.c: request_handle_start, get_iname, __request_handle_start", "src/mod/common/nl/eam.c", "src/mod/common/nl/denylist4.c", "src/mod/common/nl/pool4.c: handle_pool4_rm", "src/mod/common/nl/bib.c: handle_bib_rm", "src/usr/nl/core.c: joolnl_alloc_msg", "src/usr/nl/{eamt,denylist4,pool4,bib}.c: __update"]}
{"id": "C70", "title": "Every request is answered, and the client learns the outcome", "statement": "The module answers a request once, and the client reports success if and only if the operation was done; otherwise it reports the operation's error code and the messages that the module logged for this request, in order, each cut at 255 characters, and no other request's. Whatever fails on the way (memory, routing of the answer), the handlers give back the buffers, arrays and references that they took, and use none after that.", "quantifier": "for all requests, errors, texts, failures and histories of requests", "why_tests_cant": "a lost buffer or a mixed text only shows in failures that tests do not provoke", "anchors": ["src/mod/common/error_pool.c", "src/mod/common/log.c: log_err", "src/mod/common/nl/nl_core.c", "src/mod/common/nl/{eam,denylist4,pool4,bib,session,global,address,stats,instance}.c: handle_*", "src/usr/nl/core.c: joolnl_request, response_handler, joolnl_msg2result", "src/usr/util/result.c"]}
{"id": "C71", "title": "Statistics are listed completely and count what happened", "statement": "A statistic is the sum of what was counted, on whichever processors and in whatever order, as long as it fits in a machine word. Listing the statistics in pages of any size shows each of them exactly once, in order, under its own name, with its value when its page was written.", "quantifier": "for all histories of counts, numbers of processors, and page sizes", "why_tests_cant": "depends on concurrent counts on several processors and on the sizes of the messages", "anchors": ["src/mod/common/stats.c", "src/mod/common/nl/stats.c: handle_stats_foreach", "src/usr/nl/stats.c: stats_query_response, joolnl_stats_foreach", "src/mod/common/xlator.c: xlator_replace"]}
{"id": "C72", "title": "What the client prints can be typed back, and what is typed means what it says", "statement": "Numbers, timeouts, port ranges, prefixes, transport addresses, MTU plateaus and settings that the client prints are read back as the same values. A timeout [[HH:]MM:]SS[.mmm] is read as what it is worth; a text that is not of the documented form, or whose value does not fit, is refused. The fields of a line of a listing, typed after the command that adds or removes such entries, ask for exactly that entry; whatever the options and arguments of a command, the request that is sent has the values that were typed and no others, and the instance undergoes it.", "quantifier": "for all values, texts and command lines", "why_tests_cant": "an unbounded space of texts; silent truncation shows only for particular values", "anchors": ["src/usr/util/str_utils.c", "src/common/global.c: print_*, str2nl_*", "src/usr/argp/wargp.c", "src/usr/argp/wargp/{eamt,denylist4,pool4,bib,global}.c", "src/usr/argp/dns.c"]}
{"id": "C73", "title": "Configuration texts are read as JSON defines them", "statement": "Any JSON text (RFC 8259; with any white space, escapes, surrogate pairs, numbers and nesting, but without U+0000) is read as the value that it spells, and no other; a text that is not JSON is refused. Reading comes to an end and stays inside of the text and the strings that it allocates, whatever the text.", "quantifier": "for all texts and all nested values", "why_tests_cant": "unbounded texts; two loops that have to agree about the length of every string", "anchors": ["src/usr/util/cJSON.c: cJSON_Parse, parse_value, parse_string, parse_number, parse_array, parse_object, parse_hex4, skip"]}
{"id": "C74", "title": "Loading a configuration file leaves exactly what the file describes, or nothing", "statement": "When a configuration file is loaded and success is reported, the instance that the file names has exactly the framework, the settings and the entries that the file lists (in whatever order, of whatever number, distributed over however many messages), starting from the defaults; whatever other clients did meanwhile, nothing else changes at that moment. A file with an error anywhere in it never takes effect: the message that commits the upload is the last one and is only sent if the file is correct to its end and everything before was accepted. A correct file is not refused by the client. Nothing is sent if the framework or the name is wrong, or differs from the one of the command line.", "quantifier": "for all files (of any length), message sizes, and interleavings with other clients", "why_tests_cant": "unbounded files that are split over messages, interleaved with other clients; errors late in the file", "anchors": ["src/usr/nl/file.c", "src/usr/nl/json.c", "src/common/global.c: json2nl_*, globals_metadata", "src/mod/common/atomic_config.c: atomconfig_add, handle_*", "src/mod/common/nl/atomic_config.c"]}
{"id": "C75", "title": "Every packet has one owner, whatever fails", "statement": "The verdict of the hook says what became of the packet. Stolen: either its translation was sent, completely and without error, and the packet was freed; or the TCP table keeps it, and nothing was sent. Accept or continue: the packet is as it was, nothing was sent, and it was not answered. Drop: the packet still exists for the kernel to free; it was answered with at most one ICMP error, and with none if a part of its translation had been sent. Every packet that is sent has a route, is alone, and has the mark of the packet that it stands for. Whatever fails on the way (memory, routes, sending, the packet inside of an ICMP error, turning around), and after any history of packets, administration and timeouts: packets, routes, translation states and instances are used only while they exist, are released exactly once, and what exists is what the TCP table keeps.", "quantifier": "for all packets, verdicts of every step, failures, and histories", "why_tests_cant": "leaks and uses after free only happen in combinations of failures that tests do not provoke; a leak is invisible", "anchors": ["src/mod/common/core.c", "src/mod/common/kernel_hook_netfilter.c", "src/mod/common/kernel_hook_iptables.c", "src/mod/common/translation_state.c", "src/mod/common/rfc7915/core.c", "src/mod/common/rfc7915/common.c", "src/mod/common/rfc7915/6to4.c: ttp64_alloc_skb, predict_route64", "src/mod/common/rfc7915/4to6.c: ttp46_alloc_skb, allocate_fast, allocate_slow, autofill_dst", "src/mod/common/steps/send_packet.c", "src/mod/common/route_out.c", "src/mod/common/icmp_wrapper.c", "src/mod/common/steps/handling_hairpinning_*.c", "src/mod/common/db/bib/db.c: send_probe_packet, post_fate", "src/mod/common/db/bib/pkt_queue.c"]}
{"id": "C76", "title": "Translating a packet only writes its new headers", "statement": "The translation of an accepted packet consists of the new headers followed by exactly the bytes that followed the old ones (in an ICMP error: the new headers of the error and of the packet inside of it, followed by what comes behind those; cut or rearranged only as the rules for ICMP errors and their extensions say). Its length field is its length. If it is sent as several fragments, their payloads are, one after the other, that of the one packet; each is as long as allowed, and its offset and length are right. The incoming packet remains as it was. No byte outside of the two packets is read or written, wherever in memory they are, and there is at least as much room before the new packet as there was before the old one (or the standard one).", "quantifier": "for all accepted packets, header lengths, distributions of the packet over linear and paged memory, contents of fresh memory and values of the translated fields", "why_tests_cant": "writes that are out of bounds by a few bytes often have no visible effect; it depends on combinations of header lengths, fragments, nested packets and paged memory", "anchors": ["src/mod/common/rfc7915/4to6.c: allocate_fast, allocate_slow, get_delta, ttp46_ipv6_external, ttp46_ipv6_internal, autofill_hdr6, ttp46_tcp, ttp46_udp, ttp46_icmp, post_icmp6error, trim_1280", "src/mod/common/rfc7915/6to4.c: ttp64_alloc_skb, ttp64_ipv4_external, ttp64_ipv4_internal, ttp64_tcp, ttp64_udp, ttp64_icmp, post_icmp4error, update_total_length, trim_576", "src/mod/common/rfc7915/common.c: move_pointers_in, move_pointers_out, become_inner_packet, restore_outer_packet, ttpcomm_translate_inner_packet", "src/mod/common/packet.h"]}
{"id": "C77", "title": "What leaves is the packet that RFC 7915 describes", "statement": "For every accepted packet that is not an ICMP error and does not have to be split: it is dropped exactly if its TTL or hop limit is used up, its source route has not been used up, it is an ICMP message without counterpart, or it is a UDP/IPv4 datagram without checksum for which the configuration does not say to compute one. Otherwise what leaves, byte for byte, is a packet of the other protocol: version, lengths, addresses, traffic class, TTL, protocol, fragment offset, flags and identification are those of the RFC, the IPv4 header checksum is right, the transport segment is the one that arrived except for ports or identifier and checksum (and type and code of an echo), and the transport checksum is right if and only if it was right before (or is right, if it was left to be computed). No memory outside of the packets is accessed. Another translator accepts what leaves and finds the same transport header in it.", "quantifier": "for all accepted packets (every header field, option, extension header, payload), configurations, assigned addresses and ports, and layouts in memory", "why_tests_cant": "the space of packets is unbounded; a wrong byte may only appear in a combination of fragment, option and extension headers", "anchors": ["src/mod/common/rfc7915/core.c: translating_the_packet", "src/mod/common/rfc7915/4to6.c", "src/mod/common/rfc7915/6to4.c", "src/mod/common/packet.c: pkt_init_ipv4, pkt_init_ipv6"]}
{"id": "C78", "title": "There and back: two translators leave a packet as it was", "statement": "An IPv4 packet that is not an ICMP error, is sent through IPv6 by a stateless translator, and is brought back by another one that maps the addresses back (464XLAT, two SIITs) arrives if its TTL is at least 3, and is then the packet it was: TOS, fragment offset, more-fragments flag, identification of fragments, protocol, addresses, and every byte of the transport segment except for its checksum, which is right if and only if it was right. The TTL is 2 less; options, the DF flag, and the identification of unfragmented packets are not kept.", "quantifier": "for all accepted packets and both translators' configurations that keep the TOS", "why_tests_cant": "unbounded space of packets; two translations that have to agree with each other", "anchors": ["src/mod/common/rfc7915/core.c", "src/mod/common/rfc7915/4to6.c", "src/mod/common/rfc7915/6to4.c", "src/mod/common/packet.c"]}
{"id": "C79", "title": "A conversation through a NAT64, byte by byte", "statement": "The bytes that leave a NAT64 for a TCP, UDP or echo packet that is not a later fragment are a packet of the other protocol and the same kind, between the transport addresses of an entry of the BIB and the destination (its address embedded or extracted with the pool6 prefix): the rest of its bytes is what RFC 7915 says. What the BIB lets through leaves exactly if it has hops left and its source route is used up. The bytes of any answer to it, while its session lasts, leave as a packet from the address which the first packet was sent to, to the address and port which it came from; and if an IPv4 node begins, whatever is sent the other way and leaves, leaves from where the first packet was sent to, to where it came from.", "quantifier": "for all reachable states, configurations, packets (every header field, option, extension header, payload) and answers", "why_tests_cant": "the product of all states of the tables with all packets; a packet of which only a port or a checksum is wrong gets lost silently", "anchors": ["src/mod/common/core.c: core_4to6, core_6to4", "src/mod/common/steps/determine_incoming_tuple.c", "src/mod/common/steps/filtering_and_updating.c", "src/mod/common/steps/compute_outgoing_tuple.c", "src/mod/common/rfc7915/core.c: translating_the_packet", "src/mod/common/packet.c: pkt_init_ipv4, pkt_init_ipv6"]}
{"id": "C80", "title": "The list of instances", "statement": "The list of the instances of a type, in pages of any size, has every instance once and nothing else. While others create, remove and replace instances, every page has only instances that exist at that moment; none is listed twice, none that is there all the time is missing; if the instance after which the list should continue is gone, the client is told so. Asking whether an instance exists is answered with the truth.", "quantifier": "for all reachable states, page sizes and interleaved operations", "why_tests_cant": "depends on what happens between two requests and on collisions of a hash function", "anchors": ["src/mod/common/xlator.c: xlator_foreach, offset_equals", "src/mod/common/nl/instance.c: handle_instance_foreach, handle_instance_hello, serialize_instance", "src/usr/nl/instance.c: joolnl_instance_foreach, handle_foreach_response"]}
{"id": "C81", "title": "ICMP errors: what leaves is the error that RFC 7915 describes", "statement": "An accepted ICMP error is dropped exactly if its TTL or hop limit is used up, its source route is not, it has no counterpart (type, code, or the field that the pointer points at), its checksum is wrong, its length field points beyond the packet, or the packet inside is an ICMP message or a UDP datagram without checksum that cannot be translated. Otherwise what leaves, byte for byte, is an error of the other protocol of at most 1280 (576) bytes: IP header, type and code, pointer, MTU and length field are those of the RFCs, its checksum is right; the packet inside has the translated header (addresses, TTL as it was, the length of the whole packet that caused the error even if it was cut), its transport header with the ports or identifier that the nodes know, a checksum that is right if and only if it was right, even if the router cut the packet; then the same payload, and the extension of RFC 4884 if there was one and there is room for it. No memory outside of the packets is accessed.", "quantifier": "for all accepted ICMP errors (headers, packets inside, extensions, lengths), configurations, addresses, ports, MTUs and layouts in memory", "why_tests_cant": "nested headers, cuts, padding and length fields in every combination; nobody notices a wrong ICMP error", "anchors": ["src/mod/common/rfc7915/core.c: translating_the_packet", "src/mod/common/rfc7915/4to6.c: ttp46_icmp, post_icmp6error, compute_mtu6, ttp46_ipv6_internal", "src/mod/common/rfc7915/6to4.c: ttp64_icmp, post_icmp4error, compute_mtu4, ttp64_ipv4_internal", "src/mod/common/rfc7915/common.c: ttpcomm_translate_inner_packet", "src/mod/common/packet.c: pkt_init_ipv4, pkt_init_ipv6"]}
{"id": "C82", "title": "A SIIT, from bytes to bytes", "statement": "What a stateless translator does with an accepted packet depends on its bytes and on the configuration: it is left to the kernel exactly if one of its addresses (or of those inside of an ICMP error) has no translation; it is dropped if its ICMP type has no counterpart, nobody can be its source, its headers cannot be translated, or it cannot be sent; otherwise it leaves (or turns around) with the addresses of the EAMT or of pool6 and is, byte for byte, the packet of RFC 7915. If two pairs of addresses are translated into each other, then what one node sends to the other leaves from and to the counterparts of both addresses, the answer arrives from the address that was used, and an ICMP error about a packet of the conversation carries that packet with the addresses that its sender used.", "quantifier": "for all EAM tables, pool6 prefixes, denylists, interface addresses, modes, and all accepted packets and errors (every header field, option, extension header, payload)", "why_tests_cant": "product of all address tables with all packets; inner packets of errors use another rule than outer ones", "anchors": ["src/mod/common/core.c: core_common", "src/mod/common/steps/compute_outgoing_tuple_siit.c", "src/mod/common/rfc7915/4to6.c: compute_flowix46, ttp46_alloc_skb", "src/mod/common/rfc7915/6to4.c: compute_flowix64, ttp64_alloc_skb", "src/mod/common/packet.c: pkt_init_ipv4, pkt_init_ipv6"]}
{"id": "C83", "title": "There and back from IPv6, and hairpinning, byte by byte", "statement": "An IPv6 packet that is not an ICMP error and is translated to IPv4 is accepted by a translator that brings it back to IPv6; it goes through exactly if it has hops left, and is then the packet it was: traffic class, fragment offset, more-fragments flag, 16 bits of the identification, next header, and every byte of the transport segment except for its checksum, which is right if and only if it was right. Extension headers, the flow label, and fragment headers of packets that are not fragments are not kept. In particular, what an EAM node sends to the address that it knows of another EAM node of the same translator arrives there with one hop less, from the address that the other one knows of it.", "quantifier": "for all accepted packets, EAM tables, prefixes, and both passes' configurations", "why_tests_cant": "two passes through the translator that have to agree with each other, for an unbounded space of packets", "anchors": ["src/mod/common/steps/handling_hairpinning_siit.c", "src/mod/common/steps/compute_outgoing_tuple_siit.c", "src/mod/common/rfc7915/core.c", "src/mod/common/rfc7915/4to6.c", "src/mod/common/rfc7915/6to4.c"]}
{"id": "C84", "title": "ICMP errors through a NAT64, byte by byte", "statement": "An ICMPv4 error that the NAT64 accepts changes no table; it leaves, as an ICMPv6 error, if and only if the packet inside comes from an address and port that pool4 contains and a BIB entry has, and its headers can be translated; it goes to the node of that entry, and the packet inside is from that node's address and port to the peer's IPv6 address and port. The same holds the other way. In particular, if bytes of a node left as other bytes, then an error about the latter (or about the beginning of them) reaches the sender as long as the entry is listed, and is about the addresses and ports that the sender used.", "quantifier": "for all reachable states, accepted ICMP errors about TCP, UDP and echo packets, configurations, and later states in which the entry is listed", "why_tests_cant": "nested packets, for all table contents and all points in time between the packet and the error", "anchors": ["src/mod/common/core.c: core_4to6, core_6to4", "src/mod/common/steps/determine_incoming_tuple.c", "src/mod/common/steps/filtering_and_updating.c", "src/mod/common/steps/compute_outgoing_tuple.c", "src/mod/common/rfc7915/core.c: translating_the_packet", "src/mod/common/rfc7915/common.c: ttpcomm_translate_inner_packet"]}
{"id": "C85", "title": "Loading and unloading the kernel modules", "statement": "Whatever is inserted and removed (jool_common, jool, jool_siit), configured, translated and timed, and whichever acquisition (memory, cache, hook, pernet operations, iptables targets, Netlink family) fails: nothing is used, called or released that is not there, and nothing is released twice. insmod jool_common works exactly if none of its acquisitions fails, and otherwise leaves nothing behind; the same holds for instances and candidates (other than caches that are kept until the end). After rmmod of jool or jool_siit, none of its instances, hooks and targets is left; after rmmod jool_common, nothing is left at all. A namespace that ceases takes its instances with it.", "quantifier": "for all histories of insertions, removals, namespaces, iptables rules, requests, packets and timers; for all failures of acquisitions in each of them", "why_tests_cant": "every failure at every place of every history; what leaks or dangles is noticed much later and elsewhere", "anchors": ["src/mod/common/init.c: setup_common_modules, teardown_common_modules, jool_siit_get, jool_nat64_get", "src/mod/nat64/jool.c: nat64_init, nat64_exit", "src/mod/siit/jool_siit.c: siit_init, siit_exit", "src/mod/common/xlator.c: xlator_setup, xlator_add, xlator_rm, jool_xlator_flush_net, jool_xlator_flush_batch", "src/mod/common/timer.c", "src/mod/common/db/bib/db.c: bib_alloc, bib_setup", "src/mod/common/joold.c: joold_alloc", "src/mod/common/atomic_config.c: handle_init, candidate_destroy", "src/mod/common/nl/nl_common.c: validate_stateness"]}
{"id": "C86", "title": "Sessions travel between machines through the daemons, unaltered, acknowledged, and the conversation ends", "statement": "In a cluster of NAT64s with one joold daemon each: (1) a batch which the kernel flushes becomes exactly one datagram, and the machine that receives it adds exactly the batch's sessions, in order, with their addresses, ports, state and timer, to the tables of the daemon's instance; datagrams longer than the buffer lose whole sessions at the end, nothing else. (2) Whatever the history (losses, duplicates, reordering, removal and creation of instances, full sockets), every datagram in the network is a nonempty batch of sessions which the sender's kernel offered to the queue of an instance of the daemon's name, and nobody executes anything undefined. (3) While the daemon's instance exists, whenever the daemon has read everything the queue is not waiting for an acknowledgement, and the daemon and the kernel stop talking to each other after at most as many messages as there are pending messages and queued sessions.", "quantifier": "All clusters, all numbers of machines, all histories of packets, timers, advertisements, deliveries (any subset, order and multiplicity), creations and removals; all batches; all circumstances of each step.", "why_tests_cant": "Two programs and two kernels at each end, with losses in three places; the number of interleavings is unbounded, and 'the conversation ends' is about all continuations.", "anchors": ["src/usr/argp/joold/modsocket.c updated_entries_cb, modsocket_send", "src/usr/argp/joold/netsocket.c netsocket_listen, netsocket_send", "src/usr/nl/joold.c", "src/mod/common/nl/joold.c handle_joold_add, handle_joold_ack", "src/mod/common/joold.c send_to_userspace, joold_sync", "src/mod/common/nl/nl_common.c request_handle_start"]}
{"id": "C87", "title": "The choice of ports follows RFC 6056's algorithm 3", "statement": "The position of the pool at which the search for a new connection's transport address begins is F + next_ephemeral. F depends on the fields of the tuple which the setting f-args selects, on the secret key, and on nothing else, and connections which differ in a selected field hash different messages. The search takes the first transport address from that position on (in circles, up to the iteration limit) which no BIB entry has, and adds the number of those it looked at to next_ephemeral, however searches overlap. Hence connections in a row with the same selected fields receive consecutive transport addresses, each at the first attempt while they are free; no two connections receive the same one. If F cannot be computed the packet is dropped, nothing changes and nothing leaks.", "quantifier": "All tuples, settings, keys, hash functions, byte orders, failures of the kernel's crypto API, pools, contents of the BIB, values of next_ephemeral, rows of connections, and interleavings of searches.", "why_tests_cant": "The hash function is unknown to tests and the counter is global; wrapping of the 32-bit sum occurs once in billions.", "anchors": ["src/mod/common/db/pool4/rfc6056.c rfc6056_f, hash_tuple", "src/mod/common/db/pool4/db.c mask_domain_find, mask_domain_next, mask_domain_commit", "src/mod/common/db/bib/db.c find_available_mask"]}
{"id": "C88", "title": "IPv4 packets that do not fit are split as RFC 7915 says, or refused", "statement": "Let n be the size which an accepted IPv4 packet (not an ICMP error) would have as one IPv6 packet. It is dropped if the next hop's MTU or lowest-ipv6-mtu is below 1280. If it has DF and n exceeds the next hop's MTU, it is not sent, and its sender is told the next hop's MTU minus 20. Otherwise it leaves exactly if it would leave if it were small; with DF, or if n fits both MTUs, as one packet, and else as at least two fragments, each of which fits both. Byte for byte: the fragments have the packet's class, hop limit, addresses and protocol, its identification, consecutive offsets in multiples of 8 that begin at the packet's own, and the more-fragments flag on all but the last, which has the packet's; put together they are the packet's segment with the new ports and checksum, and the checksum is right if and only if it was right. Nothing outside of the packets' memory is touched. A datagram without checksum gets one that is right for all of it.", "quantifier": "for all accepted packets (every header field, option, payload, fragment), all MTUs, configurations, assigned addresses and ports, and layouts in memory", "why_tests_cant": "sizes, offsets and MTUs are coupled by rounding to 8; only the receiver of all fragments notices a wrong checksum or a missing byte", "anchors": ["src/mod/common/rfc7915/4to6.c: ttp46_alloc_skb, allocate_slow, allocate_fast, autofill_hdr6, ttp46_udp, ttp46_tcp, handle_zero_csum", "src/mod/common/rfc7915/core.c: translating_the_packet"]}
{"id": "C89", "title": "Commands may be abbreviated, and what a command line does is what its words mean", "statement": "A word means the option of that name or, if there is none, the only visible option whose name begins with it. A command line whose words, one by one, mean the options of a path to a command runs that command, with the words from the last one on; no other command line runs it. If a word could mean several options, or none, nothing runs and the message lists exactly those that it could mean, or all visible ones. Full names always work. jool_siit runs no command that only NAT64 has, and jool none that only SIIT has. Completion offers exactly the visible options whose names begin with the last word (or the last word, if it is a name), and everything it offers is accepted. The programs read nothing beyond their strings and do not crash.", "quantifier": "for all command lines, both programs, and (but for the names and the last sentences) all trees of commands", "why_tests_cant": "command lines are unbounded; abbreviations depend on all names of a level at once, and hidden or foreign ones must not count", "anchors": ["src/usr/argp/main.c: find_matches, __handle, handle, handle_autocomplete, tree", "src/usr/argp/command.c: cmdopt_is_hidden", "src/usr/argp/wargp/global.c: build_global_update_children"]}
{"id": "C90", "title": "IPv4 packets of any size reach the IPv6 node, whole or in pieces, through the tables of the instance", "statement": "Through a NAT64: an accepted IPv4 packet of any size (not an ICMP error) changes the tables exactly as if it were small. If the tables let it through, it is dropped because of an MTU below 1280, or refused because it has DF and exceeds the next hop's MTU (its sender is then told that MTU minus 20), or lost because its headers cannot be translated, or sent, exactly under the conditions on its bytes; if it is sent, what leaves is a packet, or are pieces which put together are a packet, from the peer to the node that owns the BIB entry. Hence an answer of any size reaches the node that asked. If the network refuses one of the pieces, it got those before it and gets none behind it. Through a SIIT: the same, with the addresses that the EAM table and the prefix assign; ICMP errors never are too big.", "quantifier": "for all reachable tables, accepted packets, MTUs, configurations, and failures of the network", "why_tests_cant": "couples the contents of the tables to the splitting of the bytes", "anchors": ["src/mod/common/core.c: core_common, core_4to6", "src/mod/common/steps/send_packet.c: sendpkt_send", "src/mod/common/rfc7915/4to6.c: ttp46_alloc_skb, predict_route46", "src/mod/common/steps/filtering_and_updating.c", "src/mod/common/steps/compute_outgoing_tuple.c"]}
{"id": "C91", "title": "IPv4 packets that one stateless translator splits arrive, in fragments, behind another one", "statement": "If an accepted IPv4 packet without DF (not ICMP) is too big for the IPv6 network between two stateless translators, then each of the IPv6 packets that it is split in is accepted by the second translator, and leaves it if and only if the packet's TTL was at least 3. What leaves are IPv4 fragments with the packet's addresses, TOS, protocol and identification, TTL less 2, without DF, with right header checksums, consecutive offsets that begin at the packet's own, and the more-fragments flag on all but the last, which has the packet's. Put together they are the packet's segment except for the checksum, which is right if and only if it was. No fragment of a ping is accepted, hence pings that big get lost, always.", "quantifier": "for all accepted packets (and fragments), MTUs, pairs of translators whose address translations are inverse to each other, and layouts in memory", "why_tests_cant": "two translators, several packets in between; whether the checksum is right depends on all fragments together", "anchors": ["src/mod/common/rfc7915/4to6.c: ttp46_alloc_skb, allocate_slow, ttcp46_ipv6_common", "src/mod/common/rfc7915/6to4.c: ttp64_ipv4_external, generate_df_flag", "src/mod/common/packet.c: pkt_init_ipv6, handle_icmp6"]}
{"id": "C92", "title": "Two nodes behind the same NAT64 reach each other, from bytes to bytes", "statement": "If the bytes of an IPv6 packet (TCP, UDP or echo) whose destination contains a pool4 address leave as an IPv6 packet, then both nodes have BIB entries, and what leaves is the same kind of packet, from the address that contains the pool4 address of the first node, with its pool4 port, to the IPv6 transport address of the second node. Its hop limit is one less (not two), its lengths are right, a fragment is still a fragment of the same datagram, no other extension header is left, and everything behind the headers is what was sent except ports or identifier and the checksum. The checksum is right if it was (also over the payload of the other fragments), and always if it was left to the hardware. A packet that the tables let through twice gets lost in the translation if and only if its hop limit is less than 2 or it has a source route. Between the two passes, what the translator remembers about the packet is what it would find if it had received it. Hence a datagram between two nodes with BIB entries arrives.", "quantifier": "for all reachable tables, accepted packets, configurations, layouts in memory, and kinds of checksums", "why_tests_cant": "two translations in one, the second of which begins in the middle of the first one's memory, perhaps without a checksum; depends on two entries of the tables", "anchors": ["src/mod/common/steps/handling_hairpinning_nat64.c: handling_hairpinning_nat64", "src/mod/common/core.c: core_common", "src/mod/common/rfc7915/6to4.c: ttp64_alloc_skb", "src/mod/common/rfc7915/4to6.c: ttp46_ipv6_common, ttp46_udp", "src/mod/common/packet.h: pkt_fill"]}
{"id": "C93", "title": "Configuration files are read from the first to the last byte, and the daemon is configured as they say", "statement": "If nobody changes the file meanwhile, reading it yields its contents or an error, after at most as many answers of the system as the file has bytes; without errors, the first one suffices. The program stays in its memory. Whatever fails, the file is closed as often as it was opened, and the buffer is released unless the caller gets it. A file that spells a value in JSON, in any way, is loaded as that value. The daemon starts with a configuration if and only if it is the one that its two files describe: each setting has the value of the first member of that name, or its default; texts are texts, and the time to live is an integer between 0 and 256.", "quantifier": "for all files, answers of the system (failures included), spellings, and pairs of files", "why_tests_cant": "short reads, errors in the middle of a file and files that change meanwhile cannot be provoked at will", "anchors": ["src/usr/util/file.c: file_to_string", "src/usr/nl/file.c: joolnl_file_parse", "src/usr/joold/json.c: read_json, json2str, json2int", "src/usr/joold/joold.c: modsocket_config, netsocket_config, main"]}
{"id": "C94", "title": "A rule of iptables hands its packets to the instance that it names", "statement": "A rule that is added with valid names is for the last one of them (without any, for the default instance), and nothing is written outside of the rule. The kernel accepts a rule if and only if its name is a terminated string of at most 15 printable characters, and its type is one of the two. A packet that matches the rule is translated by the instance of that name, if it is of that type, of the namespace of the packet, and made for iptables; if there is no such instance, the packet goes on with the next rule. What is saved can be restored.", "quantifier": "for all options, contents of memory, namespaces, histories of instances, and rules made by other programs", "why_tests_cant": "names, types, frameworks and namespaces combine; rules outlive instances", "anchors": ["src/usr/iptables/common.c: jool_tg_init, iname_validate, jool_tg_parse, jool_tg_save", "src/mod/common/kernel_hook_iptables.c: target_checkentry, find_instance", "src/mod/common/xlator.c: xlator_find"]}
{"id": "C95", "title": "CSV listings are CSV files that say what is in the tables", "statement": "What the clients print with --csv (and --numeric) is a CSV file: one record with the names of the columns unless these are not wanted, and one record for each entry that arrives, in that order. Each record has as many fields as there are columns, and says what the entry is: transport addresses, prefixes, protocols, ports, marks, iterations, expiration times and states of sessions; values of settings can be typed back, and statistics that are zero are left out unless all are wanted. Each file is read in one way only; hence tables whose listings are equal are equal.", "quantifier": "for all tables, with and without headers", "why_tests_cant": "a field with a comma, a quote or a line break breaks the file, and the table may have any number of entries with any values", "anchors": ["src/usr/argp/wargp/session.c: handle_display_response", "src/usr/argp/wargp/bib.c: print_entry", "src/usr/argp/wargp/eamt.c: print_entry", "src/usr/argp/wargp/denylist4.c: print_entry", "src/usr/argp/wargp/pool4.c: display_entry_csv", "src/usr/argp/wargp/global.c: handle_display_response", "src/usr/argp/wargp/stats.c: handle_jstat", "src/usr/argp/wargp/instance.c: print_entry_csv", "src/usr/argp/dns.c: print_addr6, print_addr4"]}
{"id": "C96", "title": "The statistics of the daemon are true, whatever its threads do", "statement": "Each number of a report of the daemon (packets and bytes from the kernel, from the network, to the network) is one that was true at some moment between the request and the report: it counts everything that had been dealt with before the request, and nothing that came after the report. This holds however the threads of the daemon are interleaved, and for any number of reports at the same time. The report always fits in its buffer; it is a CSV file with one record for each number, and reports of different numbers differ.", "quantifier": "for all interleavings of all histories of messages, datagrams, failures to send and requests", "why_tests_cant": "depends on the scheduling of several threads, and on the order in which the compiler loads the counters", "anchors": ["src/usr/argp/joold/statsocket.c: serve_stats", "src/usr/argp/joold/netsocket.c: netsocket_listen, netsocket_send", "src/usr/argp/joold/modsocket.c: updated_entries_cb"]}
{"id": "C97", "title": "A daemon that starts is a member of the group that it was told to join", "statement": "The daemon listens to the network if and only if its socket could be bound to one of the addresses that the name of the group has; it is the first one for which that is possible. Before any thread listens, that socket has joined this group at the interface that was configured (any, without one), does not hear itself, and its datagrams have the configured hop limit and leave through the configured interface. No other socket is bound for the sessions. If anything of this fails, no thread listens and the daemon does not start. The statistics are served if and only if each address gets a socket and each socket a thread.", "quantifier": "for all configurations and all answers of the system, failures of any call included", "why_tests_cant": "each system call can fail, and which addresses a name has depends on the machine", "anchors": ["src/usr/argp/joold/netsocket.c: netsocket_start, create_socket, try_address, adjust_mcast_opts, handle_mcast4_opts, handle_mcast6_opts", "src/usr/argp/joold/statsocket.c: statsocket_start, create_sockets", "src/usr/argp/wargp/session.c: joold_start, handle_session_proxy", "src/usr/joold/joold.c: main"]}
{"id": "C98", "title": "Whoever follows the sessions sees each of them, and what it is", "statement": "After its two introductory lines, session follow prints a CSV file with one record for each session that the kernel sends for the instance that is followed, in that order, and none for sessions of other instances. Each record says the protocol, the transport addresses of the IPv6 node, of the mask and of the IPv4 node, and how long the session has left; records of different sessions differ.", "quantifier": "for all messages of a kernel of the same version, of any instances, with any sessions", "why_tests_cant": "any number of instances and sessions; each field goes through a binary format with a byte order of its own", "anchors": ["src/usr/argp/joold/modsocket.c: updated_entries_cb, print_sessions, jnla_get_session_joold", "src/usr/argp/wargp/session.c: handle_session_follow", "src/mod/common/nl/attribute.c: jnla_put_session_joold"]}
{"id": "C99", "title": "The report of memory leaks is the list of the leaks", "statement": "In a module that is compiled with JKMEMLEAK: if no more objects of a kind are freed than were allocated, the tracker never warns, and the report has exactly one line for each kind of which more objects were allocated than freed, with the difference, sorted by kind. Nothing is reported if and only if nothing leaked.", "quantifier": "for all histories of allocations and releases, of any kinds, and all shapes that the tree of the tracker may take", "why_tests_cant": "any number of kinds and objects; the shape of the tree depends on the history", "anchors": ["src/mod/common/wkmalloc.c: wkmalloc_add, wkmalloc_rm, wkmalloc_print_leaks", "src/mod/common/db/rbtree.h: rbtree_find, rbtree_find_slot"]}
