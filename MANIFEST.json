{
 "claims": [
  {
   "property": "C01",
   "status": "proved",
   "theorems": [
    "Jool.rfc6052_roundtrip",
    "Jool.rfc6052_refusals"
   ],
   "note": "Every legal prefix length, every prefix and every IPv4 address."
  },
  {
   "property": "C02",
   "status": "proved",
   "theorems": [
    "Jool.rfc6052_4to6_correct",
    "Jool.rfc6052_6to4_correct"
   ],
   "note": "Bit-by-bit description of the RFC 6052 table, stated without the model's byte shuffling."
  },
  {
   "property": "C03",
   "status": "proved",
   "theorems": [
    "Jool.rfc6052_4to6_injective",
    "Jool.rfc6052_extract_embed",
    "Jool.rfc6052_6to4_injective_on_canonical"
   ],
   "note": ""
  },
  {
   "property": "C04",
   "status": "proved",
   "theorems": [
    "Jool.prefix4_contains_correct",
    "Jool.prefix6_contains_correct",
    "Jool.prefix4_intersects_correct",
    "Jool.prefix4_foreach_correct"
   ],
   "note": ""
  },
  {
   "property": "C05",
   "status": "proved",
   "theorems": [
    "Jool.prefix4_validate_correct",
    "Jool.prefix6_validate_correct"
   ],
   "note": ""
  },
  {
   "property": "C06",
   "status": "proved",
   "theorems": [
    "Jool.prefix4_validate_scope_correct",
    "Jool.addr4_scope_correct"
   ],
   "note": ""
  },
  {
   "property": "C07",
   "status": "partial",
   "theorems": [
    "Jool.Denylist4.denylist_refines",
    "Jool.Denylist4.denylist_contains_correct",
    "Jool.Denylist4.denylist_listing_partial",
    "Jool.Denylist4.denylist_listing_loops"
   ],
   "note": "Membership and multiset refinement proved for every history. The paginated listing is only correct when no prefix was added twice: denylist_listing_loops proves the code accepts duplicates and then never finishes listing."
  },
  {
   "property": "C08",
   "status": "partial",
   "theorems": [
    "Jool.Rtrie.trie_history_partial",
    "Jool.Rtrie.find_longest",
    "Jool.Rtrie.disjoint_history",
    "Jool.Rtrie.step_refines",
    "Jool.Rtrie.sibling_hides",
    "Jool.Rtrie.sibling_hides_add_only",
    "Jool.Rtrie.orphan_loses_table",
    "Jool.RtrieKey.keyMatch_eq",
    "Jool.RtrieKey.keyContains_eq",
    "Jool.RtrieKey.keyEquals_eq",
    "Jool.Eam.lookup6",
    "Jool.Eam.lookup4",
    "Jool.Eam.contains6_spec",
    "Jool.Eam.contains4_spec",
    "Jool.Eam.history_partial",
    "Jool.Eam.not_longest",
    "Jool.Eam.key_bytes"
   ],
   "note": "Trie and EAMT: holds for histories that add prefixes from the outside in and remove prefixes whose contents are nested (in particular, whenever prefixes do not overlap). The full claim is false (witnesses)."
  },
  {
   "property": "C09",
   "status": "partial",
   "theorems": [
    "Jool.Rtrie.trie_refines_partial",
    "Jool.Rtrie.no_leak_partial",
    "Jool.Rtrie.disjoint_history",
    "Jool.Rtrie.swap_use_after_free",
    "Jool.Rtrie.swap_use_after_free2",
    "Jool.Rtrie.nomem_leaks",
    "Jool.Rtrie.nodes_once",
    "Jool.Rtrie.swap_list",
    "Jool.RtrieKey.inodeKey_eq",
    "Jool.Eam.history_partial",
    "Jool.Eam.use_after_free"
   ],
   "note": "Same histories as C08. Otherwise the code writes to freed memory (witnesses; use_after_free needs no force flag), and an addition that runs out of memory leaks a node."
  },
  {
   "property": "C10",
   "status": "partial",
   "theorems": [
    "Jool.Eam.no_overlaps_partial",
    "Jool.Eam.subset_refused",
    "Jool.Eam.superset_accepted"
   ],
   "note": "Holds if no prefix is added that contains the prefix of an existing entry; superset_accepted shows that such an addition is accepted without force."
  },
  {
   "property": "C11",
   "status": "proved",
   "theorems": [
    "Jool.Eam.xlat64_bits",
    "Jool.Eam.xlat46_bits",
    "Jool.Eam.xlat46_inside",
    "Jool.Eam.xlat64_inside",
    "Jool.Eam.roundtrip46",
    "Jool.Eam.roundtrip64",
    "Jool.Eam.xlat46_inj",
    "Jool.Eam.table_roundtrip",
    "Jool.Eam.table_reversible",
    "Jool.Eam.validate_iff"
   ],
   "note": ""
  },
  {
   "property": "C12",
   "status": "partial",
   "theorems": [
    "Jool.Eam.step_refines",
    "Jool.Eam.history_partial",
    "Jool.Eam.halves_agree",
    "Jool.Eam.failed_add",
    "Jool.Eam.rm_nomem_diverges"
   ],
   "note": "Same histories as C08. A removal that runs out of memory leaves the halves different (witness)."
  },
  {
   "property": "C13",
   "status": "partial",
   "theorems": [
    "Jool.Siit.siit64_spec",
    "Jool.Siit.siit46_spec",
    "Jool.Siit.siit_roundtrip",
    "Jool.Siit.error_sources_unscreened",
    "Jool.Siit.exInst_ok"
   ],
   "note": "Priorities and round trip: complete. Sources of ICMP errors are not screened, so denylisted addresses and addresses of wrong scope are translated there (witness)."
  },
  {
   "property": "C14",
   "status": "partial",
   "theorems": [
    "Jool.Pool4.pool4_set",
    "Jool.Pool4.pool4_sorted",
    "Jool.Pool4.pool4_add_accepts",
    "Jool.Pool4.pool4_full",
    "Jool.Pool4.add_use_after_free",
    "Jool.Pool4.rm_use_after_free",
    "Jool.Pool4.rm_enomem_loses"
   ],
   "note": "Sorted, disjoint, not adjacent: every history. The set: every history in which memory allocations succeed and the allocator does not move a table that the code keeps using (witnesses add_use_after_free, rm_use_after_free; rm_enomem_loses for failed allocations)."
  },
  {
   "property": "C15",
   "status": "partial",
   "theorems": [
    "Jool.Pool4.counter_partial",
    "Jool.Pool4.pool4_sane_partial",
    "Jool.Pool4.counter_fuse",
    "Jool.Pool4.counter_hole",
    "Jool.Pool4.counter_div_zero",
    "Jool.Pool4.port_zero_div_zero",
    "Jool.Pool4.icmp_div_zero"
   ],
   "note": "The counter is right as long as no addition enlarges a stored range and no removal splits one. Otherwise it is wrong (witnesses) and the next packet may divide by zero; it also does with port 0 alone and with the identifiers of a /16."
  },
  {
   "property": "C16",
   "status": "partial",
   "theorems": [
    "Jool.Pool4.enumeration",
    "Jool.Pool4.enumeration_exact",
    "Jool.Pool4.enumeration_empty",
    "Jool.Pool4.masks_ok",
    "Jool.Pool4.enumeration_skips",
    "Jool.Pool4.enumeration_repeats"
   ],
   "note": "Complete and without repetition whenever the counter is right; witnesses of skipped and repeated candidates when it is not (C15)."
  },
  {
   "property": "C17",
   "status": "partial",
   "theorems": [
    "Jool.Pool4.contains_sound",
    "Jool.Pool4.contains_complete_partial",
    "Jool.Pool4.contains_empty",
    "Jool.Pool4.contains_incomplete",
    "Jool.Pool4.prefix_lookup",
    "Jool.Pool4.prefix_walk"
   ],
   "note": "Sound for every history. Complete as long as no removal covers addresses that another mark also has; contains_incomplete is the witness."
  },
  {
   "property": "C18",
   "status": "partial",
   "theorems": [
    "Jool.Pool4.mark_lookup_partial",
    "Jool.Pool4.addr_lookup",
    "Jool.Pool4.mark_lost"
   ],
   "note": "Marks whose signed distance fits in an int; beyond that cmp_mark overflows and a stored mark can be lost after a rotation (mark_lost)."
  },
  {
   "property": "C19",
   "status": "proved",
   "theorems": [
    "Jool.Bib.bib_bijection"
   ],
   "note": ""
  },
  {
   "property": "C20",
   "status": "proved",
   "theorems": [
    "Jool.Bib.session_unique"
   ],
   "note": ""
  },
  {
   "property": "C21",
   "status": "partial",
   "theorems": [
    "Jool.Bib.dynamic_has_session",
    "Jool.Bib.static_survives_partial",
    "Jool.Bib.static_survives_timer",
    "Jool.Bib.static_entry_evicted"
   ],
   "note": "Dynamic half proved for every history. Static half: holds except for 6to4 packets whose pool4 mark does not own the entry (issue216 path), which delete the static entry; witness in static_entry_evicted."
  },
  {
   "property": "C22",
   "status": "partial",
   "theorems": [
    "Jool.Bib.session_one_timer",
    "Jool.Bib.lists_sorted_partial",
    "Jool.Bib.sweep_misses"
   ],
   "note": "Exactly-one-list half for every history. Order: for histories whose joold timestamps are not in the future; sweep_misses shows that the restriction is needed."
  },
  {
   "property": "C23",
   "status": "partial",
   "theorems": [
    "Jool.Bib.sweep_not_premature",
    "Jool.Bib.sweep_complete_partial",
    "Jool.Bib.sweep_notifies_partial",
    "Jool.Bib.sweep_misses"
   ],
   "note": "Never premature: every history. Never missed: with punctual joold timestamps; sweep_misses is the witness otherwise."
  },
  {
   "property": "C24",
   "status": "proved",
   "theorems": [
    "Jool.tcp_sm_conforms",
    "Jool.tcp_sm_frame",
    "Jool.tcp_sm_single_flag",
    "Jool.tcp_state_justified",
    "Jool.tcp_close_reason"
   ],
   "note": "The state machine callback against an independently written RFC 6146 3.5.2.2 table, plus history theorems."
  },
  {
   "property": "C25",
   "status": "proved",
   "theorems": [
    "Jool.tcp_timer_agrees",
    "Jool.Bib.tcp_timer_state_agree",
    "Jool.Bib.est_expiration_no_warning"
   ],
   "note": "For one session's whole life and for every session of the table after every history in which joold only carries compatible pairs."
  },
  {
   "property": "C26",
   "status": "partial",
   "theorems": [
    "Jool.Bib.so_packets_once",
    "Jool.Bib.so_bounded",
    "Jool.Bib.so_counter_ge",
    "Jool.Bib.so_counter_exact_partial",
    "Jool.Bib.so_counter_leaks",
    "Jool.Bib.so_leak_permanent"
   ],
   "note": "No packet is released twice, storage is bounded. The counter is exact only while no static entry is added over stored packets: so_counter_leaks is the witness."
  },
  {
   "property": "C27",
   "status": "partial",
   "theorems": [
    "Jool.Bib.so_upgrade_safe_partial",
    "Jool.Bib.udp_icmp_memory_safe",
    "Jool.Bib.ub_causes",
    "Jool.Bib.run_ub_causes",
    "Jool.Bib.so_upgrade_use_after_free",
    "Jool.Bib.unknown_state_use_after_free"
   ],
   "note": "All undefined behaviour of the tables is traced to two traps (failed upgrade of a stored SYN; TCP state 7 received from joold); histories without them are memory safe. The two witnesses show that both are reachable."
  },
  {
   "property": "C28",
   "status": "proved",
   "theorems": [
    "Jool.Bib.adf_exact",
    "Jool.Bib.adf_off",
    "Jool.RbTree.sessionSlot_allow"
   ],
   "note": "sessionSlot_allow: the tree search computes the exists-a-session predicate that adf_exact uses."
  },
  {
   "property": "C29",
   "status": "partial",
   "theorems": [
    "Jool.Bib.new_entry_from_pool",
    "Jool.Bib.exhausted_pool_partial",
    "Jool.Bib.exhausted_pool_evicts"
   ],
   "note": "New entries come from the candidates and never steal. Exhaustion leaves the state unchanged unless the node's entry is evicted because its mark no longer owns it (witness exhausted_pool_evicts)."
  },
  {
   "property": "C30",
   "status": "partial",
   "theorems": [
    "Jool.Bib.range_removal_partial",
    "Jool.Bib.removal_exact",
    "Jool.Bib.flush_exact",
    "Jool.Bib.range_removal_misses"
   ],
   "note": "Exact for canonical prefixes. bib_rm_range is also reached with prefixes that pool4db_rm refused (nl/pool4.c:124-126): range_removal_misses is the witness."
  },
  {
   "property": "C31",
   "status": "proved",
   "theorems": [
    "Jool.BibDump.bib_dump_correct",
    "Jool.BibDump.session_dump_correct",
    "Jool.BibDump.bib_dump_quiet",
    "Jool.BibDump.session_dump_quiet"
   ],
   "note": "Any page sizes, any changes between pages; the red-black trees are modelled as zippers whose in-order is the sorted table."
  },
  {
   "property": "C32",
   "status": "partial",
   "theorems": [
    "Jool.JooldMsg.message_roundtrip",
    "Jool.JooldMsg.message_roundtrip_dst6",
    "Jool.JooldMsg.message_lifetime_partial",
    "Jool.JooldMsg.lifetime_syn4",
    "Jool.JooldMsg.lifetime_syn4_gain",
    "Jool.JooldMsg.lifetime_overflow",
    "Jool.JooldMsg.dst6_not_carried",
    "Jool.JooldMsg.sync_delivers"
   ],
   "note": "All fields but the lifetime round-trip for every session. The lifetime is right up to rounding except for the TCP handshake timer (the parser subtracts 6 milliseconds instead of 6 seconds: the session gains 5994 ms, lifetime_syn4) and lifetimes of 2^31 ms or more (lifetime_overflow). The IPv6 destination is recomputed from pool6, so non-canonical ones are lost (dst6_not_carried)."
  },
  {
   "property": "C33",
   "status": "partial",
   "theorems": [
    "Jool.JooldMsg.overread_iff",
    "Jool.JooldMsg.parse_inside_partial",
    "Jool.JooldMsg.parse_overreads",
    "Jool.JooldMsg.parse_short",
    "Jool.JooldMsg.parse_tail",
    "Jool.JooldMsg.parse_defined_partial",
    "Jool.JooldMsg.parse_undefined",
    "Jool.JooldMsg.sync_history",
    "Jool.JooldMsg.sync_after",
    "Jool.JooldMsg.sync_success",
    "Jool.JooldMsg.sync_null"
   ],
   "note": "False as stated: attributes of 32 to 35 bytes are read past their end (overread_iff: exactly these), a request without the sessions attribute dereferences NULL (sync_null), and TCP state 7 and UDP/ICMP timer 3 are accepted (parse_undefined). Everything else is proved safe."
  },
  {
   "property": "C34",
   "status": "partial",
   "theorems": [
    "Jool.Joold.flush_iff",
    "Jool.Joold.ack_flushes",
    "Jool.Joold.advertisement_drains",
    "Jool.Joold.queue_fifo",
    "Jool.Joold.queue_nodup",
    "Jool.Joold.queue_batch",
    "Jool.Joold.queue_paced",
    "Jool.Joold.queue_bound_partial",
    "Jool.Joold.queue_unbounded",
    "Jool.Joold.queue_drains",
    "Jool.Joold.queue_stuck",
    "Jool.Joold.transmit_partial",
    "Jool.Joold.transmit_whole",
    "Jool.Joold.transmit_loses"
   ],
   "note": "Order, uniqueness, packet size and pacing hold for all histories. Missing: a packet which does not fit in its buffer (more than 36 sessions allowed per packet) or for which there is no memory is lost whole (transmit_loses); during an advertisement the queue has no bound (queue_unbounded)."
  },
  {
   "property": "C35",
   "status": "partial",
   "theorems": [
    "Jool.Bib.joold_update",
    "Jool.Bib.joold_add",
    "Jool.Bib.joold_conflict",
    "Jool.Bib.joold_never_replaces",
    "Jool.Bib.joold_idempotent_partial",
    "Jool.Bib.joold_wrong_entry",
    "Jool.Bib.joold_icmp_twice"
   ],
   "note": "Update, addition, conflict over the IPv4 address and never-replaces proved for every history and message. Two gaps of the code, each with a witness: a message whose IPv6 node already has an entry with a different IPv4 address is attached to that entry and reported as applied (joold_wrong_entry); an ICMP message with different identifiers on both sides is not idempotent (joold_icmp_twice), so idempotence assumes equal identifiers."
  },
  {
   "property": "C36",
   "status": "proved",
   "theorems": [
    "Jool.Icmp.icmp46_table",
    "Jool.Icmp.icmp64_table",
    "Jool.Icmp.icmp46_dropped",
    "Jool.Icmp.icmp64_dropped",
    "Jool.Icmp.icmp46_types",
    "Jool.Icmp.icmp64_types",
    "Jool.Icmp.icmp46_class",
    "Jool.Icmp.icmp64_class",
    "Jool.Icmp.icmp46_back",
    "Jool.Icmp.icmp64_back",
    "Jool.Icmp.echo_roundtrip",
    "Jool.Icmp.ttp64_not_dead",
    "Jool.Icmp.ttp46_not_dead"
   ],
   "note": ""
  },
  {
   "property": "C37",
   "status": "proved",
   "theorems": [
    "Jool.Icmp.pointer64",
    "Jool.Icmp.pointer46",
    "Jool.Icmp.pointer64_header",
    "Jool.Icmp.pointer46_header",
    "Jool.Icmp.pointer_roundtrip",
    "Jool.Icmp.protocol_unreachable"
   ],
   "note": "Against the layout of both headers, not against the table of the code."
  },
  {
   "property": "C38",
   "status": "partial",
   "theorems": [
    "Jool.Csum.tcp64_valid",
    "Jool.Csum.udp64_valid",
    "Jool.Csum.udp64_nonzero",
    "Jool.Csum.tcp46_valid",
    "Jool.Csum.udp46_valid",
    "Jool.Csum.udp46_drop",
    "Jool.Csum.tcp46_partial_valid",
    "Jool.Csum.udp46_partial_valid",
    "Jool.Csum.xlat64_partial_valid",
    "Jool.Csum.tcp46_list_valid",
    "Jool.Csum.udp46_list_valid",
    "Jool.Csum.echo64_valid_partial",
    "Jool.Csum.echo64_request",
    "Jool.Csum.echo46_valid_partial",
    "Jool.Csum.error64_valid",
    "Jool.Csum.error46_valid",
    "Jool.Csum.ipHeader_valid",
    "Jool.Csum.udp46_zero_out",
    "Jool.Csum.udp46_slow_zero",
    "Jool.Csum.echo64_zero",
    "Jool.Csum.echo46_zero",
    "Jool.Csum.error_complete"
   ],
   "note": "Valid if and only if the original was, for every packet, both byte orders, any kernel that meets the checksum contract. Exceptions, each with a witness: UDP zero checksum result 4 to 6, checksumless UDP on the slow path, all-zero echo replies, ICMP errors whose checksum the NIC summed but nobody compared."
  },
  {
   "property": "C39",
   "status": "partial",
   "theorems": [
    "Jool.Hdr.slow_covers_partial",
    "Jool.Hdr.covers_bytes",
    "Jool.Hdr.slow_needed",
    "Jool.Hdr.slow_wraps"
   ],
   "note": "For every packet whose data ends within the 65535 bytes of an IPv4 datagram; slow_wraps shows that the offsets of bogus fragments beyond it wrap around."
  },
  {
   "property": "C40",
   "status": "partial",
   "theorems": [
    "Jool.Mtu.mtu6_minimum",
    "Jool.Mtu.mtu6_upper",
    "Jool.Mtu.mtu6_rfc_partial",
    "Jool.Mtu.mtu4_upper_partial",
    "Jool.Mtu.mtu4_rfc_partial",
    "Jool.Mtu.mtu4_minimum_partial",
    "Jool.Mtu.mtu4_wraps",
    "Jool.Mtu.mtu4_below_minimum",
    "Jool.Mtu.mtu4_truncates",
    "Jool.Mtu.ownPtb_bounds",
    "Jool.Mtu.ownFn_bounds"
   ],
   "note": "IPv4 to IPv6: both bounds for every input. IPv6 to IPv4: for messages and links of at least 20 bytes (upper bound) and that respect their protocols' minimum (lower bound); mtu4_wraps, mtu4_below_minimum and mtu4_truncates are the witnesses."
  },
  {
   "property": "C41",
   "status": "partial",
   "theorems": [
    "Jool.IcmpExt.ext64_partial",
    "Jool.IcmpExt.ext46_partial",
    "Jool.IcmpExt.ext64_bounds_partial",
    "Jool.IcmpExt.ext46_bounds_partial",
    "Jool.IcmpExt.shouldRemove_spec",
    "Jool.IcmpExt.ext64_underflow",
    "Jool.IcmpExt.ext46_underflow"
   ],
   "note": "Every length field and packet, except length fields smaller than what the nested headers shrink by: there the outgoing length underflows and memory is corrupted (both witnesses)."
  },
  {
   "property": "C42",
   "status": "partial",
   "theorems": [
    "Jool.Pkt.summarize6_bounded",
    "Jool.Pkt.walkers_agree",
    "Jool.Pkt.walkers_agree_inner_partial",
    "Jool.Pkt.chain_unique",
    "Jool.Pkt.iter_sound",
    "Jool.Pkt.iter_complete",
    "Jool.Pkt.walkers_disagree"
   ],
   "note": "Outer packets: complete. Packets nested in ICMPv6 errors: the walkers agree on the offset and, unless the last header is number 1, on the protocol; walkers_disagree is the counterexample for number 1."
  },
  {
   "property": "C43",
   "status": "partial",
   "theorems": [
    "Jool.Options.scan_wellformed_partial",
    "Jool.Options.scan_terminates_partial",
    "Jool.Options.scan_stuck",
    "Jool.Options.scan_hangs",
    "Jool.Options.scan_strays"
   ],
   "note": "Well formed options: terminates, in bounds, right answer. Any bytes: terminates if and only if no option of length zero is visited; the witnesses show the hang and a read beyond the header."
  },
  {
   "property": "C44",
   "status": "partial",
   "theorems": [
    "Jool.Pkt.reads6_partial",
    "Jool.Pkt.reads4_partial",
    "Jool.Pkt.one_nested6",
    "Jool.Pkt.nested4_complete",
    "Jool.Pkt.reads6_outside",
    "Jool.Pkt.reads6_inner_outside",
    "Jool.Pkt.reads6_tcp",
    "Jool.Pkt.reads4_outside",
    "Jool.Pkt.two_nested4"
   ],
   "note": "Holds unless the protocol number is the other family's ICMP or the TCP data offset is below 5 (counterexamples reads6_outside, reads6_inner_outside, reads6_tcp, reads4_outside). ICMPv4 errors nested in ICMPv4 errors are accepted (two_nested4)."
  },
  {
   "property": "C45",
   "status": "proved",
   "theorems": [
    "Jool.Hdr.hop64_expired",
    "Jool.Hdr.hop46_expired",
    "Jool.Hdr.hop64_decrement",
    "Jool.Hdr.hop46_decrement",
    "Jool.Hdr.hop_hairpin",
    "Jool.Hdr.hop_inner",
    "Jool.Hdr.hop_inner46"
   ],
   "note": ""
  },
  {
   "property": "C46",
   "status": "proved",
   "theorems": [
    "Jool.Hdr.frag64",
    "Jool.Hdr.nofrag64",
    "Jool.Hdr.frag46",
    "Jool.Hdr.frag464",
    "Jool.Hdr.frag646"
   ],
   "note": ""
  },
  {
   "property": "C47",
   "status": "partial",
   "theorems": [
    "Jool.Mtu.plateaus_stored_partial",
    "Jool.Mtu.plateaus_refused_partial",
    "Jool.Mtu.plateaus_empty_accepted"
   ],
   "note": "Every nonempty list. An empty list is accepted and leaves the first of the previous plateaus (witness)."
  },
  {
   "property": "C48",
   "status": "partial",
   "theorems": [
    "Jool.Xlator.unique_names",
    "Jool.Xlator.instances_valid",
    "Jool.Xlator.netfilter_unique_partial",
    "Jool.Xlator.netfilter_two",
    "Jool.Xlator.lookup_spec",
    "Jool.Xlator.add_spec",
    "Jool.Xlator.rm_spec",
    "Jool.Xlator.flush_spec",
    "Jool.Xlator.replace_spec",
    "Jool.Xlator.netfilter_shadow",
    "Jool.Xlator.replace_window"
   ],
   "note": "Names: for all histories. One Netfilter instance per type: for histories in which every replacement has an original; a configuration file that creates an instance skips the check (netfilter_two). Also found: a SIIT and a NAT64 Netfilter instance in one namespace are accepted, but one of them gets all packets (netfilter_shadow), and an instance cannot be found for a moment while it is replaced (replace_window)."
  },
  {
   "property": "C49",
   "status": "partial",
   "theorems": [
    "Jool.Atomic.history_defined",
    "Jool.Atomic.not_committed",
    "Jool.Atomic.teardown_unchanged",
    "Jool.Atomic.commit_exact_partial",
    "Jool.Atomic.refused",
    "Jool.Atomic.commit_use_after_free",
    "Jool.Atomic.namespace_leak",
    "Jool.Atomic.mixture"
   ],
   "note": "All histories of requests of any clients, packets, other requests and time-outs. Partial because the code violates the property: every successful commit writes to freed memory (commit_use_after_free; apart from that nothing freed is used), and a client that starts a second upload can have a mixture of both committed (mixture); commit_exact_partial is for clients with one upload at a time. What the sections do to the databases is a parameter."
  },
  {
   "property": "C50",
   "status": "proved",
   "theorems": [
    "Jool.Xlator.never_undefined",
    "Jool.Xlator.refcount_exact",
    "Jool.Xlator.released_iff",
    "Jool.Xlator.released_iff_quiet",
    "Jool.Xlator.no_leak",
    "Jool.Xlator.reap_idle",
    "Jool.Xlator.hooks_exact",
    "Jool.Xlator.snapshot"
   ],
   "note": "For all interleavings of additions, removals, flushes, replacements, readers, copies and grace periods."
  },
  {
   "property": "C51",
   "status": "partial",
   "theorems": [
    "Jool.Globals.history_valid_partial",
    "Jool.Globals.update_accepts_iff",
    "Jool.Globals.update_exact",
    "Jool.Globals.handleUpdate_spec",
    "Jool.Globals.refused_unchanged",
    "Jool.Globals.nat64_pool6_fixed",
    "Jool.Globals.icmp_timeout_unchecked",
    "Jool.Globals.icmp_timeout_zero"
   ],
   "note": "All histories of additions, removals, updates and uploads. Partial because the program violates the property: the ICMP timeout has no minimum (icmp_timeout_unchecked: any value, zero included, is accepted). All the other settings keep their bounds; refused requests change nothing; accepted ones change exactly what they carry."
  },
  {
   "property": "C52",
   "status": "proved",
   "theorems": [
    "Jool.Nat64.hairpin_iff",
    "Jool.Nat64.hairpin_end_to_end",
    "Jool.Nat64.hairpin_delivered",
    "Jool.Nat64.hairpin_source",
    "Jool.Nat64.pool6_source_refused",
    "Jool.Nat64.sent6_source",
    "Jool.Nat64.Ex.hairpin_returned",
    "Jool.Nat64.Ex.echo_bounced"
   ],
   "note": "For all histories of packets, requests, timers and pool4 changes. Also: what arrives at the second node (end to end), and that UDP packets do arrive. Observed: an echo to a pool4 address always comes back to its sender (Ex.echo_bounced), and a hairpinning packet without BIB entry is handed to the kernel after it created a BIB entry (Ex.hairpin_returned)."
  },
  {
   "property": "C53",
   "status": "partial",
   "theorems": [
    "Jool.Nat64.translated64",
    "Jool.Nat64.translated46",
    "Jool.Nat64.reply64",
    "Jool.Nat64.roundtrip64",
    "Jool.Nat64.roundtrip46",
    "Jool.Nat64.forward64",
    "Jool.Nat64.same_source",
    "Jool.Nat64.error46",
    "Jool.Nat64.error64",
    "Jool.Nat64.error_roundtrip",
    "Jool.Nat64.stored_ok",
    "Jool.Nat64.tables_after",
    "Jool.Nat64.Ex.suffix_lost",
    "Jool.Nat64.Ex.error_destination_ignored"
   ],
   "note": "For all histories. The addresses are those of the session: complete, ICMP errors included. The round trip holds for every session but two kinds: destinations with a nonzero RFC 6052 suffix, whose answers come from another address (roundtrip64 says exactly when; Ex.suffix_lost), and TCP sessions whose IPv4 SYN is still stored."
  },
  {
   "property": "C54",
   "status": "partial",
   "theorems": [
    "Jool.Bib.stats_exact",
    "Jool.Stats.gauges_partial",
    "Jool.Stats.gauges_replaced",
    "Jool.Stats.gauge_wraps"
   ],
   "note": "Exact for the tables (stats_exact) and for instances that are never replaced by atomic configuration (gauges_partial). The program violates the rest: a configuration file that is loaded replaces the statistics but keeps the BIB, so the numbers are off by what there was then (gauges_replaced) and can become huge (gauge_wraps)."
  },
  {
   "property": "C55",
   "status": "partial",
   "theorems": [
    "Jool.Bib.nonsyn_creates_nothing_partial",
    "Jool.Bib.nonsyn_upgrades"
   ],
   "note": "Holds except for IPv6 packets that match a stored IPv4 SYN: nonsyn_upgrades."
  },
  {
   "property": "C56",
   "status": "proved",
   "theorems": [
    "Jool.Bib.isolation",
    "Jool.Bib.isolation_bib6",
    "Jool.Bib.isolation_bib4"
   ],
   "note": ""
  },
  {
   "property": "C57",
   "status": "proved",
   "theorems": [
    "Jool.Bib.adf_tcp"
   ],
   "note": ""
  },
  {
   "property": "C58",
   "status": "partial",
   "theorems": [
    "Jool.Hdr.tc46",
    "Jool.Hdr.tos64_partial",
    "Jool.Hdr.tos64_exact",
    "Jool.Hdr.tos64_inner",
    "Jool.Hdr.tos64_ecn",
    "Jool.Hdr.tos_roundtrip_partial"
   ],
   "note": "On kernels 6.18 and newer the outer TOS loses its ECN bits (tos64_ecn)."
  },
  {
   "property": "C59",
   "status": "partial",
   "theorems": [
    "Jool.Hdr.fast46_fits_partial",
    "Jool.Hdr.fast46_gso",
    "Jool.Hdr.fast46_first_fragment",
    "Jool.Hdr.fragNeeded_no_progress",
    "Jool.Hdr.fragNeeded_progress_partial",
    "Jool.Hdr.ok64_fits_partial",
    "Jool.Hdr.ok64_paged",
    "Jool.Hdr.ok64_black_hole"
   ],
   "note": "Linear packets. Witnesses: paged data is not measured (6 to 4), the layer 4 header of the first fragment of a list is not measured (4 to 6), the fragment header is not subtracted from the advertised limit, next hops under 1260 bytes are a black hole."
  },
  {
   "property": "C60",
   "status": "proved",
   "theorems": [
    "Jool.Pool4.listing_complete",
    "Jool.Pool4.page_faithful",
    "Jool.Pool4.foreach_after",
    "Jool.Pool4.foreach_lost",
    "Jool.Pool4.add_settings",
    "Jool.Pool4.update_settings",
    "Jool.Pool4.rm_settings",
    "Jool.Pool4.settings_sane",
    "Jool.Pool4.limit_correct",
    "Jool.Pool4.packet_limit"
   ],
   "note": "All of it. The update operation is modelled although its request handler is disabled."
  },
  {
   "property": "C61",
   "status": "proved",
   "theorems": [
    "Jool.Rtrie.listing_spec",
    "Jool.Rtrie.size_spec",
    "Jool.Rtrie.trie_refines_partial",
    "Jool.Eam.listing"
   ],
   "note": "For every healthy table (those of C08)."
  },
  {
   "property": "C62",
   "status": "partial",
   "theorems": [
    "Jool.Siit.find6791v4_spec",
    "Jool.Siit.find6791v6_spec",
    "Jool.Siit.find6791v6_onto",
    "Jool.Siit.addrs64_spec",
    "Jool.Siit.addrs46_spec",
    "Jool.Siit.stat64_swapped"
   ],
   "note": "The decision and the addresses: complete. The counters of IPv6 packets are swapped (stat64_swapped)."
  },
  {
   "property": "C63",
   "status": "proved",
   "theorems": [
    "Jool.Siit.hairpin_conversation",
    "Jool.Siit.hairpin_error",
    "Jool.Siit.no_hairpin",
    "Jool.Siit.uturn_first",
    "Jool.Siit.uturn_second",
    "Jool.Siit.exInst_nodes"
   ],
   "note": ""
  },
  {
   "property": "C64",
   "status": "proved",
   "theorems": [
    "Jool.Bib.mapping_stable",
    "Jool.Bib.mapping_kept",
    "Jool.Bib.mapping_replaced",
    "Jool.Pool4.owns_pool",
    "Jool.Pool4.owns_empty"
   ],
   "note": ""
  },
  {
   "property": "C65",
   "status": "proved",
   "theorems": [
    "Jool.Globals.pages_complete",
    "Jool.Globals.listing_restores",
    "Jool.Globals.history_valid_partial"
   ],
   "note": "The listing theorem is for all settings and page sizes; loading back is for all usable settings, which history_valid_partial shows are all the reachable ones."
  },
  {
   "property": "C66",
   "status": "partial",
   "theorems": [
    "Jool.Nat64.inbound46",
    "Jool.Nat64.inactive_returned",
    "Jool.Nat64.returned4_unchanged",
    "Jool.Nat64.returned4_pool",
    "Jool.Nat64.returned4_iff",
    "Jool.Nat64.returned4_error",
    "Jool.Nat64.returned6_unchanged",
    "Jool.Nat64.returned6_iff",
    "Jool.Nat64.Ex.returned_with_traces"
   ],
   "note": "The decision: for all states and packets. Partial because the translator violates the rest: an IPv6 packet that has no route after its translation is handed back to the kernel but leaves a BIB entry (Ex.returned_with_traces); the theorems exclude this with the hypothesis Clear."
  },
  {
   "property": "C67",
   "status": "partial",
   "theorems": [
    "Jool.NlAttr.eam_arrives",
    "Jool.NlAttr.eam_rm_arrives",
    "Jool.NlAttr.pool4_arrives",
    "Jool.NlAttr.bib_arrives",
    "Jool.NlAttr.bib_rm_arrives",
    "Jool.NlAttr.prefix4_arrives",
    "Jool.NlAttr.instance_arrives",
    "Jool.NlAttr.pool4_offset_arrives",
    "Jool.NlAttr.bib_offset_arrives",
    "Jool.NlAttr.instance_offset_arrives",
    "Jool.NlAttr.session_offset_arrives",
    "Jool.NlAttr.eamt_page",
    "Jool.NlAttr.denylist4_page",
    "Jool.NlAttr.pool4_page",
    "Jool.NlAttr.bib_page",
    "Jool.NlAttr.session_page",
    "Jool.NlAttr.instance_page",
    "Jool.NlAttr.query64_answer",
    "Jool.NlAttr.query46_answer",
    "Jool.NlAttr.eam_rm_one_refused"
   ],
   "note": "All kinds of entries, byte by byte. Partial because the program violates one case: a request to remove an EAM entry by only one of its prefixes is always refused (eam_rm_one_refused), because the client encodes the missing prefix as an attribute that the module considers mandatory and malformed."
  },
  {
   "property": "C68",
   "status": "partial",
   "theorems": [
    "Jool.NlAttr.kernel_reads_safely",
    "Jool.NlAttr.pool4_requires",
    "Jool.NlAttr.pool4_defaults",
    "Jool.NlAttr.bib_requires",
    "Jool.NlAttr.eam_requires",
    "Jool.NlAttr.prefix4_requires",
    "Jool.NlAttr.taddr4_requires",
    "Jool.NlAttr.client_null_port",
    "Jool.NlAttr.client_null_addr",
    "Jool.NlAttr.client_null_eam",
    "Jool.NlAttr.kernel_null_port"
   ],
   "note": "The kernel half is complete. The client trusts the module: it dereferences NULL if a nested attribute of a response is incomplete (client_null_port, client_null_addr, client_null_eam)."
  },
  {
   "property": "C69",
   "status": "partial",
   "theorems": [
    "Jool.Req.siit_request",
    "Jool.Req.nat64_request",
    "Jool.Req.msg_exists",
    "Jool.Req.unprivileged",
    "Jool.Req.not_admitted",
    "Jool.Req.others_unchanged",
    "Jool.Req.refused_partial",
    "Jool.Req.requests_ran",
    "Jool.Req.requests_bijection",
    "Jool.Req.ub_causes_partial",
    "Jool.Req.eam_rm_one_fails",
    "Jool.Req.pool4_rm_refused_but_done",
    "Jool.Req.pool4_rm_shift",
    "Jool.Req.bib_rm_uninitialized",
    "Jool.Req.bib_rm_exact",
    "Jool.Req.flags_exact"
   ],
   "note": "Effect, admission, isolation and refinement: for all requests and all byte strings. Partial because the program violates the rest: a refused pool4 removal still deletes BIB entries (pool4_rm_refused_but_done); prefix lengths over 32 in a pool4 removal reach a negative shift (pool4_rm_shift); a BIB removal without protocol uses an unset variable (bib_rm_uninitialized); EAM removals by one prefix are always refused (eam_rm_one_fails). Refusals are proved clean for the denylist and the BIB only: EAMT and pool4 updates that run out of memory half way are not (see C12, C17)."
  },
  {
   "property": "C70",
   "status": "partial",
   "theorems": [
    "Jool.Resp.texts_exact_setup",
    "Jool.Resp.getMessage_eq",
    "Jool.Resp.pool_overrun",
    "Jool.Resp.error_arrives",
    "Jool.Resp.success_arrives",
    "Jool.Resp.page_arrives",
    "Jool.Resp.siit_exchange",
    "Jool.Resp.nat64_exchange",
    "Jool.Resp.foreach_fine",
    "Jool.Resp.query_fine",
    "Jool.Resp.stats_fine",
    "Jool.Resp.instForeach_fine",
    "Jool.Resp.update_fine",
    "Jool.Resp.hello_partial",
    "Jool.Resp.hello_leaks",
    "Jool.Resp.instAdd_partial"
   ],
   "note": "All texts, codes, failures. Partial because the program violates the rest: a greeting with an invalid name loses a buffer (hello_leaks), a malformed operand of an instance addition gets no response of the module (instAdd_partial), and messages that other processors log outside of requests overrun the buffer of the text (pool_overrun). joold messages are deliberately not acknowledged."
  },
  {
   "property": "C71",
   "status": "partial",
   "theorems": [
    "Jool.Stats.count_exact",
    "Jool.Stats.query_exact",
    "Jool.Stats.listAll_eq",
    "Jool.Stats.listing_complete",
    "Jool.Stats.listing_padding"
   ],
   "note": "Counting and listing. Partial because on processors that need aligned accesses the listing also shows an unknown statistic for each real one (listing_padding)."
  },
  {
   "property": "C72",
   "status": "partial",
   "theorems": [
    "Jool.Text.number_partial",
    "Jool.Text.garbage_accepted",
    "Jool.Text.bool_reads",
    "Jool.Text.timeout_reads_partial",
    "Jool.Text.timeout_refuses_partial",
    "Jool.Text.timeout_wraps",
    "Jool.Text.timeout_nonsense",
    "Jool.Text.timeout_roundtrip",
    "Jool.Text.range_roundtrip",
    "Jool.Text.range_spaces",
    "Jool.Text.prefix4_roundtrip",
    "Jool.Text.prefix6_roundtrip",
    "Jool.Text.taddr_roundtrip",
    "Jool.Text.plateaus_roundtrip",
    "Jool.Text.setting_roundtrip_partial",
    "Jool.Text.unset_refused",
    "Jool.Text.eamt_said",
    "Jool.Text.deny_said",
    "Jool.Text.pool4_said",
    "Jool.Text.bib_said",
    "Jool.Text.eamt_typed",
    "Jool.Text.deny_typed",
    "Jool.Text.pool4_typed_partial",
    "Jool.Text.infinite_refused",
    "Jool.Text.pool4_words",
    "Jool.Text.bib_typed",
    "Jool.Text.siit_command",
    "Jool.Text.nat64_command",
    "Jool.Text.plain_ok"
   ],
   "note": "All round trips and all command lines, given that inet_pton reads what inet_ntop prints. Partial because the program violates the rest: what follows the digits of a number is ignored (garbage_accepted, range_spaces); timeouts wrap at 2^32 milliseconds (timeout_wraps), and empty, negative or otherwise malformed ones are accepted (timeout_nonsense); unset prefixes and infinite iterations are printed as words that cannot be typed (unset_refused, infinite_refused)."
  },
  {
   "property": "C73",
   "status": "partial",
   "theorems": [
    "Jool.Json.reads",
    "Jool.Json.unambiguous",
    "Jool.Json.reads_uint",
    "Jool.Json.terminates",
    "Jool.Json.safe_partial",
    "Jool.Json.overflow",
    "Jool.Json.overrun",
    "Jool.Json.lenient"
   ],
   "note": "Every JSON text is read as its value; reading always ends. Partial because the program violates the rest: incomplete escape sequences make it write beyond the string that it allocated (overflow) or read beyond the text (overrun; safe_partial for all other texts), and texts that are not JSON are accepted (lenient)."
  },
  {
   "property": "C74",
   "status": "partial",
   "theorems": [
    "Jool.File.stops",
    "Jool.File.quiet",
    "Jool.File.commit_last_partial",
    "Jool.File.accepted_partial",
    "Jool.File.upload_exact_partial",
    "Jool.File.load_safe",
    "Jool.File.file_safe",
    "Jool.File.name_in_vain",
    "Jool.File.mark_lost",
    "Jool.File.iname_null"
   ],
   "note": "All files, from the JSON value to the databases. Partial because the program violates the rest: marks from 2147483648 are read as 0 (mark_lost, hence the hypothesis MarksSmall), a name that is only in the command line makes the upload fail after it has begun (name_in_vain), an empty list of plateaus is ignored (the hypothesis Full), the settings have to fit into one message (Fits), and finding the name of a file whose name is not a string dereferences NULL (iname_null)."
  },
  {
   "property": "C75",
   "status": "partial",
   "theorems": [
    "Jool.Life.ub_only_trap",
    "Jool.Life.always_given_back",
    "Jool.Life.nothing_leaks_partial",
    "Jool.Life.stolen_means",
    "Jool.Life.declined_means",
    "Jool.Life.dropped_means",
    "Jool.Life.smooth_is_translated",
    "Jool.Life.extension_leaks",
    "Jool.Life.null_page_leaks",
    "Jool.Life.extension_loses_mark",
    "Jool.Life.hairpin_error_lost"
   ],
   "note": "All packets, failures and histories. Partial because the program violates the rest: a packet leaks if an ICMP extension cannot be copied (extension_leaks) or if a page is missing (null_page_leaks); an ICMP error whose extension is moved loses its mark (extension_loses_mark, hence the hypothesis Plain); and the use after free of C27 (Trap)."
  },
  {
   "property": "C76",
   "status": "partial",
   "theorems": [
    "Jool.Build.fast46_partial",
    "Jool.Build.fast64_partial",
    "Jool.Build.error46_partial",
    "Jool.Build.error64_partial",
    "Jool.Build.slow46_partial",
    "Jool.Build.inner58_overflow",
    "Jool.Build.inner1_overflow",
    "Jool.Build.tcp_offset_overflow",
    "Jool.Build.nested_overflow",
    "Jool.Build.fragment_header_overread",
    "Jool.Build.fragment_header_misread"
   ],
   "note": "All accepted packets, memory layouts, contents of fresh memory, and values of the other header fields. Partial because the program violates the rest, hence the hypotheses: a packet of protocol 58 in an ICMPv4 error (inner58_overflow) or of next header 1 in an ICMPv6 error (inner1_overflow), TCP headers that claim less than 20 bytes (tcp_offset_overflow) and errors inside of ICMPv4 errors (nested_overflow) are written beyond the packet; an ICMPv6 error with a fragment header makes the translator read the fragment header of the packet inside from the wrong place (fragment_header_overread, fragment_header_misread)."
  },
  {
   "property": "C77",
   "status": "partial",
   "theorems": [
    "Jool.Wire.packet46_partial",
    "Jool.Wire.packet64_partial",
    "Jool.Wire.accepted46_partial",
    "Jool.Wire.accepted64_partial",
    "Jool.Wire.forged",
    "Jool.Wire.forged_udp",
    "Jool.Wire.df_segments",
    "Jool.Wire.df_list"
   ],
   "note": "All packets that are accepted, from bytes to bytes. ICMP errors are in C81. Packets that are split are in C88. The program violates the rest: an IPv4 packet whose protocol number is that of an IPv6 extension header becomes a packet with extension headers that the IPv4 node made up (forged, forged_udp); protocol 58 in IPv4 and 1 in IPv6 are taken for ICMP when the flow is computed (reads4_outside); TCP headers that claim less than 20 bytes (tcp_offset_overflow); ECN bits on kernels 6.18 and newer (tos64_ecn; they are zero, and all the rest is as it should be)."
  },
  {
   "property": "C78",
   "status": "partial",
   "theorems": [
    "Jool.Wire.back_partial"
   ],
   "note": "All packets that are accepted and fulfil the hypotheses of C77. Packets that are split are in C91. Missing: ICMP errors, checksums that are left to the hardware (C77 says that those are right)."
  },
  {
   "property": "C79",
   "status": "partial",
   "theorems": [
    "Jool.Whole.out64_partial",
    "Jool.Whole.leaves64_partial",
    "Jool.Whole.answered64_partial",
    "Jool.Whole.out46_partial",
    "Jool.Whole.leaves46_partial",
    "Jool.Whole.answered46_partial"
   ],
   "note": "From the bytes that arrive to the bytes that leave, in any reachable state. ICMP errors are in C84, hairpinning in C92, packets that are split in C90. Missing: later fragments (the tuple code takes their payload for ports; the kernel reassembles them before), packets that the kernel holds in several pieces; and the hypotheses that C77 has because the program violates it."
  },
  {
   "property": "C80",
   "status": "partial",
   "theorems": [
    "Jool.InstList.pages_mem",
    "Jool.InstList.listing_partial",
    "Jool.InstList.listing_quiet_partial",
    "Jool.InstList.listing_lost",
    "Jool.InstList.hello_exact",
    "Jool.InstList.replaced_missed",
    "Jool.InstList.replaced_twice",
    "Jool.InstList.recreated_twice",
    "Jool.InstList.low_bits_forever",
    "Jool.InstList.hello_invalid"
   ],
   "note": "All histories and page sizes. The program violates the rest, hence the hypotheses: an instance that is replaced meanwhile can be missing (replaced_missed); if the last one of a page is replaced or created again, others are listed twice (replaced_twice, recreated_twice); namespaces whose addresses agree in 32 bits are taken for each other, and the list may never end (low_bits_forever)."
  },
  {
   "property": "C81",
   "status": "partial",
   "theorems": [
    "Jool.Wire.error46_partial",
    "Jool.Wire.error64_partial",
    "Jool.Wire.inside6_headers",
    "Jool.Wire.exUnreach4_leaves",
    "Jool.Wire.exUnreach6_leaves",
    "Jool.Wire.echo_inside_cut"
   ],
   "note": "All accepted ICMP errors, from bytes to bytes. Partial because the program violates the rest, hence the hypotheses: errors inside of ICMPv4 errors, protocol 58 inside of ICMPv4 errors and next header 1 inside of ICMPv6 errors, TCP headers that claim less than 20 bytes, ICMPv6 errors with a fragment header, the fragment header of the packet inside of an ICMPv6 error (all in C76), length fields that do not cover the headers inside (C39); and the checksum of an echo inside of an error that a router cut (echo_inside_cut). Checksums inside that are left to the hardware are not claimed."
  },
  {
   "property": "C82",
   "status": "partial",
   "theorems": [
    "Jool.WholeSiit.plain46_partial",
    "Jool.WholeSiit.plain64_partial",
    "Jool.WholeSiit.error46_partial",
    "Jool.WholeSiit.error64_partial",
    "Jool.WholeSiit.go_partial",
    "Jool.WholeSiit.come_partial",
    "Jool.WholeSiit.complaint46_partial",
    "Jool.WholeSiit.complaint64_partial"
   ],
   "note": "All configurations and accepted packets, errors included; packets that are split are in C90. Missing: the hypotheses that C77 and C81 have because the program violates them. Routing and sending are parameters. Conversations: hairpinning is off or intrinsic (in simple mode, EAM nodes are seen with their aliases)."
  },
  {
   "property": "C83",
   "status": "partial",
   "theorems": [
    "Jool.Wire.there64_partial",
    "Jool.WholeSiit.hairpin_partial",
    "Jool.WholeSiitTurn.middle",
    "Jool.WholeSiitTurn.straight",
    "Jool.WholeSiitTurn.turned_partial",
    "Jool.WholeSiitTurn.hairpin_partial"
   ],
   "note": "All packets that fulfil the hypotheses of C77, fragments and other protocols included; both passes of a hairpin are joined, over the packet and the offsets that the first one leaves in memory (middle). Missing: ICMP errors, packets that are split, packets whose checksum is left to the hardware."
  },
  {
   "property": "C84",
   "status": "partial",
   "theorems": [
    "Jool.Whole.error46_partial",
    "Jool.Whole.error64_partial",
    "Jool.Whole.complained64_partial",
    "Jool.Whole.complained46_partial",
    "Jool.Whole.is4_take",
    "Jool.Whole.is6_take"
   ],
   "note": "All accepted errors about TCP, UDP and echo packets that are not fragments; all reachable states. Missing: errors about other packets; the hypotheses that C81 has because the program violates them; the second pass of a hairpinned error (lost: Jool.Life.hairpin_error_lost). If the address to which the packet was sent has bits that no IPv4 address determines, the error mentions the one without them."
  },
  {
   "property": "C85",
   "status": "partial",
   "theorems": [
    "Jool.Mods.modules_safe_partial",
    "Jool.Mods.nothing_left_partial",
    "Jool.Mods.module_gone_partial",
    "Jool.Mods.insertCore_iff",
    "Jool.Mods.add_succeeds",
    "Jool.Mods.removal_race",
    "Jool.Mods.removal_race_siit"
   ],
   "note": "All histories and failures, in which no module is removed while a request to it, which was let through, is still being served: the program violates the rest (removal_race, removal_race_siit). The kernel (refusal of rmmod while symbols are used or targets have rules, unregister_pernet_subsys, kmem caches) is described by assumptions. Reference counts of the databases are those of one owner (C50 has the shared ones)."
  },
  {
   "property": "C86",
   "status": "partial",
   "theorems": [
    "Jool.Relay.delivery",
    "Jool.Relay.delivery_truncated",
    "Jool.Relay.react_announce",
    "Jool.Relay.flush_relayed",
    "Jool.Relay.relay_origin",
    "Jool.Relay.relay_safe_partial",
    "Jool.Relay.acks_flow",
    "Jool.Relay.calm",
    "Jool.Relay.ack_storm",
    "Jool.Relay.storm_starts",
    "Jool.Relay.case_leak",
    "Jool.Relay.relay_forged",
    "Jool.Relay.endian_lost",
    "Jool.Relay.versions"
   ],
   "note": "relay_safe_partial is about datagrams that come from the daemons of the cluster (a forged one makes the kernel read beyond the message: relay_forged). The conversation does not end if the instance does not exist (ack_storm, storm_starts: the program violates the property then); instances whose names differ in case are confused (case_leak, which is why relay_origin compares names without case); machines of different endianness exchange nothing (endian_lost). The kernel socket of the daemon is a sequence with losses; system calls of the daemon do not fail."
  },
  {
   "property": "C87",
   "status": "partial",
   "theorems": [
    "Jool.Rfc6056.message_iff",
    "Jool.Rfc6056.f_exact",
    "Jool.Rfc6056.f_same",
    "Jool.Rfc6056.choose_exact",
    "Jool.Rfc6056.choose_empty",
    "Jool.Rfc6056.choose_same",
    "Jool.Rfc6056.bib_finds",
    "Jool.Rfc6056.resume_partial",
    "Jool.Rfc6056.sequential_partial",
    "Jool.Rfc6056.ephemeral_total",
    "Jool.Rfc6056.distinct",
    "Jool.Rfc6056.wrap_repeats",
    "Jool.Rfc6056.word3_value",
    "Jool.Rfc6056.choose_unknown",
    "Jool.Rfc6056.choose_unrouted"
   ],
   "note": "Partial because the program violates the rest: when F + next_ephemeral exceeds 2^32, a connection may begin its search at the transport address that the previous one has just taken (wrap_repeats; resume_partial and sequential_partial have the hypothesis that it does not). MD5 is any function. Pools have fewer than 2^32 - 1 transport addresses, and counters that are right (Sane; C15 says when)."
  },
  {
   "property": "C88",
   "status": "partial",
   "theorems": [
    "Jool.Wire.forward46_partial",
    "Jool.Wire.bare_right",
    "Jool.Wire.bare_wrong",
    "Jool.Wire.bare_witness"
   ],
   "note": "Partial because the program violates the last sentence: the checksum which a datagram without one gets covers the first fragment only, so the datagram is right if and only if the rest happens to add up to zero (bare_right); it never is if the rest is zeroes (bare_wrong; bare_witness is a packet). The rest is proved for packets which are one buffer without frag_list or GRO (what the size check does with those is C39), end before the 65528th byte of their datagram, have TCP headers of at least 20 bytes, and are not protocol 58. Allocation failures are C75."
  },
  {
   "property": "C89",
   "status": "partial",
   "theorems": [
    "Jool.Cmd.find_ok",
    "Jool.Cmd.handle_iff",
    "Jool.Cmd.does_unique",
    "Jool.Cmd.full_runs",
    "Jool.Cmd.runs_full",
    "Jool.Cmd.tree_distinct",
    "Jool.Cmd.programs",
    "Jool.Cmd.no_foreign",
    "Jool.Cmd.completion",
    "Jool.Cmd.completion_new",
    "Jool.Cmd.offered_works",
    "Jool.Cmd.offered_all",
    "Jool.Cmd.trap_tree",
    "Jool.Cmd.completion_crashes",
    "Jool.Cmd.long_words_overread",
    "Jool.Cmd.manual_runs",
    "Jool.Cmd.keys_run",
    "Jool.Cmd.others_run",
    "Jool.Cmd.joold_hidden"
   ],
   "note": "Partial because the program violates the last sentence: completing what follows the word autocomplete calls a null pointer (completion_crashes; trap_tree: only that), and memcmp may read beyond names that are shorter than the word (long_words_overread: each first word of ten or more characters; handle_iff says what happens if memcmp stops at the first difference, or if no word is that long). The rest is proved for all command lines; getopt and the handlers are not modelled here."
  },
  {
   "property": "C90",
   "status": "partial",
   "theorems": [
    "Jool.WholeAny.pass4_tables",
    "Jool.WholeAny.fate46_partial",
    "Jool.WholeAny.out46_partial",
    "Jool.WholeAny.answered_partial",
    "Jool.WholeAny.leave_broken",
    "Jool.WholeSiitAny.any46_partial",
    "Jool.WholeSiitAny.come_any_partial",
    "Jool.WholeSiitAny.error46_small",
    "Jool.WholeAny.other_stops",
    "Jool.WholeSiitAny.refused"
   ],
   "note": "Partial because of the hypotheses of C77, C82 and C88: one buffer (no frag_list, no GRO), packets that end before the 65528th byte of their datagram, TCP headers of at least 20 bytes, no protocol 58; through a NAT64, ICMP errors are not included (C84 has them if they are one packet) and hairpin packets are only followed to their first pass."
  },
  {
   "property": "C91",
   "status": "partial",
   "theorems": [
    "Jool.Wire.far_leaves_partial",
    "Jool.Wire.far_partial",
    "Jool.Wire.far_arrives_partial",
    "Jool.Wire.far_ping"
   ],
   "note": "Partial because of the hypotheses of C88 (one buffer; packets that end before the 65528th byte of their datagram; TCP headers of at least 20 bytes) and of C77 (protocols 0, 43, 44, 58, 60, which are IPv6 extension headers or ICMPv6, are excluded), and because the checksum of a datagram that had none is not right (C88: bare_right). Settings that overwrite the TOS or the traffic class are excluded. A fragment header in the middle of a NAT64 is a matter of the kernel (nf_defrag)."
  },
  {
   "property": "C92",
   "status": "partial",
   "theorems": [
    "Jool.WholeTurn.turned_partial",
    "Jool.WholeTurn.leaves66_partial",
    "Jool.WholeTurn.delivered_partial",
    "Jool.WholeTurn.middle",
    "Jool.WholeTurn.sent66",
    "Jool.WholeTurn.straight_partial"
   ],
   "note": "From the bytes that one node sends to the bytes that the other one gets, in any reachable state. Missing: ICMP errors that turn around, later fragments (as in C79), packets that the kernel holds in several pieces, packets which the second pass would have to split; and the hypotheses that C77 has because the program violates it. The checksum of an echo reply with identifier zero is not covered (neither are echoes with partial checksums, which do not exist). delivered_partial is about UDP, without address-dependent filtering; leaves66_partial reduces everything else to C52."
  },
  {
   "property": "C93",
   "status": "partial",
   "theorems": [
    "Jool.ReadFile.unchanged",
    "Jool.ReadFile.reads_whole",
    "Jool.ReadFile.balanced",
    "Jool.ReadFile.safe_partial",
    "Jool.ReadFile.loads",
    "Jool.ReadFile.configured",
    "Jool.ReadFile.shrunk",
    "Jool.ReadFile.grown",
    "Jool.ReadFile.hidden",
    "Jool.ReadFile.directory",
    "Jool.ReadFile.ttl_256",
    "Jool.ReadFile.any_root"
   ],
   "note": "All files and answers of the system. The program violates the rest: if the file becomes shorter after its size was asked for, it asks forever (shrunk); if it becomes longer after a short answer, it writes outside of its memory (grown: each request is for the whole size, not for what is left); what follows a NUL is ignored (hidden); the size of some directories overflows (directory). A time to live of 256 is admitted (ttl_256), and so are files whose value is not an object (any_root)."
  },
  {
   "property": "C94",
   "status": "partial",
   "theorems": [
    "Jool.Rules.named_partial",
    "Jool.Rules.made",
    "Jool.Rules.checked",
    "Jool.Rules.packets",
    "Jool.Rules.restored_partial",
    "Jool.Rules.unknown",
    "Jool.Rules.ignored",
    "Jool.Rules.blank",
    "Jool.Rules.quote",
    "Jool.Rules.empty"
   ],
   "note": "All options, memories and histories. The program violates the rest: a rule with an invalid name is not refused, it is for the default instance (ignored: jool_tg_parse returns -EINVAL, which is not zero, so the option counts as understood); names with blanks or quotes and the empty name are not restored as they were saved (blank, quote, empty). What iptables itself does is assumed (Model/Rules says what)."
  },
  {
   "property": "C95",
   "status": "partial",
   "theorems": [
    "Jool.CsvSpec.unique",
    "Jool.Listing.sessions_partial",
    "Jool.Listing.session_determined",
    "Jool.Listing.session_width",
    "Jool.Listing.session_short",
    "Jool.Listing.sessions_injective",
    "Jool.Listing.bibs_listed",
    "Jool.Listing.bib_determined",
    "Jool.Listing.bibs_injective",
    "Jool.Listing.eams_listed",
    "Jool.Listing.eam_determined",
    "Jool.Listing.eams_injective",
    "Jool.Listing.denied_listed",
    "Jool.Listing.denied_injective",
    "Jool.Listing.pool4s_listed",
    "Jool.Listing.pool4_determined",
    "Jool.Listing.globals_listed",
    "Jool.Listing.setting_determined",
    "Jool.Listing.globals_injective",
    "Jool.Listing.stats_listed",
    "Jool.Listing.stat_determined",
    "Jool.Listing.stats_injective",
    "Jool.Listing.last_unnamed",
    "Jool.Listing.instances_partial",
    "Jool.Listing.inst_determined",
    "Jool.Listing.instance_comma",
    "Jool.Listing.instance_lost"
   ],
   "note": "All tables. The program violates the rest: records of UDP and ICMP sessions lack the last column (session_short); names of instances are printed as they are, and a comma in one makes two fields (instance_comma, instance_lost); the last statistic has a name but is listed as \"????\" (last_unnamed). Listings with names instead of addresses (without --numeric) are modelled, but nothing is proved about them, since the names come from outside. inet_ntop and inet_pton are assumed to be inverse to each other, with the usual characters."
  },
  {
   "property": "C96",
   "status": "partial",
   "theorems": [
    "Jool.DStats.report",
    "Jool.DStats.report_partial",
    "Jool.DStats.idle_exact",
    "Jool.DStats.text",
    "Jool.DStats.text_injective",
    "Jool.DStats.negative",
    "Jool.DStats.torn"
   ],
   "note": "All interleavings. Partial because the counters are ints: from 2^31 on they are printed as negative numbers (negative; report says what the word is, report_partial is about smaller ones), and because the six numbers need not belong to the same moment (torn: more packets sent to the network than came from the kernel). Increments of atomic ints are assumed to wrap around."
  },
  {
   "property": "C97",
   "status": "partial",
   "theorems": [
    "Jool.DStart.listens_iff",
    "Jool.DStart.one_socket",
    "Jool.DStart.ready",
    "Jool.DStart.no_thread",
    "Jool.DStart.served_iff",
    "Jool.DStart.hops_file",
    "Jool.DStart.hops_proxy_partial",
    "Jool.DStart.hops_default",
    "Jool.DStart.not_retried",
    "Jool.DStart.stays_open",
    "Jool.DStart.stats_all"
   ],
   "note": "All configurations and answers of the system. The program violates the rest: if the first candidate that can be bound cannot be configured, the others are not tried (not_retried); the sockets of candidates that failed stay open (stays_open); the hop limit 4294967295 is accepted and means 1 (hops_default); one address without a socket for the statistics keeps the daemon from starting, when the other thread already runs (stats_all). What Linux does with hop limits is assumed (Hops). The Netlink socket is one answer."
  },
  {
   "property": "C98",
   "status": "partial",
   "theorems": [
    "Jool.Follow.followed_partial",
    "Jool.Follow.followed",
    "Jool.Follow.others_silent",
    "Jool.Follow.followed_determined",
    "Jool.Follow.followed_time",
    "Jool.Follow.long_wrong",
    "Jool.Follow.cut_overread",
    "Jool.Follow.case_leak"
   ],
   "note": "All messages, from the bytes of the kernel to the text. Partial: names that only differ in case are not told apart, although the kernel does (case_leak; followed_partial excludes them, followed says what happens); sessions with more than 2^32 milliseconds left are printed modulo that (long_wrong; the clamp of the kernel comes after the truncation); attributes of 32 to 35 bytes, which no kernel of this version sends, are read beyond their end (cut_overread, all of them). The state of TCP sessions is not printed."
  },
  {
   "property": "C99",
   "status": "partial",
   "theorems": [
    "Jool.Leaks.report_partial",
    "Jool.Leaks.none_iff",
    "Jool.Leaks.run_total",
    "Jool.Leaks.untracked_wrong",
    "Jool.Leaks.untracked_leaks",
    "Jool.Leaks.negative",
    "Jool.Leaks.positive"
   ],
   "note": "All histories and shapes of the tree. Partial: if an entry of the tracker could not be allocated, correct releases are warned about and leaks are not reported (untracked_wrong, untracked_leaks); 2^31 objects or more of a kind are printed as a negative number (negative, positive). rb_insert_color is trusted to keep the sequence of the entries."
  }
 ]
}