# Axioms of the theorems in MANIFEST.json

Generated with `Lean.collectAxioms` (what `#print axioms` prints). The three possible ones are Lean's standard axioms.

| Property | Theorem | Axioms |
|---|---|---|
| C01 | `Jool.rfc6052_roundtrip` | Classical.choice, Quot.sound, propext |
| C01 | `Jool.rfc6052_refusals` | Classical.choice, Quot.sound, propext |
| C02 | `Jool.rfc6052_4to6_correct` | Classical.choice, Quot.sound, propext |
| C02 | `Jool.rfc6052_6to4_correct` | Quot.sound, propext |
| C03 | `Jool.rfc6052_4to6_injective` | Classical.choice, Quot.sound, propext |
| C03 | `Jool.rfc6052_extract_embed` | Classical.choice, Quot.sound, propext |
| C03 | `Jool.rfc6052_6to4_injective_on_canonical` | Classical.choice, Quot.sound, propext |
| C04 | `Jool.prefix4_contains_correct` | Classical.choice, Quot.sound, propext |
| C04 | `Jool.prefix6_contains_correct` | Quot.sound, propext |
| C04 | `Jool.prefix4_intersects_correct` | Classical.choice, Quot.sound, propext |
| C04 | `Jool.prefix4_foreach_correct` | Classical.choice, Quot.sound, propext |
| C05 | `Jool.prefix4_validate_correct` | Classical.choice, Quot.sound, propext |
| C05 | `Jool.prefix6_validate_correct` | Classical.choice, Quot.sound, propext |
| C06 | `Jool.prefix4_validate_scope_correct` | Classical.choice, Quot.sound, propext |
| C06 | `Jool.addr4_scope_correct` | Classical.choice, Quot.sound, propext |
| C07 | `Jool.Denylist4.denylist_refines` | Classical.choice, Quot.sound, propext |
| C07 | `Jool.Denylist4.denylist_contains_correct` | Classical.choice, Quot.sound, propext |
| C07 | `Jool.Denylist4.denylist_listing_partial` | Quot.sound, propext |
| C07 | `Jool.Denylist4.denylist_listing_loops` | Quot.sound, propext |
| C08 | `Jool.Rtrie.trie_history_partial` | Classical.choice, Quot.sound, propext |
| C08 | `Jool.Rtrie.find_longest` | Classical.choice, Quot.sound, propext |
| C08 | `Jool.Rtrie.disjoint_history` | Classical.choice, Quot.sound, propext |
| C08 | `Jool.Rtrie.step_refines` | Classical.choice, Quot.sound, propext |
| C08 | `Jool.Rtrie.sibling_hides` | Quot.sound, propext |
| C08 | `Jool.Rtrie.sibling_hides_add_only` | Quot.sound, propext |
| C08 | `Jool.Rtrie.orphan_loses_table` | Quot.sound, propext |
| C08 | `Jool.RtrieKey.keyMatch_eq` | Classical.choice, Quot.sound, propext |
| C08 | `Jool.RtrieKey.keyContains_eq` | Classical.choice, Quot.sound, propext |
| C08 | `Jool.RtrieKey.keyEquals_eq` | Classical.choice, Quot.sound, propext |
| C08 | `Jool.Eam.lookup6` | Classical.choice, Quot.sound, propext |
| C08 | `Jool.Eam.lookup4` | Classical.choice, Quot.sound, propext |
| C08 | `Jool.Eam.contains6_spec` | Classical.choice, Quot.sound, propext |
| C08 | `Jool.Eam.contains4_spec` | Classical.choice, Quot.sound, propext |
| C08 | `Jool.Eam.history_partial` | Classical.choice, Quot.sound, propext |
| C08 | `Jool.Eam.not_longest` | Quot.sound, propext |
| C08 | `Jool.Eam.key_bytes` | Quot.sound, propext |
| C09 | `Jool.Rtrie.trie_refines_partial` | Classical.choice, Quot.sound, propext |
| C09 | `Jool.Rtrie.no_leak_partial` | Classical.choice, Quot.sound, propext |
| C09 | `Jool.Rtrie.disjoint_history` | Classical.choice, Quot.sound, propext |
| C09 | `Jool.Rtrie.swap_use_after_free` | Quot.sound, propext |
| C09 | `Jool.Rtrie.swap_use_after_free2` | Quot.sound, propext |
| C09 | `Jool.Rtrie.nomem_leaks` | Quot.sound, propext |
| C09 | `Jool.Rtrie.nodes_once` | none |
| C09 | `Jool.Rtrie.swap_list` | Classical.choice, Quot.sound, propext |
| C09 | `Jool.RtrieKey.inodeKey_eq` | Classical.choice, Quot.sound, propext |
| C09 | `Jool.Eam.history_partial` | Classical.choice, Quot.sound, propext |
| C09 | `Jool.Eam.use_after_free` | Quot.sound, propext |
| C10 | `Jool.Eam.no_overlaps_partial` | Classical.choice, Quot.sound, propext |
| C10 | `Jool.Eam.subset_refused` | Classical.choice, Quot.sound, propext |
| C10 | `Jool.Eam.superset_accepted` | Classical.choice, Quot.sound, propext |
| C11 | `Jool.Eam.xlat64_bits` | Classical.choice, Quot.sound, propext |
| C11 | `Jool.Eam.xlat46_bits` | Classical.choice, Quot.sound, propext |
| C11 | `Jool.Eam.xlat46_inside` | Classical.choice, Quot.sound, propext |
| C11 | `Jool.Eam.xlat64_inside` | Classical.choice, Quot.sound, propext |
| C11 | `Jool.Eam.roundtrip46` | Classical.choice, Quot.sound, propext |
| C11 | `Jool.Eam.roundtrip64` | Classical.choice, Quot.sound, propext |
| C11 | `Jool.Eam.xlat46_inj` | Classical.choice, Quot.sound, propext |
| C11 | `Jool.Eam.table_roundtrip` | Classical.choice, Quot.sound, propext |
| C11 | `Jool.Eam.table_reversible` | Classical.choice, Quot.sound, propext |
| C11 | `Jool.Eam.validate_iff` | Classical.choice, Quot.sound, propext |
| C12 | `Jool.Eam.step_refines` | Classical.choice, Quot.sound, propext |
| C12 | `Jool.Eam.history_partial` | Classical.choice, Quot.sound, propext |
| C12 | `Jool.Eam.halves_agree` | Classical.choice, Quot.sound, propext |
| C12 | `Jool.Eam.failed_add` | Classical.choice, Quot.sound, propext |
| C12 | `Jool.Eam.rm_nomem_diverges` | Quot.sound, propext |
| C13 | `Jool.Siit.siit64_spec` | Classical.choice, Quot.sound, propext |
| C13 | `Jool.Siit.siit46_spec` | Classical.choice, Quot.sound, propext |
| C13 | `Jool.Siit.siit_roundtrip` | Classical.choice, Quot.sound, propext |
| C13 | `Jool.Siit.error_sources_unscreened` | Quot.sound, propext |
| C13 | `Jool.Siit.exInst_ok` | Classical.choice, Quot.sound, propext |
| C14 | `Jool.Pool4.pool4_set` | Classical.choice, Quot.sound, propext |
| C14 | `Jool.Pool4.pool4_sorted` | Classical.choice, Quot.sound, propext |
| C14 | `Jool.Pool4.pool4_add_accepts` | Classical.choice, Quot.sound, propext |
| C14 | `Jool.Pool4.pool4_full` | Quot.sound, propext |
| C14 | `Jool.Pool4.add_use_after_free` | Quot.sound, propext |
| C14 | `Jool.Pool4.rm_use_after_free` | Quot.sound, propext |
| C14 | `Jool.Pool4.rm_enomem_loses` | Quot.sound, propext |
| C15 | `Jool.Pool4.counter_partial` | Classical.choice, Quot.sound, propext |
| C15 | `Jool.Pool4.pool4_sane_partial` | Classical.choice, Quot.sound, propext |
| C15 | `Jool.Pool4.counter_fuse` | Quot.sound, propext |
| C15 | `Jool.Pool4.counter_hole` | Quot.sound, propext |
| C15 | `Jool.Pool4.counter_div_zero` | Quot.sound, propext |
| C15 | `Jool.Pool4.port_zero_div_zero` | Quot.sound, propext |
| C15 | `Jool.Pool4.icmp_div_zero` | Classical.choice, Quot.sound, propext |
| C16 | `Jool.Pool4.enumeration` | Quot.sound, propext |
| C16 | `Jool.Pool4.enumeration_exact` | Classical.choice, Quot.sound, propext |
| C16 | `Jool.Pool4.enumeration_empty` | Classical.choice, Quot.sound, propext |
| C16 | `Jool.Pool4.masks_ok` | Classical.choice, Quot.sound, propext |
| C16 | `Jool.Pool4.enumeration_skips` | Quot.sound, propext |
| C16 | `Jool.Pool4.enumeration_repeats` | Quot.sound, propext |
| C17 | `Jool.Pool4.contains_sound` | Classical.choice, Quot.sound, propext |
| C17 | `Jool.Pool4.contains_complete_partial` | Classical.choice, Quot.sound, propext |
| C17 | `Jool.Pool4.contains_empty` | Classical.choice, Quot.sound, propext |
| C17 | `Jool.Pool4.contains_incomplete` | Classical.choice, Quot.sound, propext |
| C17 | `Jool.Pool4.prefix_lookup` | Classical.choice, Quot.sound, propext |
| C17 | `Jool.Pool4.prefix_walk` | Classical.choice, Quot.sound, propext |
| C18 | `Jool.Pool4.mark_lookup_partial` | Classical.choice, Quot.sound, propext |
| C18 | `Jool.Pool4.addr_lookup` | Classical.choice, Quot.sound, propext |
| C18 | `Jool.Pool4.mark_lost` | propext |
| C19 | `Jool.Bib.bib_bijection` | Classical.choice, Quot.sound, propext |
| C20 | `Jool.Bib.session_unique` | Classical.choice, Quot.sound, propext |
| C21 | `Jool.Bib.dynamic_has_session` | Classical.choice, Quot.sound, propext |
| C21 | `Jool.Bib.static_survives_partial` | Classical.choice, Quot.sound, propext |
| C21 | `Jool.Bib.static_survives_timer` | Classical.choice, Quot.sound, propext |
| C21 | `Jool.Bib.static_entry_evicted` | Quot.sound, propext |
| C22 | `Jool.Bib.session_one_timer` | Classical.choice, Quot.sound, propext |
| C22 | `Jool.Bib.lists_sorted_partial` | Classical.choice, Quot.sound, propext |
| C22 | `Jool.Bib.sweep_misses` | Quot.sound, propext |
| C23 | `Jool.Bib.sweep_not_premature` | Classical.choice, Quot.sound, propext |
| C23 | `Jool.Bib.sweep_complete_partial` | Classical.choice, Quot.sound, propext |
| C23 | `Jool.Bib.sweep_notifies_partial` | Classical.choice, Quot.sound, propext |
| C23 | `Jool.Bib.sweep_misses` | Quot.sound, propext |
| C24 | `Jool.tcp_sm_conforms` | Quot.sound, propext |
| C24 | `Jool.tcp_sm_frame` | propext |
| C24 | `Jool.tcp_sm_single_flag` | Quot.sound, propext |
| C24 | `Jool.tcp_state_justified` | Quot.sound, propext |
| C24 | `Jool.tcp_close_reason` | Quot.sound, propext |
| C25 | `Jool.tcp_timer_agrees` | Quot.sound, propext |
| C25 | `Jool.Bib.tcp_timer_state_agree` | Classical.choice, Quot.sound, propext |
| C25 | `Jool.Bib.est_expiration_no_warning` | Classical.choice, Quot.sound, propext |
| C26 | `Jool.Bib.so_packets_once` | Classical.choice, Quot.sound, propext |
| C26 | `Jool.Bib.so_bounded` | Classical.choice, Quot.sound, propext |
| C26 | `Jool.Bib.so_counter_ge` | Classical.choice, Quot.sound, propext |
| C26 | `Jool.Bib.so_counter_exact_partial` | Classical.choice, Quot.sound, propext |
| C26 | `Jool.Bib.so_counter_leaks` | Quot.sound, propext |
| C26 | `Jool.Bib.so_leak_permanent` | Classical.choice, Quot.sound, propext |
| C27 | `Jool.Bib.so_upgrade_safe_partial` | Classical.choice, Quot.sound, propext |
| C27 | `Jool.Bib.udp_icmp_memory_safe` | Classical.choice, Quot.sound, propext |
| C27 | `Jool.Bib.ub_causes` | Classical.choice, Quot.sound, propext |
| C27 | `Jool.Bib.run_ub_causes` | Classical.choice, Quot.sound, propext |
| C27 | `Jool.Bib.so_upgrade_use_after_free` | Quot.sound, propext |
| C27 | `Jool.Bib.unknown_state_use_after_free` | Quot.sound, propext |
| C28 | `Jool.Bib.adf_exact` | Classical.choice, Quot.sound, propext |
| C28 | `Jool.Bib.adf_off` | Quot.sound, propext |
| C28 | `Jool.RbTree.sessionSlot_allow` | Classical.choice, Quot.sound, propext |
| C29 | `Jool.Bib.new_entry_from_pool` | Classical.choice, Quot.sound, propext |
| C29 | `Jool.Bib.exhausted_pool_partial` | Classical.choice, Quot.sound, propext |
| C29 | `Jool.Bib.exhausted_pool_evicts` | Quot.sound, propext |
| C30 | `Jool.Bib.range_removal_partial` | Classical.choice, Quot.sound, propext |
| C30 | `Jool.Bib.removal_exact` | Classical.choice, Quot.sound, propext |
| C30 | `Jool.Bib.flush_exact` | Classical.choice, Quot.sound, propext |
| C30 | `Jool.Bib.range_removal_misses` | Classical.choice, Quot.sound, propext |
| C31 | `Jool.BibDump.bib_dump_correct` | Classical.choice, Quot.sound, propext |
| C31 | `Jool.BibDump.session_dump_correct` | Classical.choice, Quot.sound, propext |
| C31 | `Jool.BibDump.bib_dump_quiet` | Classical.choice, Quot.sound, propext |
| C31 | `Jool.BibDump.session_dump_quiet` | Classical.choice, Quot.sound, propext |
| C32 | `Jool.JooldMsg.message_roundtrip` | Classical.choice, Quot.sound, propext |
| C32 | `Jool.JooldMsg.message_roundtrip_dst6` | Classical.choice, Quot.sound, propext |
| C32 | `Jool.JooldMsg.message_lifetime_partial` | Classical.choice, Quot.sound, propext |
| C32 | `Jool.JooldMsg.lifetime_syn4` | Quot.sound, propext |
| C32 | `Jool.JooldMsg.lifetime_syn4_gain` | Classical.choice, Quot.sound, propext |
| C32 | `Jool.JooldMsg.lifetime_overflow` | Quot.sound, propext |
| C32 | `Jool.JooldMsg.dst6_not_carried` | Quot.sound, propext |
| C32 | `Jool.JooldMsg.sync_delivers` | Classical.choice, Quot.sound, propext |
| C33 | `Jool.JooldMsg.overread_iff` | Classical.choice, Quot.sound, propext |
| C33 | `Jool.JooldMsg.parse_inside_partial` | Classical.choice, Quot.sound, propext |
| C33 | `Jool.JooldMsg.parse_overreads` | Quot.sound, propext |
| C33 | `Jool.JooldMsg.parse_short` | Quot.sound, propext |
| C33 | `Jool.JooldMsg.parse_tail` | Quot.sound, propext |
| C33 | `Jool.JooldMsg.parse_defined_partial` | Quot.sound, propext |
| C33 | `Jool.JooldMsg.parse_undefined` | Quot.sound, propext |
| C33 | `Jool.JooldMsg.sync_history` | Quot.sound, propext |
| C33 | `Jool.JooldMsg.sync_after` | Quot.sound, propext |
| C33 | `Jool.JooldMsg.sync_success` | Quot.sound, propext |
| C33 | `Jool.JooldMsg.sync_null` | Quot.sound, propext |
| C34 | `Jool.Joold.flush_iff` | Quot.sound, propext |
| C34 | `Jool.Joold.ack_flushes` | Quot.sound, propext |
| C34 | `Jool.Joold.advertisement_drains` | Classical.choice, Quot.sound, propext |
| C34 | `Jool.Joold.queue_fifo` | Quot.sound, propext |
| C34 | `Jool.Joold.queue_nodup` | Quot.sound, propext |
| C34 | `Jool.Joold.queue_batch` | Quot.sound, propext |
| C34 | `Jool.Joold.queue_paced` | Quot.sound, propext |
| C34 | `Jool.Joold.queue_bound_partial` | Quot.sound, propext |
| C34 | `Jool.Joold.queue_unbounded` | Quot.sound, propext |
| C34 | `Jool.Joold.queue_drains` | Classical.choice, Quot.sound, propext |
| C34 | `Jool.Joold.queue_stuck` | Quot.sound, propext |
| C34 | `Jool.Joold.transmit_partial` | Quot.sound, propext |
| C34 | `Jool.Joold.transmit_whole` | none |
| C34 | `Jool.Joold.transmit_loses` | Quot.sound, propext |
| C35 | `Jool.Bib.joold_update` | Classical.choice, Quot.sound, propext |
| C35 | `Jool.Bib.joold_add` | Classical.choice, Quot.sound, propext |
| C35 | `Jool.Bib.joold_conflict` | Classical.choice, Quot.sound, propext |
| C35 | `Jool.Bib.joold_never_replaces` | Classical.choice, Quot.sound, propext |
| C35 | `Jool.Bib.joold_idempotent_partial` | Classical.choice, Quot.sound, propext |
| C35 | `Jool.Bib.joold_wrong_entry` | Quot.sound, propext |
| C35 | `Jool.Bib.joold_icmp_twice` | Quot.sound, propext |
| C36 | `Jool.Icmp.icmp46_table` | Quot.sound, propext |
| C36 | `Jool.Icmp.icmp64_table` | propext |
| C36 | `Jool.Icmp.icmp46_dropped` | Quot.sound, propext |
| C36 | `Jool.Icmp.icmp64_dropped` | propext |
| C36 | `Jool.Icmp.icmp46_types` | Quot.sound, propext |
| C36 | `Jool.Icmp.icmp64_types` | propext |
| C36 | `Jool.Icmp.icmp46_class` | Quot.sound, propext |
| C36 | `Jool.Icmp.icmp64_class` | propext |
| C36 | `Jool.Icmp.icmp46_back` | Quot.sound, propext |
| C36 | `Jool.Icmp.icmp64_back` | propext |
| C36 | `Jool.Icmp.echo_roundtrip` | Classical.choice, Quot.sound, propext |
| C36 | `Jool.Icmp.ttp64_not_dead` | Classical.choice, Quot.sound, propext |
| C36 | `Jool.Icmp.ttp46_not_dead` | Classical.choice, Quot.sound, propext |
| C37 | `Jool.Icmp.pointer64` | Classical.choice, Quot.sound, propext |
| C37 | `Jool.Icmp.pointer46` | Quot.sound, propext |
| C37 | `Jool.Icmp.pointer64_header` | Classical.choice, Quot.sound, propext |
| C37 | `Jool.Icmp.pointer46_header` | Classical.choice, Quot.sound, propext |
| C37 | `Jool.Icmp.pointer_roundtrip` | Classical.choice, Quot.sound, propext |
| C37 | `Jool.Icmp.protocol_unreachable` | Quot.sound, propext |
| C38 | `Jool.Csum.tcp64_valid` | Classical.choice, Quot.sound, propext |
| C38 | `Jool.Csum.udp64_valid` | Classical.choice, Quot.sound, propext |
| C38 | `Jool.Csum.udp64_nonzero` | Quot.sound, propext |
| C38 | `Jool.Csum.tcp46_valid` | Classical.choice, Quot.sound, propext |
| C38 | `Jool.Csum.udp46_valid` | Classical.choice, Quot.sound, propext |
| C38 | `Jool.Csum.udp46_drop` | Quot.sound, propext |
| C38 | `Jool.Csum.tcp46_partial_valid` | Classical.choice, Quot.sound, propext |
| C38 | `Jool.Csum.udp46_partial_valid` | Classical.choice, Quot.sound, propext |
| C38 | `Jool.Csum.xlat64_partial_valid` | Classical.choice, Quot.sound, propext |
| C38 | `Jool.Csum.tcp46_list_valid` | Classical.choice, Quot.sound, propext |
| C38 | `Jool.Csum.udp46_list_valid` | Classical.choice, Quot.sound, propext |
| C38 | `Jool.Csum.echo64_valid_partial` | Classical.choice, Quot.sound, propext |
| C38 | `Jool.Csum.echo64_request` | Classical.choice, Quot.sound, propext |
| C38 | `Jool.Csum.echo46_valid_partial` | Classical.choice, Quot.sound, propext |
| C38 | `Jool.Csum.error64_valid` | Classical.choice, Quot.sound, propext |
| C38 | `Jool.Csum.error46_valid` | Classical.choice, Quot.sound, propext |
| C38 | `Jool.Csum.ipHeader_valid` | Classical.choice, Quot.sound, propext |
| C38 | `Jool.Csum.udp46_zero_out` | Classical.choice, Quot.sound, propext |
| C38 | `Jool.Csum.udp46_slow_zero` | Classical.choice, Quot.sound, propext |
| C38 | `Jool.Csum.echo64_zero` | Classical.choice, Quot.sound, propext |
| C38 | `Jool.Csum.echo46_zero` | Classical.choice, Quot.sound, propext |
| C38 | `Jool.Csum.error_complete` | Classical.choice, Quot.sound, propext |
| C39 | `Jool.Hdr.slow_covers_partial` | Classical.choice, Quot.sound, propext |
| C39 | `Jool.Hdr.covers_bytes` | Quot.sound, propext |
| C39 | `Jool.Hdr.slow_needed` | Classical.choice, Quot.sound, propext |
| C39 | `Jool.Hdr.slow_wraps` | Quot.sound, propext |
| C40 | `Jool.Mtu.mtu6_minimum` | Quot.sound, propext |
| C40 | `Jool.Mtu.mtu6_upper` | Classical.choice, Quot.sound, propext |
| C40 | `Jool.Mtu.mtu6_rfc_partial` | Classical.choice, Quot.sound, propext |
| C40 | `Jool.Mtu.mtu4_upper_partial` | Classical.choice, Quot.sound, propext |
| C40 | `Jool.Mtu.mtu4_rfc_partial` | Quot.sound, propext |
| C40 | `Jool.Mtu.mtu4_minimum_partial` | Quot.sound, propext |
| C40 | `Jool.Mtu.mtu4_wraps` | none |
| C40 | `Jool.Mtu.mtu4_below_minimum` | none |
| C40 | `Jool.Mtu.mtu4_truncates` | none |
| C40 | `Jool.Mtu.ownPtb_bounds` | Classical.choice, Quot.sound, propext |
| C40 | `Jool.Mtu.ownFn_bounds` | Classical.choice, Quot.sound, propext |
| C41 | `Jool.IcmpExt.ext64_partial` | Classical.choice, Quot.sound, propext |
| C41 | `Jool.IcmpExt.ext46_partial` | Classical.choice, Quot.sound, propext |
| C41 | `Jool.IcmpExt.ext64_bounds_partial` | Classical.choice, Quot.sound, propext |
| C41 | `Jool.IcmpExt.ext46_bounds_partial` | Classical.choice, Quot.sound, propext |
| C41 | `Jool.IcmpExt.shouldRemove_spec` | propext |
| C41 | `Jool.IcmpExt.ext64_underflow` | Quot.sound, propext |
| C41 | `Jool.IcmpExt.ext46_underflow` | Quot.sound, propext |
| C42 | `Jool.Pkt.summarize6_bounded` | Classical.choice, Quot.sound, propext |
| C42 | `Jool.Pkt.walkers_agree` | Classical.choice, Quot.sound, propext |
| C42 | `Jool.Pkt.walkers_agree_inner_partial` | Classical.choice, Quot.sound, propext |
| C42 | `Jool.Pkt.chain_unique` | propext |
| C42 | `Jool.Pkt.iter_sound` | Quot.sound, propext |
| C42 | `Jool.Pkt.iter_complete` | Quot.sound, propext |
| C42 | `Jool.Pkt.walkers_disagree` | Quot.sound, propext |
| C43 | `Jool.Options.scan_wellformed_partial` | Quot.sound, propext |
| C43 | `Jool.Options.scan_terminates_partial` | Quot.sound, propext |
| C43 | `Jool.Options.scan_stuck` | Quot.sound, propext |
| C43 | `Jool.Options.scan_hangs` | Quot.sound, propext |
| C43 | `Jool.Options.scan_strays` | propext |
| C44 | `Jool.Pkt.reads6_partial` | Classical.choice, Quot.sound, propext |
| C44 | `Jool.Pkt.reads4_partial` | Classical.choice, Quot.sound, propext |
| C44 | `Jool.Pkt.one_nested6` | Classical.choice, Quot.sound, propext |
| C44 | `Jool.Pkt.nested4_complete` | Classical.choice, Quot.sound, propext |
| C44 | `Jool.Pkt.reads6_outside` | Quot.sound, propext |
| C44 | `Jool.Pkt.reads6_inner_outside` | Quot.sound, propext |
| C44 | `Jool.Pkt.reads6_tcp` | Quot.sound, propext |
| C44 | `Jool.Pkt.reads4_outside` | propext |
| C44 | `Jool.Pkt.two_nested4` | propext |
| C45 | `Jool.Hdr.hop64_expired` | Quot.sound, propext |
| C45 | `Jool.Hdr.hop46_expired` | Quot.sound, propext |
| C45 | `Jool.Hdr.hop64_decrement` | Classical.choice, Quot.sound, propext |
| C45 | `Jool.Hdr.hop46_decrement` | Classical.choice, Quot.sound, propext |
| C45 | `Jool.Hdr.hop_hairpin` | Classical.choice, Quot.sound, propext |
| C45 | `Jool.Hdr.hop_inner` | Quot.sound, propext |
| C45 | `Jool.Hdr.hop_inner46` | Quot.sound, propext |
| C46 | `Jool.Hdr.frag64` | Classical.choice, Quot.sound, propext |
| C46 | `Jool.Hdr.nofrag64` | Quot.sound, propext |
| C46 | `Jool.Hdr.frag46` | Classical.choice, Quot.sound, propext |
| C46 | `Jool.Hdr.frag464` | Classical.choice, Quot.sound, propext |
| C46 | `Jool.Hdr.frag646` | Classical.choice, Quot.sound, propext |
| C47 | `Jool.Mtu.plateaus_stored_partial` | Classical.choice, Quot.sound, propext |
| C47 | `Jool.Mtu.plateaus_refused_partial` | Classical.choice, Quot.sound, propext |
| C47 | `Jool.Mtu.plateaus_empty_accepted` | Quot.sound, propext |
| C48 | `Jool.Xlator.unique_names` | Classical.choice, Quot.sound, propext |
| C48 | `Jool.Xlator.instances_valid` | Classical.choice, Quot.sound, propext |
| C48 | `Jool.Xlator.netfilter_unique_partial` | Classical.choice, Quot.sound, propext |
| C48 | `Jool.Xlator.netfilter_two` | Classical.choice, Quot.sound, propext |
| C48 | `Jool.Xlator.lookup_spec` | Classical.choice, Quot.sound, propext |
| C48 | `Jool.Xlator.add_spec` | Classical.choice, Quot.sound, propext |
| C48 | `Jool.Xlator.rm_spec` | Classical.choice, Quot.sound, propext |
| C48 | `Jool.Xlator.flush_spec` | Classical.choice, Quot.sound, propext |
| C48 | `Jool.Xlator.replace_spec` | Classical.choice, Quot.sound, propext |
| C48 | `Jool.Xlator.netfilter_shadow` | Quot.sound, propext |
| C48 | `Jool.Xlator.replace_window` | Classical.choice, Quot.sound, propext |
| C49 | `Jool.Atomic.history_defined` | Classical.choice, Quot.sound, propext |
| C49 | `Jool.Atomic.not_committed` | Classical.choice, Quot.sound, propext |
| C49 | `Jool.Atomic.teardown_unchanged` | Classical.choice, Quot.sound, propext |
| C49 | `Jool.Atomic.commit_exact_partial` | Classical.choice, Quot.sound, propext |
| C49 | `Jool.Atomic.refused` | Classical.choice, Quot.sound, propext |
| C49 | `Jool.Atomic.commit_use_after_free` | Classical.choice, Quot.sound, propext |
| C49 | `Jool.Atomic.namespace_leak` | Classical.choice, Quot.sound, propext |
| C49 | `Jool.Atomic.mixture` | Quot.sound, propext |
| C50 | `Jool.Xlator.never_undefined` | Classical.choice, Quot.sound, propext |
| C50 | `Jool.Xlator.refcount_exact` | Classical.choice, Quot.sound, propext |
| C50 | `Jool.Xlator.released_iff` | Classical.choice, Quot.sound, propext |
| C50 | `Jool.Xlator.released_iff_quiet` | Classical.choice, Quot.sound, propext |
| C50 | `Jool.Xlator.no_leak` | Classical.choice, Quot.sound, propext |
| C50 | `Jool.Xlator.reap_idle` | Classical.choice, Quot.sound, propext |
| C50 | `Jool.Xlator.hooks_exact` | Classical.choice, Quot.sound, propext |
| C50 | `Jool.Xlator.snapshot` | Classical.choice, Quot.sound, propext |
| C51 | `Jool.Globals.history_valid_partial` | Classical.choice, Quot.sound, propext |
| C51 | `Jool.Globals.update_accepts_iff` | Classical.choice, Quot.sound, propext |
| C51 | `Jool.Globals.update_exact` | Classical.choice, Quot.sound, propext |
| C51 | `Jool.Globals.handleUpdate_spec` | Classical.choice, Quot.sound, propext |
| C51 | `Jool.Globals.refused_unchanged` | Quot.sound, propext |
| C51 | `Jool.Globals.nat64_pool6_fixed` | Quot.sound, propext |
| C51 | `Jool.Globals.icmp_timeout_unchecked` | Classical.choice, Quot.sound, propext |
| C51 | `Jool.Globals.icmp_timeout_zero` | Classical.choice, Quot.sound, propext |
| C52 | `Jool.Nat64.hairpin_iff` | Classical.choice, Quot.sound, propext |
| C52 | `Jool.Nat64.hairpin_end_to_end` | Classical.choice, Quot.sound, propext |
| C52 | `Jool.Nat64.hairpin_delivered` | Classical.choice, Quot.sound, propext |
| C52 | `Jool.Nat64.hairpin_source` | Classical.choice, Quot.sound, propext |
| C52 | `Jool.Nat64.pool6_source_refused` | Quot.sound, propext |
| C52 | `Jool.Nat64.sent6_source` | Classical.choice, Quot.sound, propext |
| C52 | `Jool.Nat64.Ex.hairpin_returned` | Quot.sound, propext |
| C52 | `Jool.Nat64.Ex.echo_bounced` | Quot.sound, propext |
| C53 | `Jool.Nat64.translated64` | Classical.choice, Quot.sound, propext |
| C53 | `Jool.Nat64.translated46` | Quot.sound, propext |
| C53 | `Jool.Nat64.reply64` | Classical.choice, Quot.sound, propext |
| C53 | `Jool.Nat64.roundtrip64` | Classical.choice, Quot.sound, propext |
| C53 | `Jool.Nat64.roundtrip46` | Classical.choice, Quot.sound, propext |
| C53 | `Jool.Nat64.forward64` | Classical.choice, Quot.sound, propext |
| C53 | `Jool.Nat64.same_source` | Classical.choice, Quot.sound, propext |
| C53 | `Jool.Nat64.error46` | Classical.choice, Quot.sound, propext |
| C53 | `Jool.Nat64.error64` | Classical.choice, Quot.sound, propext |
| C53 | `Jool.Nat64.error_roundtrip` | Classical.choice, Quot.sound, propext |
| C53 | `Jool.Nat64.stored_ok` | Classical.choice, Quot.sound, propext |
| C53 | `Jool.Nat64.tables_after` | Classical.choice, Quot.sound, propext |
| C53 | `Jool.Nat64.Ex.suffix_lost` | Quot.sound, propext |
| C53 | `Jool.Nat64.Ex.error_destination_ignored` | Quot.sound, propext |
| C54 | `Jool.Bib.stats_exact` | Classical.choice, Quot.sound, propext |
| C54 | `Jool.Stats.gauges_partial` | Classical.choice, Quot.sound, propext |
| C54 | `Jool.Stats.gauges_replaced` | Classical.choice, Quot.sound, propext |
| C54 | `Jool.Stats.gauge_wraps` | Quot.sound, propext |
| C55 | `Jool.Bib.nonsyn_creates_nothing_partial` | Classical.choice, Quot.sound, propext |
| C55 | `Jool.Bib.nonsyn_upgrades` | Quot.sound, propext |
| C56 | `Jool.Bib.isolation` | Classical.choice, Quot.sound, propext |
| C56 | `Jool.Bib.isolation_bib6` | Classical.choice, Quot.sound, propext |
| C56 | `Jool.Bib.isolation_bib4` | Classical.choice, Quot.sound, propext |
| C57 | `Jool.Bib.adf_tcp` | Classical.choice, Quot.sound, propext |
| C58 | `Jool.Hdr.tc46` | Quot.sound, propext |
| C58 | `Jool.Hdr.tos64_partial` | Quot.sound, propext |
| C58 | `Jool.Hdr.tos64_exact` | Quot.sound, propext |
| C58 | `Jool.Hdr.tos64_inner` | Quot.sound, propext |
| C58 | `Jool.Hdr.tos64_ecn` | Quot.sound, propext |
| C58 | `Jool.Hdr.tos_roundtrip_partial` | Quot.sound, propext |
| C59 | `Jool.Hdr.fast46_fits_partial` | Classical.choice, Quot.sound, propext |
| C59 | `Jool.Hdr.fast46_gso` | Quot.sound, propext |
| C59 | `Jool.Hdr.fast46_first_fragment` | Quot.sound, propext |
| C59 | `Jool.Hdr.fragNeeded_no_progress` | Quot.sound, propext |
| C59 | `Jool.Hdr.fragNeeded_progress_partial` | Quot.sound, propext |
| C59 | `Jool.Hdr.ok64_fits_partial` | Quot.sound, propext |
| C59 | `Jool.Hdr.ok64_paged` | none |
| C59 | `Jool.Hdr.ok64_black_hole` | none |
| C60 | `Jool.Pool4.listing_complete` | Classical.choice, Quot.sound, propext |
| C60 | `Jool.Pool4.page_faithful` | Classical.choice, Quot.sound, propext |
| C60 | `Jool.Pool4.foreach_after` | Quot.sound, propext |
| C60 | `Jool.Pool4.foreach_lost` | Quot.sound, propext |
| C60 | `Jool.Pool4.add_settings` | Classical.choice, Quot.sound, propext |
| C60 | `Jool.Pool4.update_settings` | Quot.sound, propext |
| C60 | `Jool.Pool4.rm_settings` | Quot.sound, propext |
| C60 | `Jool.Pool4.settings_sane` | Quot.sound, propext |
| C60 | `Jool.Pool4.limit_correct` | Quot.sound, propext |
| C60 | `Jool.Pool4.packet_limit` | Quot.sound, propext |
| C61 | `Jool.Rtrie.listing_spec` | Classical.choice, Quot.sound, propext |
| C61 | `Jool.Rtrie.size_spec` | Classical.choice, Quot.sound, propext |
| C61 | `Jool.Rtrie.trie_refines_partial` | Classical.choice, Quot.sound, propext |
| C61 | `Jool.Eam.listing` | Classical.choice, Quot.sound, propext |
| C62 | `Jool.Siit.find6791v4_spec` | Classical.choice, Quot.sound, propext |
| C62 | `Jool.Siit.find6791v6_spec` | Classical.choice, Quot.sound, propext |
| C62 | `Jool.Siit.find6791v6_onto` | Classical.choice, Quot.sound, propext |
| C62 | `Jool.Siit.addrs64_spec` | Classical.choice, Quot.sound, propext |
| C62 | `Jool.Siit.addrs46_spec` | Classical.choice, Quot.sound, propext |
| C62 | `Jool.Siit.stat64_swapped` | Classical.choice, Quot.sound, propext |
| C63 | `Jool.Siit.hairpin_conversation` | Classical.choice, Quot.sound, propext |
| C63 | `Jool.Siit.hairpin_error` | Classical.choice, Quot.sound, propext |
| C63 | `Jool.Siit.no_hairpin` | Classical.choice, Quot.sound, propext |
| C63 | `Jool.Siit.uturn_first` | Classical.choice, Quot.sound, propext |
| C63 | `Jool.Siit.uturn_second` | Classical.choice, Quot.sound, propext |
| C63 | `Jool.Siit.exInst_nodes` | Classical.choice, Quot.sound, propext |
| C64 | `Jool.Bib.mapping_stable` | Classical.choice, Quot.sound, propext |
| C64 | `Jool.Bib.mapping_kept` | Classical.choice, Quot.sound, propext |
| C64 | `Jool.Bib.mapping_replaced` | Classical.choice, Quot.sound, propext |
| C64 | `Jool.Pool4.owns_pool` | Quot.sound, propext |
| C64 | `Jool.Pool4.owns_empty` | Classical.choice, Quot.sound, propext |
| C65 | `Jool.Globals.pages_complete` | Classical.choice, Quot.sound, propext |
| C65 | `Jool.Globals.listing_restores` | Classical.choice, Quot.sound, propext |
| C65 | `Jool.Globals.history_valid_partial` | Classical.choice, Quot.sound, propext |
| C66 | `Jool.Nat64.inbound46` | Classical.choice, Quot.sound, propext |
| C66 | `Jool.Nat64.inactive_returned` | Quot.sound, propext |
| C66 | `Jool.Nat64.returned4_unchanged` | Quot.sound, propext |
| C66 | `Jool.Nat64.returned4_pool` | Quot.sound, propext |
| C66 | `Jool.Nat64.returned4_iff` | Classical.choice, Quot.sound, propext |
| C66 | `Jool.Nat64.returned4_error` | Classical.choice, Quot.sound, propext |
| C66 | `Jool.Nat64.returned6_unchanged` | Classical.choice, Quot.sound, propext |
| C66 | `Jool.Nat64.returned6_iff` | Classical.choice, Quot.sound, propext |
| C66 | `Jool.Nat64.Ex.returned_with_traces` | Quot.sound, propext |
| C67 | `Jool.NlAttr.eam_arrives` | Classical.choice, Quot.sound, propext |
| C67 | `Jool.NlAttr.eam_rm_arrives` | Classical.choice, Quot.sound, propext |
| C67 | `Jool.NlAttr.pool4_arrives` | Classical.choice, Quot.sound, propext |
| C67 | `Jool.NlAttr.bib_arrives` | Classical.choice, Quot.sound, propext |
| C67 | `Jool.NlAttr.bib_rm_arrives` | Classical.choice, Quot.sound, propext |
| C67 | `Jool.NlAttr.prefix4_arrives` | Classical.choice, Quot.sound, propext |
| C67 | `Jool.NlAttr.instance_arrives` | Classical.choice, Quot.sound, propext |
| C67 | `Jool.NlAttr.pool4_offset_arrives` | Classical.choice, Quot.sound, propext |
| C67 | `Jool.NlAttr.bib_offset_arrives` | Classical.choice, Quot.sound, propext |
| C67 | `Jool.NlAttr.instance_offset_arrives` | Classical.choice, Quot.sound, propext |
| C67 | `Jool.NlAttr.session_offset_arrives` | Classical.choice, Quot.sound, propext |
| C67 | `Jool.NlAttr.eamt_page` | Classical.choice, Quot.sound, propext |
| C67 | `Jool.NlAttr.denylist4_page` | Classical.choice, Quot.sound, propext |
| C67 | `Jool.NlAttr.pool4_page` | Classical.choice, Quot.sound, propext |
| C67 | `Jool.NlAttr.bib_page` | Classical.choice, Quot.sound, propext |
| C67 | `Jool.NlAttr.session_page` | Classical.choice, Quot.sound, propext |
| C67 | `Jool.NlAttr.instance_page` | Classical.choice, Quot.sound, propext |
| C67 | `Jool.NlAttr.query64_answer` | Classical.choice, Quot.sound, propext |
| C67 | `Jool.NlAttr.query46_answer` | Classical.choice, Quot.sound, propext |
| C67 | `Jool.NlAttr.eam_rm_one_refused` | Classical.choice, Quot.sound, propext |
| C68 | `Jool.NlAttr.kernel_reads_safely` | Quot.sound, propext |
| C68 | `Jool.NlAttr.pool4_requires` | Quot.sound, propext |
| C68 | `Jool.NlAttr.pool4_defaults` | Quot.sound, propext |
| C68 | `Jool.NlAttr.bib_requires` | Quot.sound, propext |
| C68 | `Jool.NlAttr.eam_requires` | Quot.sound, propext |
| C68 | `Jool.NlAttr.prefix4_requires` | Quot.sound, propext |
| C68 | `Jool.NlAttr.taddr4_requires` | Quot.sound, propext |
| C68 | `Jool.NlAttr.client_null_port` | propext |
| C68 | `Jool.NlAttr.client_null_addr` | propext |
| C68 | `Jool.NlAttr.client_null_eam` | propext |
| C68 | `Jool.NlAttr.kernel_null_port` | propext |
| C69 | `Jool.Req.siit_request` | Classical.choice, Quot.sound, propext |
| C69 | `Jool.Req.nat64_request` | Classical.choice, Quot.sound, propext |
| C69 | `Jool.Req.msg_exists` | Classical.choice, Quot.sound, propext |
| C69 | `Jool.Req.unprivileged` | Quot.sound, propext |
| C69 | `Jool.Req.not_admitted` | Quot.sound, propext |
| C69 | `Jool.Req.others_unchanged` | Quot.sound, propext |
| C69 | `Jool.Req.refused_partial` | Quot.sound, propext |
| C69 | `Jool.Req.requests_ran` | Quot.sound, propext |
| C69 | `Jool.Req.requests_bijection` | Classical.choice, Quot.sound, propext |
| C69 | `Jool.Req.ub_causes_partial` | Quot.sound, propext |
| C69 | `Jool.Req.eam_rm_one_fails` | Classical.choice, Quot.sound, propext |
| C69 | `Jool.Req.pool4_rm_refused_but_done` | Quot.sound, propext |
| C69 | `Jool.Req.pool4_rm_shift` | Quot.sound, propext |
| C69 | `Jool.Req.bib_rm_uninitialized` | Quot.sound, propext |
| C69 | `Jool.Req.bib_rm_exact` | Classical.choice, Quot.sound, propext |
| C69 | `Jool.Req.flags_exact` | Quot.sound, propext |
| C70 | `Jool.Resp.texts_exact_setup` | Classical.choice, Quot.sound, propext |
| C70 | `Jool.Resp.getMessage_eq` | Classical.choice, Quot.sound, propext |
| C70 | `Jool.Resp.pool_overrun` | none |
| C70 | `Jool.Resp.error_arrives` | Classical.choice, Quot.sound, propext |
| C70 | `Jool.Resp.success_arrives` | Classical.choice, Quot.sound, propext |
| C70 | `Jool.Resp.page_arrives` | Classical.choice, Quot.sound, propext |
| C70 | `Jool.Resp.siit_exchange` | Classical.choice, Quot.sound, propext |
| C70 | `Jool.Resp.nat64_exchange` | Classical.choice, Quot.sound, propext |
| C70 | `Jool.Resp.foreach_fine` | Classical.choice, Quot.sound, propext |
| C70 | `Jool.Resp.query_fine` | Classical.choice, Quot.sound, propext |
| C70 | `Jool.Resp.stats_fine` | Classical.choice, Quot.sound, propext |
| C70 | `Jool.Resp.instForeach_fine` | Classical.choice, Quot.sound, propext |
| C70 | `Jool.Resp.update_fine` | Classical.choice, Quot.sound, propext |
| C70 | `Jool.Resp.hello_partial` | Classical.choice, Quot.sound, propext |
| C70 | `Jool.Resp.hello_leaks` | Classical.choice, Quot.sound, propext |
| C70 | `Jool.Resp.instAdd_partial` | Classical.choice, Quot.sound, propext |
| C71 | `Jool.Stats.count_exact` | Quot.sound, propext |
| C71 | `Jool.Stats.query_exact` | Classical.choice, Quot.sound, propext |
| C71 | `Jool.Stats.listAll_eq` | Classical.choice, Quot.sound, propext |
| C71 | `Jool.Stats.listing_complete` | Classical.choice, Quot.sound, propext |
| C71 | `Jool.Stats.listing_padding` | Classical.choice, Quot.sound, propext |
| C72 | `Jool.Text.number_partial` | Classical.choice, Quot.sound, propext |
| C72 | `Jool.Text.garbage_accepted` | Classical.choice, Quot.sound, propext |
| C72 | `Jool.Text.bool_reads` | Classical.choice, Quot.sound, propext |
| C72 | `Jool.Text.timeout_reads_partial` | Classical.choice, Quot.sound, propext |
| C72 | `Jool.Text.timeout_refuses_partial` | Classical.choice, Quot.sound, propext |
| C72 | `Jool.Text.timeout_wraps` | Classical.choice, Quot.sound, propext |
| C72 | `Jool.Text.timeout_nonsense` | Classical.choice, Quot.sound, propext |
| C72 | `Jool.Text.timeout_roundtrip` | Classical.choice, Quot.sound, propext |
| C72 | `Jool.Text.range_roundtrip` | Classical.choice, Quot.sound, propext |
| C72 | `Jool.Text.range_spaces` | Classical.choice, Quot.sound, propext |
| C72 | `Jool.Text.prefix4_roundtrip` | Classical.choice, Quot.sound, propext |
| C72 | `Jool.Text.prefix6_roundtrip` | Classical.choice, Quot.sound, propext |
| C72 | `Jool.Text.taddr_roundtrip` | Classical.choice, Quot.sound, propext |
| C72 | `Jool.Text.plateaus_roundtrip` | Classical.choice, Quot.sound, propext |
| C72 | `Jool.Text.setting_roundtrip_partial` | Classical.choice, Quot.sound, propext |
| C72 | `Jool.Text.unset_refused` | Classical.choice, Quot.sound, propext |
| C72 | `Jool.Text.eamt_said` | Classical.choice, Quot.sound, propext |
| C72 | `Jool.Text.deny_said` | Classical.choice, Quot.sound, propext |
| C72 | `Jool.Text.pool4_said` | Classical.choice, Quot.sound, propext |
| C72 | `Jool.Text.bib_said` | Classical.choice, Quot.sound, propext |
| C72 | `Jool.Text.eamt_typed` | Classical.choice, Quot.sound, propext |
| C72 | `Jool.Text.deny_typed` | Classical.choice, Quot.sound, propext |
| C72 | `Jool.Text.pool4_typed_partial` | Classical.choice, Quot.sound, propext |
| C72 | `Jool.Text.infinite_refused` | Classical.choice, Quot.sound, propext |
| C72 | `Jool.Text.pool4_words` | Classical.choice, Quot.sound, propext |
| C72 | `Jool.Text.bib_typed` | Classical.choice, Quot.sound, propext |
| C72 | `Jool.Text.siit_command` | Classical.choice, Quot.sound, propext |
| C72 | `Jool.Text.nat64_command` | Classical.choice, Quot.sound, propext |
| C72 | `Jool.Text.plain_ok` | Classical.choice, Quot.sound, propext |
| C73 | `Jool.Json.reads` | Classical.choice, Quot.sound, propext |
| C73 | `Jool.Json.unambiguous` | Classical.choice, Quot.sound, propext |
| C73 | `Jool.Json.reads_uint` | Classical.choice, Quot.sound, propext |
| C73 | `Jool.Json.terminates` | Classical.choice, Quot.sound, propext |
| C73 | `Jool.Json.safe_partial` | Classical.choice, Quot.sound, propext |
| C73 | `Jool.Json.overflow` | Classical.choice, Quot.sound, propext |
| C73 | `Jool.Json.overrun` | Classical.choice, Quot.sound, propext |
| C73 | `Jool.Json.lenient` | Classical.choice, Quot.sound, propext |
| C74 | `Jool.File.stops` | Classical.choice, Quot.sound, propext |
| C74 | `Jool.File.quiet` | Classical.choice, Quot.sound, propext |
| C74 | `Jool.File.commit_last_partial` | Classical.choice, Quot.sound, propext |
| C74 | `Jool.File.accepted_partial` | Classical.choice, Quot.sound, propext |
| C74 | `Jool.File.upload_exact_partial` | Classical.choice, Quot.sound, propext |
| C74 | `Jool.File.load_safe` | Classical.choice, Quot.sound, propext |
| C74 | `Jool.File.file_safe` | Classical.choice, Quot.sound, propext |
| C74 | `Jool.File.name_in_vain` | Classical.choice, Quot.sound, propext |
| C74 | `Jool.File.mark_lost` | Classical.choice, Quot.sound, propext |
| C74 | `Jool.File.iname_null` | Classical.choice, Quot.sound, propext |
| C75 | `Jool.Life.ub_only_trap` | Classical.choice, Quot.sound, propext |
| C75 | `Jool.Life.always_given_back` | Classical.choice, Quot.sound, propext |
| C75 | `Jool.Life.nothing_leaks_partial` | Classical.choice, Quot.sound, propext |
| C75 | `Jool.Life.stolen_means` | Classical.choice, Quot.sound, propext |
| C75 | `Jool.Life.declined_means` | Classical.choice, Quot.sound, propext |
| C75 | `Jool.Life.dropped_means` | Classical.choice, Quot.sound, propext |
| C75 | `Jool.Life.smooth_is_translated` | Classical.choice, Quot.sound, propext |
| C75 | `Jool.Life.extension_leaks` | Quot.sound, propext |
| C75 | `Jool.Life.null_page_leaks` | Quot.sound, propext |
| C75 | `Jool.Life.extension_loses_mark` | Quot.sound, propext |
| C75 | `Jool.Life.hairpin_error_lost` | Quot.sound, propext |
| C76 | `Jool.Build.fast46_partial` | Classical.choice, Quot.sound, propext |
| C76 | `Jool.Build.fast64_partial` | Classical.choice, Quot.sound, propext |
| C76 | `Jool.Build.error46_partial` | Classical.choice, Quot.sound, propext |
| C76 | `Jool.Build.error64_partial` | Classical.choice, Quot.sound, propext |
| C76 | `Jool.Build.slow46_partial` | Classical.choice, Quot.sound, propext |
| C76 | `Jool.Build.inner58_overflow` | Quot.sound, propext |
| C76 | `Jool.Build.inner1_overflow` | Quot.sound, propext |
| C76 | `Jool.Build.tcp_offset_overflow` | Quot.sound, propext |
| C76 | `Jool.Build.nested_overflow` | Quot.sound, propext |
| C76 | `Jool.Build.fragment_header_overread` | Quot.sound, propext |
| C76 | `Jool.Build.fragment_header_misread` | Quot.sound, propext |
| C77 | `Jool.Wire.packet46_partial` | Classical.choice, Quot.sound, propext |
| C77 | `Jool.Wire.packet64_partial` | Classical.choice, Quot.sound, propext |
| C77 | `Jool.Wire.accepted46_partial` | Classical.choice, Quot.sound, propext |
| C77 | `Jool.Wire.accepted64_partial` | Classical.choice, Quot.sound, propext |
| C77 | `Jool.Wire.forged` | Quot.sound, propext |
| C77 | `Jool.Wire.forged_udp` | Classical.choice, Quot.sound, propext |
| C77 | `Jool.Wire.df_segments` | Classical.choice, Quot.sound, propext |
| C77 | `Jool.Wire.df_list` | Classical.choice, Quot.sound, propext |
| C78 | `Jool.Wire.back_partial` | Classical.choice, Quot.sound, propext |
| C79 | `Jool.Whole.out64_partial` | Classical.choice, Quot.sound, propext |
| C79 | `Jool.Whole.leaves64_partial` | Classical.choice, Quot.sound, propext |
| C79 | `Jool.Whole.answered64_partial` | Classical.choice, Quot.sound, propext |
| C79 | `Jool.Whole.out46_partial` | Classical.choice, Quot.sound, propext |
| C79 | `Jool.Whole.leaves46_partial` | Classical.choice, Quot.sound, propext |
| C79 | `Jool.Whole.answered46_partial` | Classical.choice, Quot.sound, propext |
| C80 | `Jool.InstList.pages_mem` | Quot.sound, propext |
| C80 | `Jool.InstList.listing_partial` | Classical.choice, Quot.sound, propext |
| C80 | `Jool.InstList.listing_quiet_partial` | Classical.choice, Quot.sound, propext |
| C80 | `Jool.InstList.listing_lost` | Quot.sound, propext |
| C80 | `Jool.InstList.hello_exact` | Classical.choice, Quot.sound, propext |
| C80 | `Jool.InstList.replaced_missed` | Quot.sound, propext |
| C80 | `Jool.InstList.replaced_twice` | Quot.sound, propext |
| C80 | `Jool.InstList.recreated_twice` | Quot.sound, propext |
| C80 | `Jool.InstList.low_bits_forever` | Classical.choice, Quot.sound, propext |
| C80 | `Jool.InstList.hello_invalid` | Quot.sound, propext |
| C81 | `Jool.Wire.error46_partial` | Classical.choice, Quot.sound, propext |
| C81 | `Jool.Wire.error64_partial` | Classical.choice, Quot.sound, propext |
| C81 | `Jool.Wire.inside6_headers` | Classical.choice, Quot.sound, propext |
| C81 | `Jool.Wire.exUnreach4_leaves` | Classical.choice, Quot.sound, propext |
| C81 | `Jool.Wire.exUnreach6_leaves` | Classical.choice, Quot.sound, propext |
| C81 | `Jool.Wire.echo_inside_cut` | Classical.choice, Quot.sound, propext |
| C82 | `Jool.WholeSiit.plain46_partial` | Classical.choice, Quot.sound, propext |
| C82 | `Jool.WholeSiit.plain64_partial` | Classical.choice, Quot.sound, propext |
| C82 | `Jool.WholeSiit.error46_partial` | Classical.choice, Quot.sound, propext |
| C82 | `Jool.WholeSiit.error64_partial` | Classical.choice, Quot.sound, propext |
| C82 | `Jool.WholeSiit.go_partial` | Classical.choice, Quot.sound, propext |
| C82 | `Jool.WholeSiit.come_partial` | Classical.choice, Quot.sound, propext |
| C82 | `Jool.WholeSiit.complaint46_partial` | Classical.choice, Quot.sound, propext |
| C82 | `Jool.WholeSiit.complaint64_partial` | Classical.choice, Quot.sound, propext |
| C83 | `Jool.Wire.there64_partial` | Classical.choice, Quot.sound, propext |
| C83 | `Jool.WholeSiit.hairpin_partial` | Classical.choice, Quot.sound, propext |
| C83 | `Jool.WholeSiitTurn.middle` | Classical.choice, Quot.sound, propext |
| C83 | `Jool.WholeSiitTurn.straight` | Classical.choice, Quot.sound, propext |
| C83 | `Jool.WholeSiitTurn.turned_partial` | Classical.choice, Quot.sound, propext |
| C83 | `Jool.WholeSiitTurn.hairpin_partial` | Classical.choice, Quot.sound, propext |
| C84 | `Jool.Whole.error46_partial` | Classical.choice, Quot.sound, propext |
| C84 | `Jool.Whole.error64_partial` | Classical.choice, Quot.sound, propext |
| C84 | `Jool.Whole.complained64_partial` | Classical.choice, Quot.sound, propext |
| C84 | `Jool.Whole.complained46_partial` | Classical.choice, Quot.sound, propext |
| C84 | `Jool.Whole.is4_take` | Classical.choice, Quot.sound, propext |
| C84 | `Jool.Whole.is6_take` | Classical.choice, Quot.sound, propext |
| C85 | `Jool.Mods.modules_safe_partial` | Classical.choice, Quot.sound, propext |
| C85 | `Jool.Mods.nothing_left_partial` | Classical.choice, Quot.sound, propext |
| C85 | `Jool.Mods.module_gone_partial` | Classical.choice, Quot.sound, propext |
| C85 | `Jool.Mods.insertCore_iff` | Classical.choice, Quot.sound, propext |
| C85 | `Jool.Mods.add_succeeds` | Classical.choice, Quot.sound, propext |
| C85 | `Jool.Mods.removal_race` | Quot.sound, propext |
| C85 | `Jool.Mods.removal_race_siit` | Quot.sound, propext |
| C86 | `Jool.Relay.delivery` | Classical.choice, Quot.sound, propext |
| C86 | `Jool.Relay.delivery_truncated` | Classical.choice, Quot.sound, propext |
| C86 | `Jool.Relay.react_announce` | Classical.choice, Quot.sound, propext |
| C86 | `Jool.Relay.flush_relayed` | Classical.choice, Quot.sound, propext |
| C86 | `Jool.Relay.relay_origin` | Classical.choice, Quot.sound, propext |
| C86 | `Jool.Relay.relay_safe_partial` | Classical.choice, Quot.sound, propext |
| C86 | `Jool.Relay.acks_flow` | Classical.choice, Quot.sound, propext |
| C86 | `Jool.Relay.calm` | Classical.choice, Quot.sound, propext |
| C86 | `Jool.Relay.ack_storm` | Classical.choice, Quot.sound, propext |
| C86 | `Jool.Relay.storm_starts` | Classical.choice, Quot.sound, propext |
| C86 | `Jool.Relay.case_leak` | Classical.choice, Quot.sound, propext |
| C86 | `Jool.Relay.relay_forged` | Classical.choice, Quot.sound, propext |
| C86 | `Jool.Relay.endian_lost` | Classical.choice, Quot.sound, propext |
| C86 | `Jool.Relay.versions` | Classical.choice, Quot.sound, propext |
| C87 | `Jool.Rfc6056.message_iff` | Quot.sound, propext |
| C87 | `Jool.Rfc6056.f_exact` | Quot.sound, propext |
| C87 | `Jool.Rfc6056.f_same` | Quot.sound, propext |
| C87 | `Jool.Rfc6056.choose_exact` | Quot.sound, propext |
| C87 | `Jool.Rfc6056.choose_empty` | Classical.choice, Quot.sound, propext |
| C87 | `Jool.Rfc6056.choose_same` | Quot.sound, propext |
| C87 | `Jool.Rfc6056.bib_finds` | Classical.choice, Quot.sound, propext |
| C87 | `Jool.Rfc6056.resume_partial` | Quot.sound, propext |
| C87 | `Jool.Rfc6056.sequential_partial` | Classical.choice, Quot.sound, propext |
| C87 | `Jool.Rfc6056.ephemeral_total` | propext |
| C87 | `Jool.Rfc6056.distinct` | Quot.sound, propext |
| C87 | `Jool.Rfc6056.wrap_repeats` | Quot.sound, propext |
| C87 | `Jool.Rfc6056.word3_value` | Quot.sound, propext |
| C87 | `Jool.Rfc6056.choose_unknown` | Quot.sound, propext |
| C87 | `Jool.Rfc6056.choose_unrouted` | Quot.sound, propext |
| C88 | `Jool.Wire.forward46_partial` | Classical.choice, Quot.sound, propext |
| C88 | `Jool.Wire.bare_right` | Classical.choice, Quot.sound, propext |
| C88 | `Jool.Wire.bare_wrong` | Classical.choice, Quot.sound, propext |
| C88 | `Jool.Wire.bare_witness` | Classical.choice, Quot.sound, propext |
| C89 | `Jool.Cmd.find_ok` | Classical.choice, Quot.sound, propext |
| C89 | `Jool.Cmd.handle_iff` | Classical.choice, Quot.sound, propext |
| C89 | `Jool.Cmd.does_unique` | Quot.sound, propext |
| C89 | `Jool.Cmd.full_runs` | Quot.sound, propext |
| C89 | `Jool.Cmd.runs_full` | Quot.sound, propext |
| C89 | `Jool.Cmd.tree_distinct` | Classical.choice, Quot.sound, propext |
| C89 | `Jool.Cmd.programs` | Classical.choice, Quot.sound, propext |
| C89 | `Jool.Cmd.no_foreign` | Classical.choice, Quot.sound, propext |
| C89 | `Jool.Cmd.completion` | Classical.choice, Quot.sound, propext |
| C89 | `Jool.Cmd.completion_new` | Classical.choice, Quot.sound, propext |
| C89 | `Jool.Cmd.offered_works` | Quot.sound, propext |
| C89 | `Jool.Cmd.offered_all` | Quot.sound, propext |
| C89 | `Jool.Cmd.trap_tree` | Classical.choice, Quot.sound, propext |
| C89 | `Jool.Cmd.completion_crashes` | Classical.choice, Quot.sound, propext |
| C89 | `Jool.Cmd.long_words_overread` | Classical.choice, Quot.sound, propext |
| C89 | `Jool.Cmd.manual_runs` | Classical.choice, Quot.sound, propext |
| C89 | `Jool.Cmd.keys_run` | Classical.choice, Quot.sound, propext |
| C89 | `Jool.Cmd.others_run` | Classical.choice, Quot.sound, propext |
| C89 | `Jool.Cmd.joold_hidden` | Classical.choice, Quot.sound, propext |
| C90 | `Jool.WholeAny.pass4_tables` | Quot.sound, propext |
| C90 | `Jool.WholeAny.fate46_partial` | Classical.choice, Quot.sound, propext |
| C90 | `Jool.WholeAny.out46_partial` | Classical.choice, Quot.sound, propext |
| C90 | `Jool.WholeAny.answered_partial` | Classical.choice, Quot.sound, propext |
| C90 | `Jool.WholeAny.leave_broken` | Classical.choice, Quot.sound, propext |
| C90 | `Jool.WholeSiitAny.any46_partial` | Classical.choice, Quot.sound, propext |
| C90 | `Jool.WholeSiitAny.come_any_partial` | Classical.choice, Quot.sound, propext |
| C90 | `Jool.WholeSiitAny.error46_small` | Quot.sound, propext |
| C90 | `Jool.WholeAny.other_stops` | Classical.choice, Quot.sound, propext |
| C90 | `Jool.WholeSiitAny.refused` | Classical.choice, Quot.sound, propext |
| C91 | `Jool.Wire.far_leaves_partial` | Classical.choice, Quot.sound, propext |
| C91 | `Jool.Wire.far_partial` | Classical.choice, Quot.sound, propext |
| C91 | `Jool.Wire.far_arrives_partial` | Classical.choice, Quot.sound, propext |
| C91 | `Jool.Wire.far_ping` | Classical.choice, Quot.sound, propext |
| C92 | `Jool.WholeTurn.turned_partial` | Classical.choice, Quot.sound, propext |
| C92 | `Jool.WholeTurn.leaves66_partial` | Classical.choice, Quot.sound, propext |
| C92 | `Jool.WholeTurn.delivered_partial` | Classical.choice, Quot.sound, propext |
| C92 | `Jool.WholeTurn.middle` | Classical.choice, Quot.sound, propext |
| C92 | `Jool.WholeTurn.sent66` | Classical.choice, Quot.sound, propext |
| C92 | `Jool.WholeTurn.straight_partial` | Quot.sound, propext |
| C93 | `Jool.ReadFile.unchanged` | Quot.sound, propext |
| C93 | `Jool.ReadFile.reads_whole` | Quot.sound, propext |
| C93 | `Jool.ReadFile.balanced` | Quot.sound, propext |
| C93 | `Jool.ReadFile.safe_partial` | Quot.sound, propext |
| C93 | `Jool.ReadFile.loads` | Classical.choice, Quot.sound, propext |
| C93 | `Jool.ReadFile.configured` | Classical.choice, Quot.sound, propext |
| C93 | `Jool.ReadFile.shrunk` | Quot.sound, propext |
| C93 | `Jool.ReadFile.grown` | Classical.choice, Quot.sound, propext |
| C93 | `Jool.ReadFile.hidden` | Classical.choice, Quot.sound, propext |
| C93 | `Jool.ReadFile.directory` | none |
| C93 | `Jool.ReadFile.ttl_256` | Classical.choice, Quot.sound, propext |
| C93 | `Jool.ReadFile.any_root` | Classical.choice, Quot.sound, propext |
| C94 | `Jool.Rules.named_partial` | Classical.choice, Quot.sound, propext |
| C94 | `Jool.Rules.made` | Classical.choice, Quot.sound, propext |
| C94 | `Jool.Rules.checked` | Classical.choice, Quot.sound, propext |
| C94 | `Jool.Rules.packets` | Classical.choice, Quot.sound, propext |
| C94 | `Jool.Rules.restored_partial` | Classical.choice, Quot.sound, propext |
| C94 | `Jool.Rules.unknown` | Quot.sound, propext |
| C94 | `Jool.Rules.ignored` | Classical.choice, Quot.sound, propext |
| C94 | `Jool.Rules.blank` | none |
| C94 | `Jool.Rules.quote` | none |
| C94 | `Jool.Rules.empty` | none |
| C95 | `Jool.CsvSpec.unique` | propext |
| C95 | `Jool.Listing.sessions_partial` | Classical.choice, Quot.sound, propext |
| C95 | `Jool.Listing.session_determined` | Classical.choice, Quot.sound, propext |
| C95 | `Jool.Listing.session_width` | Classical.choice, Quot.sound, propext |
| C95 | `Jool.Listing.session_short` | Classical.choice, Quot.sound, propext |
| C95 | `Jool.Listing.sessions_injective` | Classical.choice, Quot.sound, propext |
| C95 | `Jool.Listing.bibs_listed` | Classical.choice, Quot.sound, propext |
| C95 | `Jool.Listing.bib_determined` | Classical.choice, Quot.sound, propext |
| C95 | `Jool.Listing.bibs_injective` | Classical.choice, Quot.sound, propext |
| C95 | `Jool.Listing.eams_listed` | Classical.choice, Quot.sound, propext |
| C95 | `Jool.Listing.eam_determined` | propext |
| C95 | `Jool.Listing.eams_injective` | Classical.choice, Quot.sound, propext |
| C95 | `Jool.Listing.denied_listed` | Classical.choice, Quot.sound, propext |
| C95 | `Jool.Listing.denied_injective` | Classical.choice, Quot.sound, propext |
| C95 | `Jool.Listing.pool4s_listed` | Classical.choice, Quot.sound, propext |
| C95 | `Jool.Listing.pool4_determined` | Classical.choice, Quot.sound, propext |
| C95 | `Jool.Listing.globals_listed` | Classical.choice, Quot.sound, propext |
| C95 | `Jool.Listing.setting_determined` | Classical.choice, Quot.sound, propext |
| C95 | `Jool.Listing.globals_injective` | Classical.choice, Quot.sound, propext |
| C95 | `Jool.Listing.stats_listed` | Classical.choice, Quot.sound, propext |
| C95 | `Jool.Listing.stat_determined` | Classical.choice, Quot.sound, propext |
| C95 | `Jool.Listing.stats_injective` | Classical.choice, Quot.sound, propext |
| C95 | `Jool.Listing.last_unnamed` | Classical.choice, Quot.sound, propext |
| C95 | `Jool.Listing.instances_partial` | Classical.choice, Quot.sound, propext |
| C95 | `Jool.Listing.inst_determined` | Classical.choice, Quot.sound, propext |
| C95 | `Jool.Listing.instance_comma` | Classical.choice, Quot.sound, propext |
| C95 | `Jool.Listing.instance_lost` | Classical.choice, Quot.sound, propext |
| C96 | `Jool.DStats.report` | Quot.sound, propext |
| C96 | `Jool.DStats.report_partial` | Classical.choice, Quot.sound, propext |
| C96 | `Jool.DStats.idle_exact` | Quot.sound, propext |
| C96 | `Jool.DStats.text` | Classical.choice, Quot.sound, propext |
| C96 | `Jool.DStats.text_injective` | Classical.choice, Quot.sound, propext |
| C96 | `Jool.DStats.negative` | Quot.sound, propext |
| C96 | `Jool.DStats.torn` | Quot.sound, propext |
| C97 | `Jool.DStart.listens_iff` | Classical.choice, Quot.sound, propext |
| C97 | `Jool.DStart.one_socket` | Classical.choice, Quot.sound, propext |
| C97 | `Jool.DStart.ready` | Classical.choice, Quot.sound, propext |
| C97 | `Jool.DStart.no_thread` | Classical.choice, Quot.sound, propext |
| C97 | `Jool.DStart.served_iff` | Quot.sound, propext |
| C97 | `Jool.DStart.hops_file` | Classical.choice, Quot.sound, propext |
| C97 | `Jool.DStart.hops_proxy_partial` | Classical.choice, Quot.sound, propext |
| C97 | `Jool.DStart.hops_default` | Classical.choice, Quot.sound, propext |
| C97 | `Jool.DStart.not_retried` | Classical.choice, Quot.sound, propext |
| C97 | `Jool.DStart.stays_open` | Classical.choice, Quot.sound, propext |
| C97 | `Jool.DStart.stats_all` | Classical.choice, Quot.sound, propext |
| C98 | `Jool.Follow.followed_partial` | Classical.choice, Quot.sound, propext |
| C98 | `Jool.Follow.followed` | Classical.choice, Quot.sound, propext |
| C98 | `Jool.Follow.others_silent` | Classical.choice, Quot.sound, propext |
| C98 | `Jool.Follow.followed_determined` | Classical.choice, Quot.sound, propext |
| C98 | `Jool.Follow.followed_time` | Classical.choice, Quot.sound, propext |
| C98 | `Jool.Follow.long_wrong` | Classical.choice, Quot.sound, propext |
| C98 | `Jool.Follow.cut_overread` | Quot.sound, propext |
| C98 | `Jool.Follow.case_leak` | Classical.choice, Quot.sound, propext |
| C99 | `Jool.Leaks.report_partial` | Classical.choice, Quot.sound, propext |
| C99 | `Jool.Leaks.none_iff` | Classical.choice, Quot.sound, propext |
| C99 | `Jool.Leaks.run_total` | none |
| C99 | `Jool.Leaks.untracked_wrong` | none |
| C99 | `Jool.Leaks.untracked_leaks` | none |
| C99 | `Jool.Leaks.negative` | Quot.sound, propext |
| C99 | `Jool.Leaks.positive` | Quot.sound, propext |
