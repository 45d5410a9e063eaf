# Axioms of the property theorems

Output of `#print axioms` for every theorem named in MANIFEST.json.

| theorem | axioms |
|---|---|
| Verif.AS.C01_every_address_in_its_region_partial | propext, Classical.choice, Quot.sound |
| Verif.AS.C01_aligned_histories_partial | propext, Classical.choice, Quot.sound |
| Verif.AS.C01_gap_violation | propext, Quot.sound |
| Verif.AS.C01_undefined_behaviour_violation | propext, Quot.sound |
| Verif.AS.C02_new_region_owns_range_partial | propext, Classical.choice, Quot.sound |
| Verif.AS.C02_neighbour_lost_violation | propext, Classical.choice, Quot.sound |
| Verif.AS.C03_destroy_unmaps_range_partial | propext, Classical.choice, Quot.sound |
| Verif.AS.C03_neighbour_unmapped_violation | none |
| Verif.Region.C04_parameter_checks_partial | propext, Classical.choice, Quot.sound |
| Verif.Region.C04_region_covers_exactly_partial | propext, Classical.choice, Quot.sound |
| Verif.Region.C04_wrap_violation | propext, Quot.sound |
| Verif.Region.C04_destroy_zero_violation | propext, Quot.sound |
| Verif.Region.C05_resolvers_agree | propext, Classical.choice, Quot.sound |
| Verif.Region.C05_chain_resolution | propext, Classical.choice, Quot.sound |
| Verif.Region.C05_new_alias_reaches_original_partial | propext, Classical.choice, Quot.sound |
| Verif.Region.C05_split_alias_violation | propext, Quot.sound |
| Verif.Region.C05_dangling_alias_violation | propext, Quot.sound |
| Verif.Region.C05_alias_cycle_violation | propext, Quot.sound |
| Verif.AS.C06_backing_byte_preserved_partial | propext, Classical.choice, Quot.sound |
| Verif.AS.C06_lost_violation | propext, Quot.sound |
| Verif.Region.C07_map_untouched_until_service | propext, Quot.sound |
| Verif.Region.C07_deferred_equals_immediate_partial | propext, Quot.sound |
| Verif.Region.C07_deferred_alias_violation | propext, Quot.sound |
| Verif.Region.C08_updates_applied_in_order_partial | propext, Quot.sound |
| Verif.Region.C08_request_only_queues | propext, Quot.sound |
| Verif.Region.C08_update_lost_violation | propext, Quot.sound |
| Verif.Region.C09_port_access_calls_owner | propext, Classical.choice, Quot.sound |
| Verif.Region.C09_new_ports_partial | propext, Classical.choice, Quot.sound |
| Verif.Region.C09_neighbour_violation | propext, Quot.sound |
| Verif.Region.C10_last_request_wins | propext, Quot.sound |
| Verif.Region.C10_only_bit_20 | propext, Classical.choice, Quot.sound |
| Verif.Block.C11_write_read_partial | propext, Classical.choice, Quot.sound |
| Verif.Block.C11_one_region_partial | propext, Classical.choice, Quot.sound |
| Verif.Block.C11_ram_regions_share_bytes_violation | propext, Quot.sound |
| Verif.Block.C12_read_actual_size_partial | propext, Classical.choice, Quot.sound |
| Verif.Block.C12_write_actual_size_partial | propext, Classical.choice, Quot.sound |
| Verif.Block.C12_overread_violation | propext, Quot.sound |
| Verif.Block.C12_read_virt_partial | propext, Classical.choice, Quot.sound |
| Verif.Block.C12_write_virt_partial | propext, Classical.choice, Quot.sound |
| Verif.Block.C13_rom_never_modified | propext, Quot.sound |
| Verif.Block.C13_write_to_rom_succeeds | propext, Classical.choice, Quot.sound |
| Verif.Block.C14_fill_is_constant_write | propext, Classical.choice, Quot.sound |
| Verif.Paging.C15_identity_without_paging | propext, Quot.sound |
| Verif.Paging.C16_granted_iff_allowed_partial | propext, Classical.choice, Quot.sound |
| Verif.Paging.C16_user_access_iff_allowed | propext, Classical.choice, Quot.sound |
| Verif.Paging.C16_denied_changes_nothing | propext, Classical.choice, Quot.sound |
| Verif.Paging.C16_supervisor_write_violation | propext, Quot.sound |
| Verif.Paging.C16_query_agrees | propext, Classical.choice, Quot.sound |
| Verif.Paging.C17_page_fault_code | propext, Classical.choice, Quot.sound |
| Verif.Paging.C18_accessed_and_dirty | propext, Classical.choice, Quot.sound |
| Verif.Paging.C18_hit_page_is_accessed | propext, Classical.choice, Quot.sound |
| Verif.Paging.C18_fast_write_is_dirty_partial | propext, Classical.choice, Quot.sound |
| Verif.Paging.C18_block_write_violation | propext, Quot.sound |
| Verif.Paging.C19_frame_plus_offset | propext, Classical.choice, Quot.sound |
| Verif.Paging.C20_set_and_tag_identify_page | propext, Quot.sound |
| Verif.Paging.C20_entry_hit_same_page | propext, Quot.sound |
| Verif.Paging.C20_data_hit_was_accessed | propext, Quot.sound |
| Verif.Paging.C20_code_hit_was_fetched | propext, Quot.sound |
| Verif.Paging.C21_data_hit_is_walk | propext, Classical.choice, Quot.sound |
| Verif.Paging.C21_code_hit_is_walk | propext, Classical.choice, Quot.sound |
| Verif.Paging.C21_read_is_walk | propext, Classical.choice, Quot.sound |
| Verif.Paging.C21_write_is_walk | propext, Classical.choice, Quot.sound |
| Verif.Paging.C21_code_is_walk | propext, Classical.choice, Quot.sound |
| Verif.Paging.C21_fast_path_is_walk | propext, Classical.choice, Quot.sound |
| Verif.Paging.C21_hit_region | propext, Classical.choice, Quot.sound |
| Verif.Paging.C21_pagewise_of_aligned_map | propext, Classical.choice, Quot.sound |
| Verif.Paging.C21_misaligned_alias_violation | propext, Quot.sound |
| Verif.Paging.C22_invalidate_partial | propext, Classical.choice, Quot.sound |
| Verif.Paging.C22_eight_invalidations | propext, Classical.choice, Quot.sound |
| Verif.Paging.C22_other_pages_kept | propext, Quot.sound |
| Verif.Paging.C22_duplicate_violation | propext, Quot.sound |
| Verif.Paging.C22_upgrade_violation | propext, Quot.sound |
| Verif.Paging.C23_full_flush | propext, Classical.choice, Quot.sound |
| Verif.Paging.C23_local_flush | propext, Quot.sound |
| Verif.Paging.C23_survivors_are_global | propext, Classical.choice, Quot.sound |
| Verif.Paging.C23_code_survivors_are_global | propext, Classical.choice, Quot.sound |
| Verif.Paging.C24_read_is_bytewise | propext, Classical.choice, Quot.sound |
| Verif.Paging.C24_write_is_bytewise_partial | propext, Classical.choice, Quot.sound |
| Verif.Paging.C24_wide_write_partial | propext, Classical.choice, Quot.sound |
| Verif.Paging.C24_wide_write_violation | propext, Quot.sound |
| Verif.Flags.C25_write_read_32 | propext, Classical.choice, Quot.sound |
| Verif.Flags.C25_write_read_16 | propext, Classical.choice, Quot.sound |
| Verif.Flags.C25_write_ok | propext, Quot.sound |
| Verif.Flags.C25_helper_write_read | propext, Classical.choice, Quot.sound |
| Verif.Flags.C25_flags_written | propext, Classical.choice, Quot.sound |
| Verif.Flags.C26_add | propext, Classical.choice, Quot.sound |
| Verif.Flags.C26_xadd | propext, Classical.choice, Quot.sound |
| Verif.Flags.C26_adc | propext, Classical.choice, Quot.sound |
| Verif.Flags.C26_sub | propext, Classical.choice, Quot.sound |
| Verif.Flags.C26_sbb | propext, Classical.choice, Quot.sound |
| Verif.Flags.C26_neg | propext, Classical.choice, Quot.sound |
| Verif.Flags.C26_inc | propext, Classical.choice, Quot.sound |
| Verif.Flags.C26_dec | propext, Classical.choice, Quot.sound |
| Verif.Flags.C26_logic | propext, Classical.choice, Quot.sound |
| Verif.Flags.C26_rest_unchanged | propext, Quot.sound |
| Verif.Flags.C26_cmpxchg_partial | propext, Classical.choice, Quot.sound |
| Verif.Flags.C26_cmpxchg_flags_violation | propext, Quot.sound |
| Verif.Flags.C27_clear_zf | propext, Classical.choice, Quot.sound |
| Verif.Flags.C27_set_zf | propext, Quot.sound |
| Verif.Flags.C27_clc | propext, Classical.choice, Quot.sound |
| Verif.Flags.C27_stc | propext, Classical.choice, Quot.sound |
| Verif.Flags.C27_cmc | propext, Classical.choice, Quot.sound |
| Verif.Flags.C27_rest_unchanged | propext, Quot.sound |
| Verif.Flags.C27_system_flags | propext, Quot.sound |
| Verif.Fpu.C28_tags | propext, Classical.choice, Quot.sound |
| Verif.Fpu.C28_status | propext, Classical.choice, Quot.sound |
| Verif.Fpu.C28_independent | propext, Quot.sound |
| Verif.Fpu.C28_history | propext, Classical.choice, Quot.sound |
| Verif.Fpu.C29_in_bounds | propext, Classical.choice, Quot.sound |
| Verif.Fpu.C29_push | propext, Quot.sound |
| Verif.Fpu.C29_pop | propext, Quot.sound |
| Verif.Fpu.C29_push_pop | propext, Classical.choice, Quot.sound |
| Verif.Fpu.C29_overflow | propext, Classical.choice, Quot.sound |
| Verif.Fpu.C29_underflow | propext, Classical.choice, Quot.sound |
| Verif.Fpu.C29_unmasked_fault | propext, Classical.choice, Quot.sound |
| Verif.Fpu.C29_pending | propext, Quot.sound |
| Verif.Fpu.C29_fld_empty_violation | propext, Quot.sound |
| Verif.Fpu.C29_faddp_empty_violation | propext, Quot.sound |
| Verif.Fpu.C29_tags_partial | propext, Quot.sound |
| Verif.Fpu.C29_fxch_tags_violation | propext, Quot.sound |
| Verif.Fpu.C29_fpatan_tags_violation | propext, Quot.sound |
| Verif.Fpu.C29_values | propext, Classical.choice, Quot.sound |
| Verif.Fpu.C29_mmx | propext, Quot.sound |
| Verif.Fxsave.C30_image | propext, Classical.choice, Quot.sound |
| Verif.Fxsave.C30_restart | propext, Classical.choice, Quot.sound |
| Verif.Fxsave.C30_restored | propext, Classical.choice, Quot.sound |
| Verif.Fxsave.C30_fault | propext, Classical.choice, Quot.sound |
| Verif.Fxsave.C30_roundtrip_partial | propext, Classical.choice, Quot.sound |
| Verif.Fxsave.C30_tags_violation | propext, Classical.choice, Quot.sound |
| Verif.Fxsave.C30_order_violation | propext, Classical.choice, Quot.sound |
| Verif.Fxsave.C30_shadow | propext, Quot.sound |
| Verif.Div.C31_div32 | propext, Classical.choice, Quot.sound |
| Verif.Div.C31_div16 | propext, Classical.choice, Quot.sound |
| Verif.Div.C31_div8 | propext, Classical.choice, Quot.sound |
| Verif.Div.C31_idiv32_partial | propext, Classical.choice, Quot.sound |
| Verif.Div.C31_idiv16_partial | propext, Classical.choice, Quot.sound |
| Verif.Div.C31_idiv8 | propext, Classical.choice, Quot.sound |
| Verif.Div.C31_idiv32_violation | propext, Quot.sound |
| Verif.Div.C31_idiv16_violation | propext, Quot.sound |
| Verif.Msr.C32_in_bounds | propext, Quot.sound |
| Verif.Msr.C32_frame | propext, Quot.sound |
| Verif.Msr.C32_roundtrip_partial | propext, Classical.choice, Quot.sound |
| Verif.Msr.C32_reserved | propext, Quot.sound |
| Verif.Msr.C32_pat_partial | propext, Classical.choice, Quot.sound |
| Verif.Msr.C32_privilege | propext, Quot.sound |
| Verif.Msr.C32_read_only | propext, Quot.sound |
| Verif.Msr.C32_ebl | propext, Classical.choice, Quot.sound |
| Verif.Msr.C32_mca | propext, Quot.sound |
| Verif.Msr.C32_pat_violation | propext, Quot.sound |
| Verif.Msr.C32_mcg_status_violation | propext, Quot.sound |
| Verif.Msr.C32_ebl_violation | propext, Quot.sound |
| Verif.Msr.C32_apic_violation | propext, Quot.sound |
| Verif.Msr.C32_unknown_violation | propext, Quot.sound |
| Verif.Msr.C32_caps | propext, Quot.sound |
| Verif.Priv.C32_machine_partial | propext, Classical.choice, Quot.sound |
| Verif.Seg.C33_reset | propext, Quot.sound |
| Verif.Seg.C33_core_partial | propext, Classical.choice, Quot.sound |
| Verif.Seg.C33_flat_partial | propext, Classical.choice, Quot.sound |
| Verif.Seg.C33_far_violation | propext, Quot.sound |
| Verif.Seg.C33_vm86_violation | propext, Quot.sound |
| Verif.Seg.C33_sync_violation | propext, Quot.sound |
| Verif.Seg.C34_cr0_reject | propext, Quot.sound |
| Verif.Seg.C34_cr0_accept | propext, Quot.sound |
| Verif.Seg.C34_cr0_valid | propext, Classical.choice, Quot.sound |
| Verif.Seg.C34_cr4_partial | propext, Classical.choice, Quot.sound |
| Verif.Seg.C34_pae_violation | propext, Quot.sound |
| Verif.Seg.C34_cr3 | propext, Quot.sound |
| Verif.Seg.C34_lmsw | propext, Classical.choice, Quot.sound |
| Verif.Seg.C35_cached | propext, Classical.choice, Quot.sound |
| Verif.Seg.C35_outside_partial | propext, Classical.choice, Quot.sound |
| Verif.Seg.C35_wrap_violation | propext, Quot.sound |
| Verif.Seg.C36_ss | propext, Classical.choice, Quot.sound |
| Verif.Seg.C36_ss_accept | propext, Classical.choice, Quot.sound |
| Verif.Seg.C36_data_partial | propext, Classical.choice, Quot.sound |
| Verif.Seg.C36_data_accept | propext, Classical.choice, Quot.sound |
| Verif.Seg.C36_atomic | propext, Classical.choice, Quot.sound |
| Verif.Seg.C36_data_violation | propext, Quot.sound |
| Verif.Seg.C37_partial | propext, Classical.choice, Quot.sound |
| Verif.Seg.C37_same_level | propext, Classical.choice, Quot.sound |
| Verif.Seg.C37_keep_violation | propext, Quot.sound |
| Verif.Seg.C37_drop_violation | propext, Quot.sound |
| Verif.Seg.C38_direct | propext, Quot.sound |
| Verif.Seg.C38_gate_partial | propext, Quot.sound |
| Verif.Seg.C38_gate_violation | propext, Quot.sound |
| Verif.Stack.C39_push_partial | propext, Quot.sound |
| Verif.Stack.C39_pop_partial | propext, Quot.sound |
| Verif.Stack.C39_push_pop | propext, Classical.choice, Quot.sound |
| Verif.Stack.C39_push16_violation | none |
| Verif.Stack.C39_lcall_high_half_violation | propext |
| Verif.Stack.C39_lcall_partial | propext, Classical.choice, Quot.sound |
| Verif.Seg.C40_table | propext, Classical.choice, Quot.sound |
| Verif.Seg.C40_unique | propext, Quot.sound |
| Verif.Seg.C40_terminates | propext, Classical.choice, Quot.sound |
| Verif.Snapshot.C41_save_changes_nothing | propext, Quot.sound |
| Verif.Snapshot.C41_round_trip_partial | propext, Quot.sound |
| Verif.Snapshot.C41_no_stale_code | propext, Quot.sound |
| Verif.Snapshot.C41_options | propext, Quot.sound |
| Verif.Snapshot.C41_halted_violation | propext, Quot.sound |
| Verif.Snapshot.C41_client_buffer_violation | propext, Quot.sound |
| Verif.Snapshot.C41_aligned_ram_violation | propext, Quot.sound |
| Verif.Snapshot.C42_bad_header_rejected | propext, Quot.sound |
| Verif.Snapshot.C42_good_header_accepted | propext, Quot.sound |
| Verif.Snapshot.C42_ram_size_violation | propext, Quot.sound |
| Verif.Threads.C43_suspended_atomic_partial | propext, Quot.sound |
| Verif.Threads.C43_suspended_returns_partial | propext, Quot.sound |
| Verif.Threads.C43_stopped_partial | propext, Quot.sound |
| Verif.Threads.C43_running_never_returns_violation | propext, Quot.sound |
| Verif.Threads.C43_torn_violation | propext, Quot.sound |
| Verif.Threads.C43_two_at_once_violation | none |
| Verif.Threads.C43_halted_violation | propext, Quot.sound |
| Verif.Threads.C44_suspend_stops_guest_partial | propext, Quot.sound |
| Verif.Threads.C44_resume_resumes_partial | propext, Quot.sound |
| Verif.Threads.C44_resume_after_pause_partial | propext, Quot.sound |
| Verif.Threads.C44_lost_suspend_violation | propext, Quot.sound |
| Verif.Ints.C45_line_is_level | propext, Classical.choice, Quot.sound |
| Verif.Ints.C45_delivery_needs_if | propext, Classical.choice, Quot.sound |
| Verif.Ints.C45_exit_wins | propext, Classical.choice, Quot.sound |
| Verif.Ints.C45_exit_kept | propext, Classical.choice, Quot.sound |
| Verif.Ints.C45_no_request_lost | propext, Classical.choice, Quot.sound |
| Verif.Ints.C45_delivered | propext, Classical.choice, Quot.sound |
| Verif.Ints.C45_service_completes | propext, Classical.choice, Quot.sound |
| Verif.Ints.C45_sti_shadow | propext, Quot.sound |
| Verif.Tc.C46_bytes_partial | propext, Classical.choice, Quot.sound |
| Verif.Tc.C46_current_partial | propext, Classical.choice, Quot.sound |
| Verif.Tc.C46_cross_page_violation | propext, Quot.sound |
| Verif.Tc.C46_undecodable_violation | propext, Quot.sound |
| Verif.Tc.C46_purge_violation | propext, Quot.sound |
| Verif.Tc.C47_key_partial | propext, Classical.choice, Quot.sound |
| Verif.Tc.C47_fresh_partial | propext, Classical.choice, Quot.sound |
| Verif.Tc.C47_alias_violation | propext, Quot.sound |
| Verif.Tc.C48_links_live_partial | propext, Classical.choice, Quot.sound |
| Verif.Tc.C48_write_unlinks_partial | propext, Classical.choice, Quot.sound |
| Verif.Tc.C48_invlpg_partial | propext, Classical.choice, Quot.sound |
| Verif.Tc.C48_flush | propext, Quot.sound |
| Verif.Tc.C48_alias_violation | propext, Quot.sound |
| Verif.Tc.C49_push | propext, Classical.choice, Quot.sound |
| Verif.Tc.C49_pop | propext, Classical.choice, Quot.sound |
| Verif.Tc.C49_only_matching | propext, Quot.sound |
| Verif.Tc.C49_lifo | propext, Classical.choice, Quot.sound |
| Verif.Tc.C49_balanced | propext, Classical.choice, Quot.sound |
| Verif.Tc.C49_dangling_violation | propext, Quot.sound |
| Verif.Tc.C49_live_partial | propext, Classical.choice, Quot.sound |
| Verif.Pool.C50_partial | propext, Classical.choice, Quot.sound |
| Verif.Pool.C50_free_partial | propext, Classical.choice, Quot.sound |
| Verif.Pool.C50_reuse | propext, Quot.sound |
| Verif.Pool.C50_leak_violation | propext, Classical.choice, Quot.sound |
| Verif.Pool.C50_nested_violation | propext, Classical.choice, Quot.sound |
| Verif.Pool.C50_system_partial | propext, Classical.choice, Quot.sound |
| Verif.Pool.C50_fits | propext, Quot.sound |
| Verif.Tc.C51_map | propext, Quot.sound |
| Verif.Tc.C51_not_found | propext, Quot.sound |
| Verif.Tc.C51_called_partial | propext, Classical.choice, Quot.sound |
| Verif.Tc.C51_replace_violation | propext, Quot.sound |
| Verif.Tc.C51_two_modes_violation | propext, Quot.sound |
| Verif.Tc.C51_remapped_violation | propext, Quot.sound |
| Verif.SetFlags.C52_accepts_documented | propext, Classical.choice, Quot.sound |
| Verif.SetFlags.C52_rejected_no_effect | propext, Classical.choice, Quot.sound |
| Verif.SetFlags.C52_internal_bits_kept | propext, Classical.choice, Quot.sound |
| Verif.SetFlags.C52_last_accepted_in_force | propext, Classical.choice, Quot.sound |
| Verif.Clock.C53_not_before | propext, Classical.choice, Quot.sound |
| Verif.Clock.C53_returns_partial | propext, Classical.choice, Quot.sound |
| Verif.Clock.C53_delay_partial | propext, Classical.choice, Quot.sound |
| Verif.Clock.C53_ret_violation | propext, Quot.sound |
| Verif.Clock.C53_halted_waits | propext, Classical.choice, Quot.sound |
| Verif.Clock.C53_cached_code_violation | propext, Quot.sound |
| Verif.Clock.C53_exceptions_violation | propext, Quot.sound |
| Verif.Clock.C53_run_afterwards_violation | propext, Quot.sound |
| Verif.Clock.C53_no_deadline | propext |
| Verif.Clock.C54_reads_ideal | propext, Quot.sound |
| Verif.Clock.C54_monotone | propext, Classical.choice, Quot.sound |
| Verif.Clock.C54_continues_from_snapshot | propext, Quot.sound |
| Verif.Clock.C54_snapshot_does_not_disturb | none |
| Verif.Watch.C55_data_watchpoints_partial | propext, Classical.choice, Quot.sound |
| Verif.Watch.C55_wrap_violation | propext, Quot.sound |
| Verif.Watch.C55_fetch_violation | propext, Classical.choice, Quot.sound |
| Verif.Watch.C55_instr_breakpoints_partial | propext, Classical.choice, Quot.sound |
| Verif.Watch.C55_io_watchpoints_partial | propext, Classical.choice, Quot.sound |
| Verif.Watch.C55_io_moved_violation | propext, Quot.sound |
| Verif.Watch.C55_dr6 | propext, Classical.choice, Quot.sound |
| Verif.Region.C56_caches_never_outlive_the_map | propext, Quot.sound |
| Verif.Flags.C57_pushfd | propext, Classical.choice, Quot.sound |
| Verif.Flags.C57_pushf | propext, Classical.choice, Quot.sound |
| Verif.Flags.C57_lahf | propext, Classical.choice, Quot.sound |
| Verif.Flags.C57_sahf | propext, Classical.choice, Quot.sound |
| Verif.Flags.C57_popf_arith | propext, Classical.choice, Quot.sound |
| Verif.Flags.C57_popf_system | propext, Classical.choice, Quot.sound |
| Verif.Flags.C57_pushf_popf | propext, Classical.choice, Quot.sound |
| Verif.Flags.C58_condition | propext, Classical.choice, Quot.sound |
| Verif.Flags.C58_complement | propext, Classical.choice, Quot.sound |
| Verif.Flags.C58_cmp_unsigned | propext, Classical.choice, Quot.sound |
| Verif.Flags.C58_cmp_signed | propext, Classical.choice, Quot.sound |
| Verif.Flags.C59_zero_count | propext, Classical.choice, Quot.sound |
| Verif.Flags.C59_shl | propext, Classical.choice, Quot.sound |
| Verif.Flags.C59_shr | propext, Classical.choice, Quot.sound |
| Verif.Flags.C59_sar | propext, Classical.choice, Quot.sound |
| Verif.Flags.C59_rcl | propext, Classical.choice, Quot.sound |
| Verif.Flags.C59_rcr | propext, Classical.choice, Quot.sound |
| Verif.Flags.C59_rol | propext, Classical.choice, Quot.sound |
| Verif.Flags.C59_ror | propext, Classical.choice, Quot.sound |
| Verif.Flags.C59_rol_ror | propext, Classical.choice, Quot.sound |
| Verif.Flags.C59_double | propext, Classical.choice, Quot.sound |
| Verif.Flags.C60_daa | propext, Classical.choice, Quot.sound |
| Verif.Flags.C60_das | propext, Classical.choice, Quot.sound |
| Verif.Flags.C60_bcd_add | propext, Classical.choice, Quot.sound |
| Verif.Flags.C60_bcd_sub | propext, Classical.choice, Quot.sound |
| Verif.Flags.C60_aaa | propext, Classical.choice, Quot.sound |
| Verif.Flags.C60_unpacked_add | propext, Classical.choice, Quot.sound |
| Verif.Flags.C60_aas | propext, Classical.choice, Quot.sound |
| Verif.Flags.C60_unpacked_sub | propext, Classical.choice, Quot.sound |
| Verif.Flags.C60_aam | propext, Classical.choice, Quot.sound |
| Verif.Flags.C60_aad | propext, Classical.choice, Quot.sound |
| Verif.Flags.C60_aam_aad | propext, Classical.choice, Quot.sound |
| Verif.BitTest.C61_register | propext, Classical.choice, Quot.sound |
| Verif.BitTest.C61_memory_immediate | propext, Classical.choice, Quot.sound |
| Verif.BitTest.C61_memory_register_partial | propext, Classical.choice, Quot.sound |
| Verif.BitTest.C61_memory_register_violation | propext, Quot.sound |
| Verif.BitTest.C61_fault | propext, Quot.sound |
| Verif.IoBitmap.C62_decision_partial | propext, Classical.choice, Quot.sound |
| Verif.IoBitmap.C62_small_tss_partial | propext |
| Verif.IoBitmap.C62_denied_port_violation | propext, Quot.sound |
| Verif.IoBitmap.C62_allowed_port_violation | propext, Quot.sound |
| Verif.IoBitmap.C62_clobbered_registers_violation | propext |
| Verif.IoBitmap.C62_supervisor_tss_violation | propext, Quot.sound |
| Verif.Sticky.C63_simd_recorded_partial | propext, Classical.choice, Quot.sound |
| Verif.Sticky.C63_simd_last_partial | propext, Quot.sound |
| Verif.Sticky.C63_simd_sticky_iff_partial | propext, Quot.sound |
| Verif.Sticky.C63_simd_violation | propext, Quot.sound |
| Verif.Sticky.C63_fpu_recorded_partial | propext, Quot.sound |
| Verif.Sticky.C63_fpu_last_partial | propext, Quot.sound |
| Verif.Sticky.C63_fpu_violation | propext, Quot.sound |
| Verif.EffAddr.C64_linear_address | propext, Classical.choice, Quot.sound |
| Verif.EffAddr.C64_offset_only | propext, Classical.choice, Quot.sound |
| Verif.EffAddr.C64_direct | propext, Classical.choice, Quot.sound |
| Verif.EffAddr.C64_wraps16 | propext, Classical.choice, Quot.sound |
| Verif.StringOps.C65_element | propext, Classical.choice, Quot.sound |
| Verif.StringOps.C65_rep | propext, Classical.choice, Quot.sound |
| Verif.StringOps.C65_zero | propext, Quot.sound |
| Verif.StringOps.C65_repeats | propext, Classical.choice, Quot.sound |
| Verif.StringOps.C65_restart | propext, Classical.choice, Quot.sound |
| Verif.StringOps.C65_fault_state | propext, Classical.choice, Quot.sound |
| Verif.StringOps.C65_indices | propext, Classical.choice, Quot.sound |
| Verif.StringOps.C65_stos_fill | propext, Classical.choice, Quot.sound |
| Verif.StringOps.C65_movs_copy | propext, Classical.choice, Quot.sound |
| Verif.StringOps.C65_scas_finds_first | propext, Classical.choice, Quot.sound |
| Verif.StringOps.C65_cmps_finds_first_difference | propext, Classical.choice, Quot.sound |
| Verif.Stack.C66_push | propext, Quot.sound |
| Verif.Stack.C66_pop | propext, Quot.sound |
| Verif.Stack.C66_lifo | propext, Classical.choice, Quot.sound |
| Verif.Stack.C66_high_half | propext, Quot.sound |
| Verif.Stack.C66_leave | propext, Quot.sound |
| Verif.Stack.C66_leave_fault_violation | propext, Quot.sound |
| Verif.Stack.C66_pop_mem_partial | propext, Quot.sound |
| Verif.Stack.C66_pop_mem_violation | propext, Quot.sound |
| Verif.Seg.C67_direct | propext, Quot.sound |
| Verif.Seg.C67_gate_target | propext, Quot.sound |
| Verif.Seg.C67_level_partial | propext, Quot.sound |
| Verif.Seg.C67_conforming_violation | propext, Quot.sound |
| Verif.Seg.C68_restartable | propext, Classical.choice, Quot.sound |
| Verif.Seg.C68_shutdown | propext, Classical.choice, Quot.sound |
| Verif.Tc.C69_first_instruction_partial | propext, Classical.choice, Quot.sound |
| Verif.Tc.C69_later_instruction_violation | propext, Quot.sound |
| Verif.New.C70_ram_buffer_partial | propext, Classical.choice, Quot.sound |
| Verif.New.C70_rejects_partial | propext, Quot.sound |
| Verif.New.C70_alignment_zero_violation | propext, Quot.sound |
| Verif.New.C70_size_wraps_violation | propext, Classical.choice, Quot.sound |
| Verif.Ints.C71_halt_partial | propext, Classical.choice, Quot.sound |
| Verif.Ints.C71_exit_forgets_halt_violation | propext, Classical.choice, Quot.sound |
| Verif.Ints.C71_debug_trap_hangs_violation | propext, Classical.choice, Quot.sound |
| Verif.Dispatch.C72_read_memory_partial | propext, Classical.choice, Quot.sound |
| Verif.Dispatch.C72_write_memory_partial | propext, Classical.choice, Quot.sound |
| Verif.Dispatch.C72_device_partial | propext, Classical.choice, Quot.sound |
| Verif.Dispatch.C72_unmapped_partial | propext, Classical.choice, Quot.sound |
| Verif.Dispatch.C72_past_ram_violation | propext, Quot.sound |
| Verif.Dispatch.C72_wide_device_partial | propext, Classical.choice, Quot.sound |
| Verif.Dispatch.C72_wide_device_violation | propext, Quot.sound |
| Verif.Dispatch.C72_past_rom_violation | propext, Quot.sound |
| Verif.Dispatch.C72_rom_at_top_hangs_violation | propext, Quot.sound |
| Verif.Dispatch.C72_rom_tail_partial | propext, Classical.choice, Quot.sound |
| Verif.Seg.C73_event_frame | propext, Classical.choice, Quot.sound |
| Verif.Seg.C73_event_regs | propext, Quot.sound |
| Verif.Seg.C73_iret_resumes | propext, Classical.choice, Quot.sound |
| Verif.Seg.C73_iret16_violation | propext, Quot.sound |
| Verif.Seg.C73_vm86_violation | propext, Quot.sound |
| Verif.Seg.C74_bad_gate | propext, Classical.choice, Quot.sound |
| Verif.Seg.C74_bad_handler_partial | propext, Classical.choice, Quot.sound |
| Verif.Seg.C74_delivered | propext, Classical.choice, Quot.sound |
| Verif.Seg.C74_data_violation | propext, Quot.sound |
| Verif.Paging.C75_code_pages_stay_watched | propext, Classical.choice, Quot.sound |
| Verif.Stack.C76_enter_partial | propext, Classical.choice, Quot.sound |
| Verif.Stack.C76_enter_leave_partial | propext, Classical.choice, Quot.sound |
| Verif.Stack.C76_display_partial | propext, Classical.choice, Quot.sound |
| Verif.Stack.C76_pusha_popa | propext, Classical.choice, Quot.sound |
| Verif.Stack.C76_enter_fault | propext, Quot.sound |
| Verif.Stack.C76_pusha_fault | propext, Quot.sound |
| Verif.Stack.C76_popa_restart | propext, Quot.sound |
| Verif.Stack.C76_enter16_violation | propext, Quot.sound |
| Verif.Stack.C76_display_violation | propext, Quot.sound |
| Verif.Fpu.C77_stack_machine | propext, Quot.sound |
| Verif.Fpu.C77_tag | propext, Classical.choice, Quot.sound |
| Verif.Fpu.C77_nonwaiting | propext, Quot.sound |
| Verif.Fpu.C77_fldcw | propext, Classical.choice, Quot.sound |
| Verif.Fpu.C77_waiting | propext, Quot.sound |
| Verif.Seg.C78_flags_partial | propext, Classical.choice, Quot.sound |
| Verif.Seg.C78_to_vm86_partial | propext, Classical.choice, Quot.sound |
| Verif.Seg.C78_unprivileged | propext, Classical.choice, Quot.sound |
| Verif.Seg.C78_escalation_violation | propext, Quot.sound |
| Verif.Seg.C78_df_violation | propext, Quot.sound |
| Verif.Seg.C78_iopl16_violation | propext, Quot.sound |
| Verif.Seg.C79_ltr_partial | propext, Classical.choice, Quot.sound |
| Verif.Seg.C79_lldt_partial | propext, Classical.choice, Quot.sound |
| Verif.Seg.C79_verr | propext, Classical.choice, Quot.sound |
| Verif.Seg.C79_verw | propext, Classical.choice, Quot.sound |
| Verif.Seg.C79_verr_load | propext, Classical.choice, Quot.sound |
| Verif.Seg.C79_arpl | propext, Classical.choice, Quot.sound |
| Verif.Seg.C79_sgdt | propext, Classical.choice, Quot.sound |
| Verif.Seg.C79_lgdt | propext, Classical.choice, Quot.sound |
| Verif.Seg.C79_sgdt_lgdt | propext, Classical.choice, Quot.sound |
| Verif.Seg.C79_str | propext, Quot.sound |
| Verif.Seg.C79_lldt_ti_violation | propext, Quot.sound |
| Verif.Seg.C79_real_violation | propext, Quot.sound |
| Verif.Seg.C79_sgdt_access | propext, Quot.sound |
| Verif.Seg.C79_sldt | propext, Quot.sound |
| Verif.Seg.C80_event | propext, Classical.choice, Quot.sound |
| Verif.Seg.C80_iret_resumes | propext, Classical.choice, Quot.sound |
| Verif.Near.C81_jcc | propext, Classical.choice, Quot.sound |
| Verif.Near.C81_jcxz | propext, Classical.choice, Quot.sound |
| Verif.Near.C81_jmp | propext, Classical.choice, Quot.sound |
| Verif.Near.C81_loop | propext, Classical.choice, Quot.sound |
| Verif.Near.C81_loop_count | propext, Classical.choice, Quot.sound |
| Verif.Near.C81_call | propext, Classical.choice, Quot.sound |
| Verif.Near.C81_call_rm | propext, Classical.choice, Quot.sound |
| Verif.Near.C81_jmp_rm | propext, Classical.choice, Quot.sound |
| Verif.Near.C81_ret | propext, Quot.sound |
| Verif.Near.C81_call_ret | propext, Classical.choice, Quot.sound |
| Verif.Near.C81_stdcall | propext, Classical.choice, Quot.sound |
| Verif.Near.C81_nested | propext, Classical.choice, Quot.sound |
| Verif.Near.C81_far_jmp | propext, Classical.choice, Quot.sound |
| Verif.Near.C81_far_call | propext, Classical.choice, Quot.sound |
| Verif.Near.C81_far_call_ret | propext, Classical.choice, Quot.sound |
| Verif.Near.C81_far_fault_partial | propext, Quot.sound |
| Verif.Near.C81_far_call_fault_violation | propext, Quot.sound |
| Verif.Emit.C82_alu | propext, Classical.choice, Quot.sound |
| Verif.Emit.C82_register_operand | propext, Classical.choice, Quot.sound |
| Verif.Emit.C82_inc_dec | propext, Classical.choice, Quot.sound |
| Verif.Emit.C82_neg | propext, Classical.choice, Quot.sound |
| Verif.Emit.C82_not | propext, Classical.choice, Quot.sound |
| Verif.Emit.C82_xadd | propext, Classical.choice, Quot.sound |
| Verif.Emit.C82_xchg_partial | propext, Classical.choice, Quot.sound |
| Verif.Emit.C82_xchg_acc | propext, Classical.choice, Quot.sound |
| Verif.Emit.C82_xchg_fault_violation | propext, Classical.choice, Quot.sound |
| Verif.Emit.C82_cmpxchg_partial | propext, Classical.choice, Quot.sound |
| Verif.Emit.C82_cmpxchg_readonly_violation | propext, Classical.choice, Quot.sound |
| Verif.Emit.C82_cmpxchg8b | propext, Classical.choice, Quot.sound |
| Verif.Emit.C82_writes | propext |
| Verif.Emit.C82_sizes | none |
| Verif.Seg.C83_entry_partial | propext, Classical.choice, Quot.sound |
| Verif.Seg.C83_int_denied | propext, Classical.choice, Quot.sound |
| Verif.Seg.C83_redirected_partial | propext, Classical.choice, Quot.sound |
| Verif.Seg.C83_selector_violation | propext, Quot.sound |
| Verif.Seg.C83_vif_violation | propext, Quot.sound |
| Verif.Seg.C83_flat_violation | propext, Quot.sound |
| Verif.Seg.C83_redirected_rights | propext, Classical.choice, Quot.sound |
| Verif.Emit.C84_scan | propext, Classical.choice, Quot.sound |
| Verif.Emit.C84_setcc | propext, Classical.choice, Quot.sound |
| Verif.Emit.C84_cmovcc | propext, Classical.choice, Quot.sound |
| Verif.Emit.C84_flags | propext, Classical.choice, Quot.sound |
| Verif.Emit.C84_bound | propext, Classical.choice, Quot.sound |
| Verif.Emit.C84_xlat_partial | propext, Classical.choice, Quot.sound |
| Verif.Emit.C84_xlat_violation | propext, Quot.sound |
| Verif.Emit.C84_mul | propext, Classical.choice, Quot.sound |
| Verif.Emit.C84_imul | propext, Classical.choice, Quot.sound |
| Verif.Emit.C84_convert | propext, Classical.choice, Quot.sound |
| Verif.Emit.C84_movx | propext, Classical.choice, Quot.sound |
| Verif.Emit.C84_bswap | propext, Classical.choice, Quot.sound |
| Verif.Priv.C85_isolation_partial | propext, Classical.choice, Quot.sound |
| Verif.Priv.C85_interrupt_flag_partial | propext, Classical.choice, Quot.sound |
| Verif.Priv.C85_confined_partial | propext, Classical.choice, Quot.sound |
| Verif.Priv.C85_registers | propext, Classical.choice, Quot.sound |
| Verif.Priv.C85_privileged_partial | propext, Quot.sound |
| Verif.Priv.C85_gd | propext, Quot.sound |
| Verif.Priv.C85_debug_regs | propext, Quot.sound |
| Verif.Priv.C85_kernel | propext, Quot.sound |
| Verif.Priv.C85_rdtsc | propext, Quot.sound |
| Verif.Priv.C85_gd_violation | propext, Quot.sound |
| Verif.Priv.C85_iret_violation | propext, Quot.sound |
| Verif.Priv.C86_cli_partial | propext, Classical.choice, Quot.sound |
| Verif.Priv.C86_sti_partial | propext, Quot.sound |
| Verif.Priv.C86_popf_flags | propext, Classical.choice, Quot.sound |
| Verif.Priv.C86_popf_partial | propext, Classical.choice, Quot.sound |
| Verif.Priv.C86_pushf | propext, Classical.choice, Quot.sound |
| Verif.Priv.C86_cli_violation | propext, Quot.sound |
| Verif.Priv.C86_sti_violation | propext, Quot.sound |
| Verif.Priv.C86_popf_violation | propext, Quot.sound |
| Verif.Coproc.C87_architecture | propext, Quot.sound |
| Verif.Coproc.C87_decisions | propext, Quot.sound |
| Verif.Coproc.C87_executed_partial | propext, Classical.choice, Quot.sound |
| Verif.Coproc.C88_gate_partial | propext, Quot.sound |
| Verif.Coproc.C88_available | propext, Quot.sound |
| Verif.Coproc.C88_simd | propext, Quot.sound |
| Verif.Coproc.C88_lazy | propext, Classical.choice, Quot.sound |
| Verif.Coproc.C88_priority_violation | propext, Quot.sound |
| Verif.Seg.C89_direct_frame | propext, Classical.choice, Quot.sound |
| Verif.Seg.C89_gate_frame | propext, Classical.choice, Quot.sound |
| Verif.Seg.C89_returns | propext, Classical.choice, Quot.sound |
| Verif.Seg.C89_direct_round_trip | propext, Classical.choice, Quot.sound |
| Verif.Seg.C89_gate_round_trip_partial | propext, Classical.choice, Quot.sound |
| Verif.Seg.C89_real_frame | propext, Classical.choice, Quot.sound |
| Verif.Seg.C89_real_returns | propext, Classical.choice, Quot.sound |
| Verif.Seg.C89_retf_imm_partial | propext, Classical.choice, Quot.sound |
| Verif.Seg.C89_wide_violation | propext, Quot.sound |
| Verif.Seg.C89_small_violation | propext, Quot.sound |
| Verif.Seg.C89_params_violation | propext, Quot.sound |
| Verif.Seg.C89_retf_imm_violation | propext, Classical.choice, Quot.sound |
| Verif.Seg.C90_instr | propext, Classical.choice, Quot.sound |
| Verif.Seg.C90_instr_always | propext, Classical.choice, Quot.sound |
| Verif.Seg.C90_exec | propext, Classical.choice, Quot.sound |
| Verif.Seg.C90_run | propext, Classical.choice, Quot.sound |
| Verif.Seg.C90_event_always | propext, Classical.choice, Quot.sound |
| Verif.Seg.C90_user_violation | propext, Quot.sound |
| Verif.Tc.C91_only_there | propext, Quot.sound |
| Verif.Tc.C91_returns_partial | propext, Quot.sound |
| Verif.Tc.C91_original_partial | propext, Classical.choice, Quot.sound |
| Verif.Tc.C91_later_hooks_partial | propext, Classical.choice, Quot.sound |
| Verif.Tc.C91_overrun_violation | propext, Quot.sound |
| Verif.Tc.C91_refault_violation | propext, Quot.sound |
| Verif.Seg.C92_event | propext, Classical.choice, Quot.sound |
| Verif.Seg.C92_call_partial | propext, Classical.choice, Quot.sound |
| Verif.Seg.C92_user_rights_violation | propext, Quot.sound |
| Verif.Seg.C92_not_present_violation | propext, Quot.sound |
| Verif.Seg.C92_conforming_violation | propext, Quot.sound |
| Verif.Seg.C93_mark | propext, Classical.choice, Quot.sound |
| Verif.Seg.C93_load | propext, Classical.choice, Quot.sound |
| Verif.Seg.C93_jump | propext, Quot.sound |
| Verif.Seg.C93_far_return | propext, Classical.choice, Quot.sound |
| Verif.Seg.C93_iret | propext, Classical.choice, Quot.sound |
| Verif.Seg.C93_call | propext, Quot.sound |
| Verif.Seg.C94_load | propext, Quot.sound |
| Verif.Seg.C94_jump | propext, Quot.sound |
| Verif.Seg.C94_vm86 | propext, Classical.choice, Quot.sound |
| Verif.Seg.C94_real | propext, Classical.choice, Quot.sound |
| Verif.Emit.C95_shift | propext, Classical.choice, Quot.sound |
| Verif.Block.HostP.C96_pointer | propext, Quot.sound |
| Verif.Block.HostP.C96_null_partial | propext, Quot.sound |
| Verif.Block.HostP.C96_reads_same | propext, Quot.sound |
| Verif.Block.HostP.C96_store | propext, Quot.sound |
| Verif.Block.HostP.C96_alias_violation | propext, Classical.choice, Quot.sound |
| Verif.Emit.C97_operand | propext, Classical.choice, Quot.sound |
| Verif.Emit.C97_alu | propext, Classical.choice, Quot.sound |
| Verif.Emit.C97_shift | propext, Classical.choice, Quot.sound |
| Verif.Emit.C97_movx | propext, Classical.choice, Quot.sound |
| Verif.Emit.C98_mov_store | propext, Classical.choice, Quot.sound |
| Verif.Emit.C98_mov_load | propext, Classical.choice, Quot.sound |
| Verif.Emit.C98_mov_imm | propext, Classical.choice, Quot.sound |
| Verif.Emit.C98_mov_moffs | propext, Classical.choice, Quot.sound |
| Verif.Emit.C98_mov_sel_partial | propext, Classical.choice, Quot.sound |
| Verif.Emit.C98_push | propext, Classical.choice, Quot.sound |
| Verif.Emit.C98_pop | propext, Classical.choice, Quot.sound |
| Verif.Emit.C98_pop_mem_partial | propext, Classical.choice, Quot.sound |
| Verif.Emit.C98_leave_partial | propext, Classical.choice, Quot.sound |
| Verif.Emit.C98_pusha | propext, Classical.choice, Quot.sound |
| Verif.Emit.C98_popa | propext, Classical.choice, Quot.sound |
| Verif.Emit.C98_push_pop | propext, Classical.choice, Quot.sound |
| Verif.Emit.C98_pusha_popa | propext, Classical.choice, Quot.sound |
| Verif.Emit.C98_load_sel_partial | propext, Classical.choice, Quot.sound |
| Verif.Emit.C98_lea | propext, Classical.choice, Quot.sound |
| Verif.Emit.C98_mov_operand | propext, Classical.choice, Quot.sound |
| Verif.Emit.C98_mov_sel_violation | propext, Quot.sound |
| Verif.Emit.C98_load_sel_violation | propext, Quot.sound |
| Verif.Emit.C98_pop_mem_violation | propext, Quot.sound |
| Verif.Emit.C98_leave_violation | propext, Quot.sound |
| Verif.Emit.C99_block_partial | propext, Classical.choice, Quot.sound |
| Verif.Emit.C99_layout | propext, Quot.sound |
| Verif.Emit.C99_addresses_partial | propext, Classical.choice, Quot.sound |
| Verif.Emit.C99_interrupt | propext, Quot.sound |
| Verif.Emit.C99_fault_violation | propext, Quot.sound |
| Verif.Emit.C100_jump | propext, Classical.choice, Quot.sound |
| Verif.Emit.C100_block_partial | propext, Classical.choice, Quot.sound |
| Verif.Emit.C101_string | propext, Classical.choice, Quot.sound |
| Verif.Emit.C101_restart | propext, Classical.choice, Quot.sound |
| Verif.Emit.C102_lahf | propext, Classical.choice, Quot.sound |
| Verif.Emit.C102_sahf | propext, Classical.choice, Quot.sound |
| Verif.Emit.C102_bit_partial | propext, Classical.choice, Quot.sound |
| Verif.Emit.C102_bit_violation | propext, Classical.choice, Quot.sound |
| Verif.Emit.C102_pushf | propext, Classical.choice, Quot.sound |
| Verif.Emit.C102_popf | propext, Classical.choice, Quot.sound |
| Verif.Emit.C102_popf_vme_partial | propext, Classical.choice, Quot.sound |
| Verif.Emit.C102_popf_vme_violation | propext, Classical.choice, Quot.sound |
| Verif.Emit.C102_div | propext, Classical.choice, Quot.sound |
| Verif.Emit.C102_idiv_partial | propext, Classical.choice, Quot.sound |
| Verif.Emit.C102_idiv_violation | propext, Classical.choice, Quot.sound |
| Verif.Emit.C102_aaa | propext, Classical.choice, Quot.sound |
| Verif.Emit.C102_aas | propext, Classical.choice, Quot.sound |
| Verif.Emit.C102_aad | propext, Classical.choice, Quot.sound |
| Verif.Emit.C102_aam | propext, Classical.choice, Quot.sound |
| Verif.Emit.C102_daa_das | propext, Classical.choice, Quot.sound |
| Verif.Ipt.C103_mapping_partial | propext, Classical.choice, Quot.sound |
| Verif.Ipt.C103_rom | propext, Quot.sound |
| Verif.Ipt.C103_fault | propext, Quot.sound |
| Verif.Ipt.C103_readonly_partial | propext, Classical.choice, Quot.sound |
| Verif.Ipt.C103_progress_partial | propext, Quot.sound |
| Verif.Ipt.C103_code_partial | propext, Quot.sound |
| Verif.Ipt.C103_watch | propext, Classical.choice, Quot.sound |
| Verif.Ipt.C103_query | propext, Quot.sound |
| Verif.Ipt.C103_mapping_violation | propext, Quot.sound |
| Verif.Ipt.C103_readonly_violation | propext, Quot.sound |
| Verif.Ipt.C103_progress_violation | propext, Quot.sound |
| Verif.Ipt.C103_code_violation | propext, Quot.sound |
| Verif.Ipt.C103_accessed_violation | propext, Quot.sound |
| Verif.Ipt.C103_info | propext, Classical.choice, Quot.sound |
| Verif.Ipt.C103_info_violation | propext, Quot.sound |
| Verif.Emit.C104_whole_page | propext, Classical.choice, Quot.sound |
| Verif.Emit.C104_run_partial | propext, Classical.choice, Quot.sound |
| Verif.Emit.C104_cache | propext, Quot.sound |
| Verif.Emit.C104_cached_one_page | propext, Quot.sound |
| Verif.Emit.C105_port | propext, Classical.choice, Quot.sound |
| Verif.Emit.C105_privileged | propext, Classical.choice, Quot.sound |
| Verif.Emit.C105_bitmap_partial | propext, Classical.choice, Quot.sound |
| Verif.Emit.C105_string_partial | propext, Classical.choice, Quot.sound |
| Verif.Emit.C105_outs | propext, Classical.choice, Quot.sound |
| Verif.Emit.C105_outs_restart | propext, Classical.choice, Quot.sound |
| Verif.Emit.C105_ins_restart_violation | propext, Classical.choice, Quot.sound |
| Verif.Emit.C106_link | propext, Classical.choice, Quot.sound |
| Verif.Emit.C106_ret_words | propext, Classical.choice, Quot.sound |
| Verif.Emit.C106_words | propext, Quot.sound |
| Verif.Emit.C106_ret | propext, Classical.choice, Quot.sound |
| Verif.Emit.C106_invalid | propext, Quot.sound |
| Verif.Emit.C106_jumpTo | propext, Quot.sound |
| Verif.Emit.C106_full | propext, Quot.sound |
| Verif.Simd.C107_movaps_load | propext, Classical.choice, Quot.sound |
| Verif.Simd.C107_movaps_store | propext, Classical.choice, Quot.sound |
| Verif.Simd.C107_xor | propext, Classical.choice, Quot.sound |
| Verif.Simd.C107_shuffle | propext, Classical.choice, Quot.sound |
| Verif.Simd.C107_unpack | propext, Classical.choice, Quot.sound |
| Verif.Simd.C107_movh_load | propext, Classical.choice, Quot.sound |
| Verif.Simd.C107_movh_store | propext, Classical.choice, Quot.sound |
| Verif.Simd.C107_movss_load | propext, Classical.choice, Quot.sound |
| Verif.Simd.C107_movss_store | propext, Classical.choice, Quot.sound |
| Verif.Simd.C107_emms | propext, Quot.sound |
| Verif.Simd.C107_movq_load | propext, Classical.choice, Quot.sound |
| Verif.Simd.C107_movq_store | propext, Classical.choice, Quot.sound |
| Verif.Simd.C107_arith_partial | propext, Classical.choice, Quot.sound |
| Verif.Simd.C107_rcp_partial | propext, Classical.choice, Quot.sound |
| Verif.Simd.C107_cvt | propext, Classical.choice, Quot.sound |
| Verif.Simd.C107_unaligned_violation | propext, Classical.choice, Quot.sound |
| Verif.Simd.C107_sub_violation | propext, Quot.sound |
| Verif.Seg.C108_others | propext, Quot.sound |
| Verif.Seg.C108_page_fault | propext, Quot.sound |
| Verif.Seg.C108_last_fault_partial | propext, Classical.choice, Quot.sound |
| Verif.Seg.C108_int14_violation | propext, Quot.sound |
| Verif.Seg.C108_redirected_violation | propext, Quot.sound |
| Verif.Seg.C108_double_violation | propext, Quot.sound |
| Verif.Step.C109_step_partial | propext, Quot.sound |
| Verif.Step.C109_cached_violation | propext, Quot.sound |
| Verif.Step.C109_twice_violation | propext, Quot.sound |
| Verif.Step.C109_resume_violation | propext, Quot.sound |
| Verif.Step.C109_dr6_violation | propext, Classical.choice, Quot.sound |
| Verif.Step.C109_revived_violation | propext, Quot.sound |
| Verif.FpuMem.C110_store_partial | propext, Classical.choice, Quot.sound |
| Verif.FpuMem.C110_underflow_partial | propext, Classical.choice, Quot.sound |
| Verif.FpuMem.C110_load | propext, Quot.sound |
| Verif.FpuMem.C110_pointers_partial | propext, Quot.sound |
| Verif.FpuMem.C110_fninit | none |
| Verif.FpuMem.C110_fault_violation | propext, Quot.sound |
| Verif.FpuMem.C110_address_violation | propext, Quot.sound |
| Verif.FpuMem.C110_pointers_violation | propext, Quot.sound |
| Verif.FpuMem.C110_operand | propext |
| Verif.EmitFpu.C111_code_partial | propext, Classical.choice, Quot.sound |
| Verif.EmitFpu.C111_result_partial | propext, Classical.choice, Quot.sound |
| Verif.EmitFpu.C111_store | propext, Classical.choice, Quot.sound |
| Verif.EmitFpu.C111_control | propext, Quot.sound |
| Verif.EmitFpu.C111_far_violation | propext, Classical.choice, Quot.sound |
| Verif.EmitFpu.C111_denormal_violation | propext, Quot.sound |
| Verif.Seg.C112_not_taken | propext, Quot.sound |
| Verif.Seg.C112_enters | propext, Classical.choice, Quot.sound |
| Verif.Seg.C112_resumes | propext, Classical.choice, Quot.sound |
| Verif.Seg.C112_refused_partial | propext, Classical.choice, Quot.sound |
| Verif.Seg.C112_vm86_partial | propext, Classical.choice, Quot.sound |
| Verif.Seg.C112_real | propext, Classical.choice, Quot.sound |
| Verif.Seg.C112_restart_violation | propext, Classical.choice, Quot.sound |
| Verif.Seg.C112_monitor_violation | propext, Classical.choice, Quot.sound |
| Verif.Seg.C113_atomic | propext, Classical.choice, Quot.sound |
| Verif.Seg.C113_loads | propext, Classical.choice, Quot.sound |
| Verif.Seg.C113_segment | propext, Classical.choice, Quot.sound |
| Verif.Seg.C113_real | propext, Classical.choice, Quot.sound |
| Verif.Fpu.C114_masked_partial | propext, Classical.choice, Quot.sound |
| Verif.Fpu.C114_fcom | propext, Classical.choice, Quot.sound |
| Verif.Fpu.C114_fxch_violation | propext, Classical.choice, Quot.sound |
| Verif.Fpu.C114_fld_violation | propext, Classical.choice, Quot.sound |
| Verif.Fpu.C114_arith_violation | propext, Classical.choice, Quot.sound |
