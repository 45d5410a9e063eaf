{
 "claims": [
  {
   "property": "C01",
   "status": "partial",
   "theorems": [
    "Verif.AS.C01_every_address_in_its_region_partial",
    "Verif.AS.C01_aligned_histories_partial",
    "Verif.AS.C01_gap_violation",
    "Verif.AS.C01_undefined_behaviour_violation"
   ],
   "note": "Proved for every history in which no new range ends exactly on the first byte of a longer neighbour (in particular all histories of page aligned ranges). The excluded coincidence leaves a gap or undefined behaviour in the code: the two _violation theorems."
  },
  {
   "property": "C02",
   "status": "partial",
   "theorems": [
    "Verif.AS.C02_new_region_owns_range_partial",
    "Verif.AS.C02_neighbour_lost_violation"
   ],
   "note": "Proved outside the coincidence of C01; witness of the lost neighbour in the violation theorem."
  },
  {
   "property": "C03",
   "status": "partial",
   "theorems": [
    "Verif.AS.C03_destroy_unmaps_range_partial",
    "Verif.AS.C03_neighbour_unmapped_violation"
   ],
   "note": "Proved outside the coincidence of C01; witness of a neighbour being unmapped in the violation theorem."
  },
  {
   "property": "C04",
   "status": "partial",
   "theorems": [
    "Verif.Region.C04_parameter_checks_partial",
    "Verif.Region.C04_region_covers_exactly_partial",
    "Verif.Region.C04_wrap_violation",
    "Verif.Region.C04_destroy_zero_violation"
   ],
   "note": "Proved for start + size not wrapping modulo 2^64; the wrap and destroy with size 0 are violations of the code."
  },
  {
   "property": "C05",
   "status": "partial",
   "theorems": [
    "Verif.Region.C05_resolvers_agree",
    "Verif.Region.C05_chain_resolution",
    "Verif.Region.C05_new_alias_reaches_original_partial",
    "Verif.Region.C05_split_alias_violation",
    "Verif.Region.C05_dangling_alias_violation",
    "Verif.Region.C05_alias_cycle_violation"
   ],
   "note": "Chains of any depth and agreement of all resolvers proved; the offset claim is proved until the alias or its original is split or dropped, which the code mishandles (three violation theorems)."
  },
  {
   "property": "C06",
   "status": "partial",
   "theorems": [
    "Verif.AS.C06_backing_byte_preserved_partial",
    "Verif.AS.C06_lost_violation"
   ],
   "note": "C06_lost_violation: after a region is added whose end is the start of another, the bytes of that one are not found any more."
  },
  {
   "property": "C07",
   "status": "partial",
   "theorems": [
    "Verif.Region.C07_map_untouched_until_service",
    "Verif.Region.C07_deferred_equals_immediate_partial",
    "Verif.Region.C07_deferred_alias_violation"
   ],
   "note": "Proved for all sequences except alias requests made while other changes wait (violated by the code)."
  },
  {
   "property": "C08",
   "status": "partial",
   "theorems": [
    "Verif.Region.C08_updates_applied_in_order_partial",
    "Verif.Region.C08_request_only_queues",
    "Verif.Region.C08_update_lost_violation"
   ],
   "note": "Proved when no map change is pending at the service; an update of a region whose creation is deferred is lost by the code."
  },
  {
   "property": "C09",
   "status": "partial",
   "theorems": [
    "Verif.Region.C09_port_access_calls_owner",
    "Verif.Region.C09_new_ports_partial",
    "Verif.Region.C09_neighbour_violation"
   ],
   "note": "C09_neighbour_violation: after ports are added whose end is the start of another port region, that region calls the callback of the new one."
  },
  {
   "property": "C10",
   "status": "proved",
   "theorems": [
    "Verif.Region.C10_last_request_wins",
    "Verif.Region.C10_only_bit_20"
   ],
   "note": "Full."
  },
  {
   "property": "C11",
   "status": "partial",
   "theorems": [
    "Verif.Block.C11_write_read_partial",
    "Verif.Block.C11_one_region_partial",
    "Verif.Block.C11_ram_regions_share_bytes_violation"
   ],
   "note": "Proved for one ram region under aliases (C11_one_region_partial) and, for any map, that what is read back is what was written provided no two written addresses share a backing byte. The code backs every ram region with the same buffer at offset 0 of the region, so two ram regions share bytes: violation theorem."
  },
  {
   "property": "C12",
   "status": "partial",
   "theorems": [
    "Verif.Block.C12_read_actual_size_partial",
    "Verif.Block.C12_write_actual_size_partial",
    "Verif.Block.C12_overread_violation",
    "Verif.Block.C12_read_virt_partial",
    "Verif.Block.C12_write_virt_partial"
   ],
   "note": "Proved for every map without wrap-around of addr + size; the wrap-around makes the code read past a rom buffer: violation theorem."
  },
  {
   "property": "C13",
   "status": "proved",
   "theorems": [
    "Verif.Block.C13_rom_never_modified",
    "Verif.Block.C13_write_to_rom_succeeds"
   ],
   "note": "Full."
  },
  {
   "property": "C14",
   "status": "proved",
   "theorems": [
    "Verif.Block.C14_fill_is_constant_write"
   ],
   "note": "Full."
  },
  {
   "property": "C15",
   "status": "proved",
   "theorems": [
    "Verif.Paging.C15_identity_without_paging"
   ],
   "note": "Full."
  },
  {
   "property": "C16",
   "status": "partial",
   "theorems": [
    "Verif.Paging.C16_granted_iff_allowed_partial",
    "Verif.Paging.C16_user_access_iff_allowed",
    "Verif.Paging.C16_denied_changes_nothing",
    "Verif.Paging.C16_supervisor_write_violation",
    "Verif.Paging.C16_query_agrees"
   ],
   "note": "Proved for all user accesses and all supervisor accesses except a CR0.WP supervisor write to a supervisor page whose PDE and PTE disagree about R/W, where the code ORs the two bits: violation theorem."
  },
  {
   "property": "C17",
   "status": "proved",
   "theorems": [
    "Verif.Paging.C17_page_fault_code"
   ],
   "note": "Full for the page walk; CR2 of a page-crossing access is the address given to the walk."
  },
  {
   "property": "C18",
   "status": "partial",
   "theorems": [
    "Verif.Paging.C18_accessed_and_dirty",
    "Verif.Paging.C18_hit_page_is_accessed",
    "Verif.Paging.C18_fast_write_is_dirty_partial",
    "Verif.Paging.C18_block_write_violation"
   ],
   "note": "The page walk sets exactly the accessed bits and, for writes, the dirty bit; through the TLB proved for accessed bits on all histories and for the dirty bit on histories of guest accesses. The block api's virtual writes only set the TLB's dirty flag: violation theorem."
  },
  {
   "property": "C19",
   "status": "proved",
   "theorems": [
    "Verif.Paging.C19_frame_plus_offset"
   ],
   "note": "Full."
  },
  {
   "property": "C20",
   "status": "proved",
   "theorems": [
    "Verif.Paging.C20_set_and_tag_identify_page",
    "Verif.Paging.C20_entry_hit_same_page",
    "Verif.Paging.C20_data_hit_was_accessed",
    "Verif.Paging.C20_code_hit_was_fetched"
   ],
   "note": "Full."
  },
  {
   "property": "C21",
   "status": "partial",
   "theorems": [
    "Verif.Paging.C21_data_hit_is_walk",
    "Verif.Paging.C21_code_hit_is_walk",
    "Verif.Paging.C21_read_is_walk",
    "Verif.Paging.C21_write_is_walk",
    "Verif.Paging.C21_code_is_walk",
    "Verif.Paging.C21_fast_path_is_walk",
    "Verif.Paging.C21_hit_region",
    "Verif.Paging.C21_pagewise_of_aligned_map",
    "Verif.Paging.C21_misaligned_alias_violation"
   ],
   "note": "Proved for maps whose regions are page aligned and aliases shifted by whole pages, over all histories; a misaligned alias is served from a wrong address on a hit: violation theorem."
  },
  {
   "property": "C22",
   "status": "partial",
   "theorems": [
    "Verif.Paging.C22_invalidate_partial",
    "Verif.Paging.C22_eight_invalidations",
    "Verif.Paging.C22_other_pages_kept",
    "Verif.Paging.C22_duplicate_violation",
    "Verif.Paging.C22_upgrade_violation"
   ],
   "note": "The code clears only the first matching line; proved for pages translated at most once since the last flush, and that eight calls suffice in general; two histories that leave a stale entry are the violation theorems."
  },
  {
   "property": "C23",
   "status": "proved",
   "theorems": [
    "Verif.Paging.C23_full_flush",
    "Verif.Paging.C23_local_flush",
    "Verif.Paging.C23_survivors_are_global",
    "Verif.Paging.C23_code_survivors_are_global"
   ],
   "note": "Full."
  },
  {
   "property": "C24",
   "status": "partial",
   "theorems": [
    "Verif.Paging.C24_read_is_bytewise",
    "Verif.Paging.C24_write_is_bytewise_partial",
    "Verif.Paging.C24_wide_write_partial",
    "Verif.Paging.C24_wide_write_violation"
   ],
   "note": "Reads of every width and writes of 1, 2, 4, 8 bytes are complete, for any pair of mappings, over ram. Violated by writes of 10 and 16 bytes (FSTP m80, MOVUPS) that cross a page: the shift operator of the 80 and 128 bit types changes its operand, so the loop stores byte 0+1+...+i of the value as byte i (C24_wide_write_violation, C24_wide_write_partial)."
  },
  {
   "property": "C25",
   "status": "proved",
   "theorems": [
    "Verif.Flags.C25_write_read_32",
    "Verif.Flags.C25_write_read_16",
    "Verif.Flags.C25_write_ok",
    "Verif.Flags.C25_helper_write_read",
    "Verif.Flags.C25_flags_written"
   ],
   "note": "Full."
  },
  {
   "property": "C26",
   "status": "partial",
   "theorems": [
    "Verif.Flags.C26_add",
    "Verif.Flags.C26_xadd",
    "Verif.Flags.C26_adc",
    "Verif.Flags.C26_sub",
    "Verif.Flags.C26_sbb",
    "Verif.Flags.C26_neg",
    "Verif.Flags.C26_inc",
    "Verif.Flags.C26_dec",
    "Verif.Flags.C26_logic",
    "Verif.Flags.C26_rest_unchanged",
    "Verif.Flags.C26_cmpxchg_partial",
    "Verif.Flags.C26_cmpxchg_flags_violation"
   ],
   "note": "ADD, ADC, SUB/CMP, SBB, NEG, INC, DEC, XADD and logic proved at all widths. CMPXCHG: data, ZF proved; the code subtracts the accumulator from the destination instead of the reverse, so CF/OF/SF/AF differ from the architecture: violation theorem."
  },
  {
   "property": "C27",
   "status": "proved",
   "theorems": [
    "Verif.Flags.C27_clear_zf",
    "Verif.Flags.C27_set_zf",
    "Verif.Flags.C27_clc",
    "Verif.Flags.C27_stc",
    "Verif.Flags.C27_cmc",
    "Verif.Flags.C27_rest_unchanged",
    "Verif.Flags.C27_system_flags"
   ],
   "note": "Full."
  },
  {
   "property": "C28",
   "status": "proved",
   "theorems": [
    "Verif.Fpu.C28_tags",
    "Verif.Fpu.C28_status",
    "Verif.Fpu.C28_independent",
    "Verif.Fpu.C28_history"
   ],
   "note": "All values and states, and independence of the two words; C28_history gives the invariant after every history of FPU operations."
  },
  {
   "property": "C29",
   "status": "partial",
   "theorems": [
    "Verif.Fpu.C29_in_bounds",
    "Verif.Fpu.C29_push",
    "Verif.Fpu.C29_pop",
    "Verif.Fpu.C29_push_pop",
    "Verif.Fpu.C29_overflow",
    "Verif.Fpu.C29_underflow",
    "Verif.Fpu.C29_unmasked_fault",
    "Verif.Fpu.C29_pending",
    "Verif.Fpu.C29_fld_empty_violation",
    "Verif.Fpu.C29_faddp_empty_violation",
    "Verif.Fpu.C29_tags_partial",
    "Verif.Fpu.C29_fxch_tags_violation",
    "Verif.Fpu.C29_fpatan_tags_violation",
    "Verif.Fpu.C29_values",
    "Verif.Fpu.C29_mmx"
   ],
   "note": "Push, pop and their inverse, overflow, underflow, unmasked faults of every modelled instruction, pending exceptions. Partial: FLD ST(i)/FADDP with an empty ST(i) give the wrong masked response, FXCH and FPATAN leave stale tags (violation theorems)."
  },
  {
   "property": "C30",
   "status": "partial",
   "theorems": [
    "Verif.Fxsave.C30_image",
    "Verif.Fxsave.C30_restart",
    "Verif.Fxsave.C30_restored",
    "Verif.Fxsave.C30_fault",
    "Verif.Fxsave.C30_roundtrip_partial",
    "Verif.Fxsave.C30_tags_violation",
    "Verif.Fxsave.C30_order_violation",
    "Verif.Fxsave.C30_shadow"
   ],
   "note": "Round trip, layout of the image, restart after page faults, no change on faults. Partial: stale tags left by FXCH/FPATAN change across the round trip, and the image holds physical registers instead of ST(i) (violation theorems)."
  },
  {
   "property": "C31",
   "status": "partial",
   "theorems": [
    "Verif.Div.C31_div32",
    "Verif.Div.C31_div16",
    "Verif.Div.C31_div8",
    "Verif.Div.C31_idiv32_partial",
    "Verif.Div.C31_idiv16_partial",
    "Verif.Div.C31_idiv8",
    "Verif.Div.C31_idiv32_violation",
    "Verif.Div.C31_idiv16_violation"
   ],
   "note": "DIV/IDIV of all widths for all operands. Partial: IDIV r/m32 and r/m16 of the most negative dividend by -1 is undefined behaviour in the helper instead of #DE (violation theorems)."
  },
  {
   "property": "C32",
   "status": "partial",
   "theorems": [
    "Verif.Msr.C32_in_bounds",
    "Verif.Msr.C32_frame",
    "Verif.Msr.C32_roundtrip_partial",
    "Verif.Msr.C32_reserved",
    "Verif.Msr.C32_pat_partial",
    "Verif.Msr.C32_privilege",
    "Verif.Msr.C32_read_only",
    "Verif.Msr.C32_ebl",
    "Verif.Msr.C32_mca",
    "Verif.Msr.C32_pat_violation",
    "Verif.Msr.C32_mcg_status_violation",
    "Verif.Msr.C32_ebl_violation",
    "Verif.Msr.C32_apic_violation",
    "Verif.Msr.C32_unknown_violation",
    "Verif.Msr.C32_caps",
    "Verif.Priv.C32_machine_partial"
   ],
   "note": "Round trip, frame, reserved bits, privilege, bounds for all register numbers and values. Partial: violations for PAT field 7, MCG_STATUS, EBL_CR_POWERON, APIC_BASE and unknown registers."
  },
  {
   "property": "C33",
   "status": "partial",
   "theorems": [
    "Verif.Seg.C33_reset",
    "Verif.Seg.C33_core_partial",
    "Verif.Seg.C33_flat_partial",
    "Verif.Seg.C33_far_violation",
    "Verif.Seg.C33_vm86_violation",
    "Verif.Seg.C33_sync_violation"
   ],
   "note": "Proved for every run of the modelled instructions (MOV CRn, LMSW, far transfers, IRET, RET, exceptions): the derived mode bits stay coherent with CR0/EFLAGS and the cached segments (core), and a flat bit set means the base is zero. Partial: witnesses where real-mode far transfers, vm86 entry and external register writes leave the mode bits stale."
  },
  {
   "property": "C34",
   "status": "partial",
   "theorems": [
    "Verif.Seg.C34_cr0_reject",
    "Verif.Seg.C34_cr0_accept",
    "Verif.Seg.C34_cr0_valid",
    "Verif.Seg.C34_cr4_partial",
    "Verif.Seg.C34_pae_violation",
    "Verif.Seg.C34_cr3",
    "Verif.Seg.C34_lmsw"
   ],
   "note": "CR0/CR3/CR4/LMSW accept and reject sets for all values; partial: CR4.PAE accepted without the paging mode, with witness."
  },
  {
   "property": "C35",
   "status": "partial",
   "theorems": [
    "Verif.Seg.C35_cached",
    "Verif.Seg.C35_outside_partial",
    "Verif.Seg.C35_wrap_violation"
   ],
   "note": "Segment registers hold what the descriptor said, for all selectors and descriptors; C35_outside_partial rejects selectors outside the table when the limit computation does not wrap; C35_wrap_violation shows the wrapping case being accepted."
  },
  {
   "property": "C36",
   "status": "partial",
   "theorems": [
    "Verif.Seg.C36_ss",
    "Verif.Seg.C36_ss_accept",
    "Verif.Seg.C36_data_partial",
    "Verif.Seg.C36_data_accept",
    "Verif.Seg.C36_atomic",
    "Verif.Seg.C36_data_violation"
   ],
   "note": "Accept and reject sets of SS loads exactly as specified; data segment loads except the privilege rule, which the code weakens (violation witness: CPL 3 loads a DPL 0 segment with RPL 0); rejected loads change nothing."
  },
  {
   "property": "C37",
   "status": "partial",
   "theorems": [
    "Verif.Seg.C37_partial",
    "Verif.Seg.C37_same_level",
    "Verif.Seg.C37_keep_violation",
    "Verif.Seg.C37_drop_violation"
   ],
   "note": "Far returns to an outer level: CPL, CS, SS as specified; partial: the clearing of too-privileged data segments reads the wrong flag bits (two violation witnesses)."
  },
  {
   "property": "C38",
   "status": "partial",
   "theorems": [
    "Verif.Seg.C38_direct",
    "Verif.Seg.C38_gate_partial",
    "Verif.Seg.C38_gate_violation"
   ],
   "note": "Direct far jumps for all descriptors; through a gate the code uses the operand instead of the gate's target (violation)."
  },
  {
   "property": "C39",
   "status": "partial",
   "theorems": [
    "Verif.Stack.C39_push_partial",
    "Verif.Stack.C39_pop_partial",
    "Verif.Stack.C39_push_pop",
    "Verif.Stack.C39_push16_violation",
    "Verif.Stack.C39_lcall_high_half_violation",
    "Verif.Stack.C39_lcall_partial"
   ],
   "note": "The general stack helpers lose the upper half of ESP for 16 bit stacks (violations proved), so the full property only holds for 32 bit stacks or ESP below 64 KiB (partial theorems)."
  },
  {
   "property": "C40",
   "status": "proved",
   "theorems": [
    "Verif.Seg.C40_table",
    "Verif.Seg.C40_unique",
    "Verif.Seg.C40_terminates"
   ],
   "note": "Handling equals the double fault table for all events, states, tables in memory and access permissions; unique and terminating."
  },
  {
   "property": "C41",
   "status": "partial",
   "theorems": [
    "Verif.Snapshot.C41_save_changes_nothing",
    "Verif.Snapshot.C41_round_trip_partial",
    "Verif.Snapshot.C41_no_stale_code",
    "Verif.Snapshot.C41_options",
    "Verif.Snapshot.C41_halted_violation",
    "Verif.Snapshot.C41_client_buffer_violation",
    "Verif.Snapshot.C41_aligned_ram_violation"
   ],
   "note": "Partial. Proved: taking a snapshot changes nothing; restoring it later into a cpu of the same shape brings back registers, MSRs, lazy flags, FPU/SSE state, RAM, A20 and the time stamp counter for every intermediate history, with no stale code or TLB entry. Not true of the code: the halted state is not restored (support.cpp 132 assigns the field to itself) - C41_halted_violation; a client buffer of the documented ram size is overflowed - C41_client_buffer_violation; an aligned ram buffer is read past its allocation - C41_aligned_ram_violation."
  },
  {
   "property": "C42",
   "status": "partial",
   "theorems": [
    "Verif.Snapshot.C42_bad_header_rejected",
    "Verif.Snapshot.C42_good_header_accepted",
    "Verif.Snapshot.C42_ram_size_violation"
   ],
   "note": "Partial. Proved: wrong id or size rejected with the cpu unchanged, good header accepted. Not true of the code: the size of the ram image is not checked (C42_ram_size_violation). The branch taken when the cpu runs on another thread is in Model/Threads (C43)."
  },
  {
   "property": "C43",
   "status": "partial",
   "theorems": [
    "Verif.Threads.C43_suspended_atomic_partial",
    "Verif.Threads.C43_suspended_returns_partial",
    "Verif.Threads.C43_stopped_partial",
    "Verif.Threads.C43_running_never_returns_violation",
    "Verif.Threads.C43_torn_violation",
    "Verif.Threads.C43_two_at_once_violation",
    "Verif.Threads.C43_halted_violation"
   ],
   "note": "Proved, for every interleaving with any number of threads: a snapshot of a suspended cpu returns and is of one state, and so does one of a cpu that is not being run and whose thread id is clear. Violated (all shown): a snapshot of a running cpu from another thread never returns, after suspend-resume-suspend the guest may execute while the snapshot is written, and of several waiting snapshots two can run at once. cpu_run_until on a cpu that stays halted returns with the thread id still set, after which a snapshot from another thread never returns although nothing runs (C43_halted_violation); from the same thread it fails with internal_error (not modelled)."
  },
  {
   "property": "C44",
   "status": "partial",
   "theorems": [
    "Verif.Threads.C44_suspend_stops_guest_partial",
    "Verif.Threads.C44_resume_resumes_partial",
    "Verif.Threads.C44_resume_after_pause_partial",
    "Verif.Threads.C44_lost_suspend_violation"
   ],
   "note": "Proved, for every interleaving with any number of threads: a suspend of a freely running cpu stops the guest at its next check and it stays stopped; resume resumes. Violated: a suspend right after a resume can be lost for good (C44_lost_suspend_violation)."
  },
  {
   "property": "C45",
   "status": "proved",
   "theorems": [
    "Verif.Ints.C45_line_is_level",
    "Verif.Ints.C45_delivery_needs_if",
    "Verif.Ints.C45_exit_wins",
    "Verif.Ints.C45_exit_kept",
    "Verif.Ints.C45_no_request_lost",
    "Verif.Ints.C45_delivered",
    "Verif.Ints.C45_service_completes",
    "Verif.Ints.C45_sti_shadow"
   ],
   "note": "Event word as an interleaving model: other threads act between any two atomic accesses of cpu_do_int. Proved for all interleavings: the pending hardware interrupt is exactly the line level; delivery only with IF set and the line up when read; exit wins and is kept; deferred region, handler and A20 requests are neither lost nor reordered and a completed service makes them all; STI shadow. Requests with should_int are made from the cpu thread (the API does not claim thread safety for them). Suspension is C43/C44. cpu_restore_snapshot, which clears all events, is not part of the histories."
  },
  {
   "property": "C46",
   "status": "partial",
   "theorems": [
    "Verif.Tc.C46_bytes_partial",
    "Verif.Tc.C46_current_partial",
    "Verif.Tc.C46_cross_page_violation",
    "Verif.Tc.C46_undecodable_violation",
    "Verif.Tc.C46_purge_violation"
   ],
   "note": "Over all histories of runs, jumps, returns, writes, mappings, mode changes and hooks: an executed block has the bytes now in memory (C46_bytes_partial) and is the translation of the current memory (C46_current_partial). Missing: writes across a page, blocks that begin with undecodable bytes and a full cache, for which the code is wrong (three violations, each on a reachable history)."
  },
  {
   "property": "C47",
   "status": "partial",
   "theorems": [
    "Verif.Tc.C47_key_partial",
    "Verif.Tc.C47_fresh_partial",
    "Verif.Tc.C47_alias_violation"
   ],
   "note": "The base, mode, physical address (main loop) and linear address (direct jump) always match; an executed block equals a fresh translation when no code is reached through two linear addresses (C47_fresh_partial). The code looks blocks up by physical address only: C47_alias_violation."
  },
  {
   "property": "C48",
   "status": "partial",
   "theorems": [
    "Verif.Tc.C48_links_live_partial",
    "Verif.Tc.C48_write_unlinks_partial",
    "Verif.Tc.C48_invlpg_partial",
    "Verif.Tc.C48_flush",
    "Verif.Tc.C48_alias_violation"
   ],
   "note": "No jump to a removed block, none to an invalidated page, none after a flush, over all histories outside the C46 defects. C48_alias_violation: a block found through an alias is linked under an address that maps elsewhere."
  },
  {
   "property": "C49",
   "status": "partial",
   "theorems": [
    "Verif.Tc.C49_push",
    "Verif.Tc.C49_pop",
    "Verif.Tc.C49_only_matching",
    "Verif.Tc.C49_lifo",
    "Verif.Tc.C49_balanced",
    "Verif.Tc.C49_dangling_violation",
    "Verif.Tc.C49_live_partial"
   ],
   "note": "The ring refines a bounded stack of 64 entries for pushes and pops from any state; a prediction needs the exact return address, base and mode. C49_live_partial: predicted blocks are cached when the return address lies on the page of the block; C49_dangling_violation: a CALL at the end of a page leaves an entry to a freed block."
  },
  {
   "property": "C50",
   "status": "partial",
   "theorems": [
    "Verif.Pool.C50_partial",
    "Verif.Pool.C50_free_partial",
    "Verif.Pool.C50_reuse",
    "Verif.Pool.C50_leak_violation",
    "Verif.Pool.C50_nested_violation",
    "Verif.Pool.C50_system_partial",
    "Verif.Pool.C50_fits"
   ],
   "note": "Over all histories of translations, releases, purges and code writes (which overwrite the free-list words): the pool partitions into free and used blocks, no block is in use twice, and the cache limit prevents exhaustion. Missing: aborts and nested loops while an uncached block runs, where the code leaks a block (the pool then runs empty, C50_leak_violation) or hands out the memory of running code (C50_nested_violation)."
  },
  {
   "property": "C51",
   "status": "partial",
   "theorems": [
    "Verif.Tc.C51_map",
    "Verif.Tc.C51_not_found",
    "Verif.Tc.C51_called_partial",
    "Verif.Tc.C51_replace_violation",
    "Verif.Tc.C51_two_modes_violation",
    "Verif.Tc.C51_remapped_violation"
   ],
   "note": "The hook table is the map of the last operations over all histories; the callback that is called is the one of the map outside three defects, each shown by a reachable history. An address whose translation faults is not modelled."
  },
  {
   "property": "C52",
   "status": "proved",
   "theorems": [
    "Verif.SetFlags.C52_accepts_documented",
    "Verif.SetFlags.C52_rejected_no_effect",
    "Verif.SetFlags.C52_internal_bits_kept",
    "Verif.SetFlags.C52_last_accepted_in_force"
   ],
   "note": "Proved for every history of cpu_set_flags calls, HLT translations, evictions, internal flag changes and snapshot loads on a single cpu instance (the documented use; the disassembly formatter is a process-wide global)."
  },
  {
   "property": "C53",
   "status": "partial",
   "theorems": [
    "Verif.Clock.C53_not_before",
    "Verif.Clock.C53_returns_partial",
    "Verif.Clock.C53_delay_partial",
    "Verif.Clock.C53_ret_violation",
    "Verif.Clock.C53_halted_waits",
    "Verif.Clock.C53_cached_code_violation",
    "Verif.Clock.C53_exceptions_violation",
    "Verif.Clock.C53_run_afterwards_violation",
    "Verif.Clock.C53_no_deadline"
   ],
   "note": "Never early: proved. Returns in time: proved for guests only ever run with cpu_run_until and for jumps, calls, page ends and HLT; with returns, at most 64 further blocks run past the deadline. Violations: a RET whose target is predicted sees the timeout and goes on; code translated by cpu_run is reused without timer checks; blocks ending with an exception or a pending interrupt never check; cpu_run is rejected forever after one cpu_run_until. Trampolines and the debugger are not modelled."
  },
  {
   "property": "C54",
   "status": "proved",
   "theorems": [
    "Verif.Clock.C54_reads_ideal",
    "Verif.Clock.C54_monotone",
    "Verif.Clock.C54_continues_from_snapshot",
    "Verif.Clock.C54_snapshot_does_not_disturb"
   ],
   "note": "Linux clock. RDTSC equals the unbounded ideal count modulo 2^64 in every history of resets, snapshots and restores with a monotonic host clock. cpu_reset does not clear the offset left by a restored snapshot (see C70)."
  },
  {
   "property": "C55",
   "status": "partial",
   "theorems": [
    "Verif.Watch.C55_data_watchpoints_partial",
    "Verif.Watch.C55_wrap_violation",
    "Verif.Watch.C55_fetch_violation",
    "Verif.Watch.C55_instr_breakpoints_partial",
    "Verif.Watch.C55_io_watchpoints_partial",
    "Verif.Watch.C55_io_moved_violation",
    "Verif.Watch.C55_dr6"
   ],
   "note": "Data watchpoints: exact (trap and DR6 bits) in every history of DR/CR4 writes, client register edits, syncs and accesses, for accesses that do not wrap past 2^32. io: exact right after DR7 is written with ports < 2^16. Instruction breakpoints: exact when no data watchpoint is enabled. Violations: wrapping access missed; a data watchpoint stops execution; io watchpoints moved with CR4.DE clear. That breakpoints on already translated code are only checked when the main loop reaches the block is not modelled."
  },
  {
   "property": "C56",
   "status": "proved",
   "theorems": [
    "Verif.Region.C56_caches_never_outlive_the_map"
   ],
   "note": "Full, with the TLB and the code cache abstracted to what they were filled from."
  },
  {
   "property": "C57",
   "status": "proved",
   "theorems": [
    "Verif.Flags.C57_pushfd",
    "Verif.Flags.C57_pushf",
    "Verif.Flags.C57_lahf",
    "Verif.Flags.C57_sahf",
    "Verif.Flags.C57_popf_arith",
    "Verif.Flags.C57_popf_system",
    "Verif.Flags.C57_pushf_popf"
   ],
   "note": "Full outside virtual 8086 mode (the vm86 variants only add a #GP check and a VIF bit and are not modelled)."
  },
  {
   "property": "C58",
   "status": "proved",
   "theorems": [
    "Verif.Flags.C58_condition",
    "Verif.Flags.C58_complement",
    "Verif.Flags.C58_cmp_unsigned",
    "Verif.Flags.C58_cmp_signed"
   ],
   "note": "Full."
  },
  {
   "property": "C59",
   "status": "proved",
   "theorems": [
    "Verif.Flags.C59_zero_count",
    "Verif.Flags.C59_shl",
    "Verif.Flags.C59_shr",
    "Verif.Flags.C59_sar",
    "Verif.Flags.C59_rcl",
    "Verif.Flags.C59_rcr",
    "Verif.Flags.C59_rol",
    "Verif.Flags.C59_ror",
    "Verif.Flags.C59_rol_ror",
    "Verif.Flags.C59_double"
   ],
   "note": "Every shift, rotate, rotate through carry and double shift of every width, by every count, against a bit-position specification; includes zero counts and counts masked to 5 bits."
  },
  {
   "property": "C60",
   "status": "proved",
   "theorems": [
    "Verif.Flags.C60_daa",
    "Verif.Flags.C60_das",
    "Verif.Flags.C60_bcd_add",
    "Verif.Flags.C60_bcd_sub",
    "Verif.Flags.C60_aaa",
    "Verif.Flags.C60_unpacked_add",
    "Verif.Flags.C60_aas",
    "Verif.Flags.C60_unpacked_sub",
    "Verif.Flags.C60_aam",
    "Verif.Flags.C60_aad",
    "Verif.Flags.C60_aam_aad"
   ],
   "note": "DAA, DAS, AAA, AAM, AAD and the decimal addition/subtraction theorems."
  },
  {
   "property": "C61",
   "status": "partial",
   "theorems": [
    "Verif.BitTest.C61_register",
    "Verif.BitTest.C61_memory_immediate",
    "Verif.BitTest.C61_memory_register_partial",
    "Verif.BitTest.C61_memory_register_violation",
    "Verif.BitTest.C61_fault"
   ],
   "note": "Register and immediate forms proved in full; memory destination with a register offset proved for offsets inside the operand, and the out-of-range case is shown to access the host's stack (violation)."
  },
  {
   "property": "C62",
   "status": "partial",
   "theorems": [
    "Verif.IoBitmap.C62_decision_partial",
    "Verif.IoBitmap.C62_small_tss_partial",
    "Verif.IoBitmap.C62_denied_port_violation",
    "Verif.IoBitmap.C62_allowed_port_violation",
    "Verif.IoBitmap.C62_clobbered_registers_violation",
    "Verif.IoBitmap.C62_supervisor_tss_violation"
   ],
   "note": "The limit check is right; the bitmap is read 103 bytes too far, with user privileges and through host registers a call may clobber: violations proved, the exact computed decision characterised."
  },
  {
   "property": "C63",
   "status": "partial",
   "theorems": [
    "Verif.Sticky.C63_simd_recorded_partial",
    "Verif.Sticky.C63_simd_last_partial",
    "Verif.Sticky.C63_simd_sticky_iff_partial",
    "Verif.Sticky.C63_simd_violation",
    "Verif.Sticky.C63_fpu_recorded_partial",
    "Verif.Sticky.C63_fpu_last_partial",
    "Verif.Sticky.C63_fpu_violation"
   ],
   "note": "Flags are overwritten, not accumulated: proved exactly what is kept (the last instruction's flags) and that the full property fails."
  },
  {
   "property": "C64",
   "status": "proved",
   "theorems": [
    "Verif.EffAddr.C64_linear_address",
    "Verif.EffAddr.C64_offset_only",
    "Verif.EffAddr.C64_direct",
    "Verif.EffAddr.C64_wraps16"
   ],
   "note": "Full, given the decoder's operand and that the is-zero hflags bit implies a zero base."
  },
  {
   "property": "C65",
   "status": "proved",
   "theorems": [
    "Verif.StringOps.C65_element",
    "Verif.StringOps.C65_rep",
    "Verif.StringOps.C65_zero",
    "Verif.StringOps.C65_repeats",
    "Verif.StringOps.C65_restart",
    "Verif.StringOps.C65_fault_state",
    "Verif.StringOps.C65_indices",
    "Verif.StringOps.C65_stos_fill",
    "Verif.StringOps.C65_movs_copy",
    "Verif.StringOps.C65_scas_finds_first",
    "Verif.StringOps.C65_cmps_finds_first_difference"
   ],
   "note": "Every string instruction, element size, address size and direction: number of elements, index registers, restart after any sequence of page faults (C65_restart), and what REP STOS/MOVS, REPNE SCAS, REPE CMPS compute upwards with 32 bit addressing. Segment limits are not checked by the code (nor in the model); interrupts between iterations are not modelled."
  },
  {
   "property": "C66",
   "status": "partial",
   "theorems": [
    "Verif.Stack.C66_push",
    "Verif.Stack.C66_pop",
    "Verif.Stack.C66_lifo",
    "Verif.Stack.C66_high_half",
    "Verif.Stack.C66_leave",
    "Verif.Stack.C66_leave_fault_violation",
    "Verif.Stack.C66_pop_mem_partial",
    "Verif.Stack.C66_pop_mem_violation"
   ],
   "note": "PUSH/POP/LEAVE are proved; POP [mem] addressing through ESP uses the old ESP and LEAVE writes ESP before a pop that faults: both violations are proved."
  },
  {
   "property": "C67",
   "status": "partial",
   "theorems": [
    "Verif.Seg.C67_direct",
    "Verif.Seg.C67_gate_target",
    "Verif.Seg.C67_level_partial",
    "Verif.Seg.C67_conforming_violation"
   ],
   "note": "Far calls: partial because a gate to a conforming segment lowers CPL (violation witness)."
  },
  {
   "property": "C68",
   "status": "proved",
   "theorems": [
    "Verif.Seg.C68_restartable",
    "Verif.Seg.C68_shutdown"
   ],
   "note": "Register state at every fault point of the delivery."
  },
  {
   "property": "C69",
   "status": "partial",
   "theorems": [
    "Verif.Tc.C69_first_instruction_partial",
    "Verif.Tc.C69_later_instruction_violation"
   ],
   "note": "Proved when the block executes its first instruction; the code compares the instruction pointer with the start of the block, so later instructions are not stopped (violation)."
  },
  {
   "property": "C70",
   "status": "partial",
   "theorems": [
    "Verif.New.C70_ram_buffer_partial",
    "Verif.New.C70_rejects_partial",
    "Verif.New.C70_alignment_zero_violation",
    "Verif.New.C70_size_wraps_violation"
   ],
   "note": "Proved for the documented parameters (and that other alignments and size 0 are refused). Violated: alignment 0 is accepted and gives a null ram pointer; a size that wraps around is accepted with a buffer of a few bytes. XBOX_CPU builds not modelled."
  },
  {
   "property": "C71",
   "status": "partial",
   "theorems": [
    "Verif.Ints.C71_halt_partial",
    "Verif.Ints.C71_exit_forgets_halt_violation",
    "Verif.Ints.C71_debug_trap_hangs_violation"
   ],
   "note": "Partial. Proved: without a stop request nothing is executed after HLT before a hardware interrupt is delivered. Not true of the code: after cpu_exit and cpu_run the halted state is forgotten (C71_exit_forgets_halt_violation); a debug trap delivered by the waiting loop does not end the wait and can hang the cpu for ever (C71_debug_trap_hangs_violation)."
  },
  {
   "property": "C72",
   "status": "partial",
   "theorems": [
    "Verif.Dispatch.C72_read_memory_partial",
    "Verif.Dispatch.C72_write_memory_partial",
    "Verif.Dispatch.C72_device_partial",
    "Verif.Dispatch.C72_unmapped_partial",
    "Verif.Dispatch.C72_past_ram_violation",
    "Verif.Dispatch.C72_wide_device_partial",
    "Verif.Dispatch.C72_wide_device_violation",
    "Verif.Dispatch.C72_past_rom_violation",
    "Verif.Dispatch.C72_rom_at_top_hangs_violation",
    "Verif.Dispatch.C72_rom_tail_partial"
   ],
   "note": "Proved, for every map built by the region functions, for accesses that lie in one region (directly or through any chain of aliases), of ram, rom, devices and unmapped memory. Violated at region boundaries inside a page: past ram the ram buffer is read and written, past rom the bytes read as 0, and at the end of rom below 4 GiB a read through an alias never returns. An access of 10 or 16 bytes to a device aborts the emulator (C72_wide_device_partial, C72_wide_device_violation)."
  },
  {
   "property": "C73",
   "status": "partial",
   "theorems": [
    "Verif.Seg.C73_event_frame",
    "Verif.Seg.C73_event_regs",
    "Verif.Seg.C73_iret_resumes",
    "Verif.Seg.C73_iret16_violation",
    "Verif.Seg.C73_vm86_violation"
   ],
   "note": "Proved for events in protected mode through all gates (frame, entry) and for 32 bit IRET at the same or an outer level, for every handler that leaves the frame, NT and VM alone. False for 16 bit frames on 32 bit stacks (ESP is truncated: C73_iret16_violation) and for DF of a vm86 program (C73_vm86_violation). Task gates are not modelled (the code aborts on them)."
  },
  {
   "property": "C74",
   "status": "partial",
   "theorems": [
    "Verif.Seg.C74_bad_gate",
    "Verif.Seg.C74_bad_handler_partial",
    "Verif.Seg.C74_delivered",
    "Verif.Seg.C74_data_violation"
   ],
   "note": "All checks of gate and handler proved, except that the handler's segment is a code segment: the code does not check it (C74_data_violation). Tables that reach past the linear address space are excluded for the handler's descriptor (C35_wrap_violation), and task gates (the code aborts)."
  },
  {
   "property": "C75",
   "status": "proved",
   "theorems": [
    "Verif.Paging.C75_code_pages_stay_watched"
   ],
   "note": "The mark is set by translation for execution and never cleared by it; that the code cache clears it only for pages without code is C46."
  },
  {
   "property": "C76",
   "status": "partial",
   "theorems": [
    "Verif.Stack.C76_enter_partial",
    "Verif.Stack.C76_enter_leave_partial",
    "Verif.Stack.C76_display_partial",
    "Verif.Stack.C76_pusha_popa",
    "Verif.Stack.C76_enter_fault",
    "Verif.Stack.C76_pusha_fault",
    "Verif.Stack.C76_popa_restart",
    "Verif.Stack.C76_enter16_violation",
    "Verif.Stack.C76_display_violation"
   ],
   "note": "16 bit ENTER on a 32 bit stack and displays that wrap on a 16 bit stack are left out and shown to go wrong (violation theorems). A fault may leave partial data below the stack pointer in memory."
  },
  {
   "property": "C77",
   "status": "proved",
   "theorems": [
    "Verif.Fpu.C77_stack_machine",
    "Verif.Fpu.C77_tag",
    "Verif.Fpu.C77_nonwaiting",
    "Verif.Fpu.C77_fldcw",
    "Verif.Fpu.C77_waiting"
   ],
   "note": "For an instruction whose operands are present and which raises no unmasked exception, from every reachable state. The numerical result of the host FPU is an input of the model."
  },
  {
   "property": "C78",
   "status": "partial",
   "theorems": [
    "Verif.Seg.C78_flags_partial",
    "Verif.Seg.C78_to_vm86_partial",
    "Verif.Seg.C78_unprivileged",
    "Verif.Seg.C78_escalation_violation",
    "Verif.Seg.C78_df_violation",
    "Verif.Seg.C78_iopl16_violation"
   ],
   "note": "Partial: the code accepts a popped VM flag at level 3 and takes IOPL and IF from the image (escalation_violation), does not restore DF for vm86 (df_violation), and a 16 bit IRET at level 0 keeps IOPL (iopl16_violation). In 16 bit stacks the frame must not wrap (ItemsReached)."
  },
  {
   "property": "C79",
   "status": "partial",
   "theorems": [
    "Verif.Seg.C79_ltr_partial",
    "Verif.Seg.C79_lldt_partial",
    "Verif.Seg.C79_verr",
    "Verif.Seg.C79_verw",
    "Verif.Seg.C79_verr_load",
    "Verif.Seg.C79_arpl",
    "Verif.Seg.C79_sgdt",
    "Verif.Seg.C79_lgdt",
    "Verif.Seg.C79_sgdt_lgdt",
    "Verif.Seg.C79_str",
    "Verif.Seg.C79_lldt_ti_violation",
    "Verif.Seg.C79_real_violation",
    "Verif.Seg.C79_sgdt_access",
    "Verif.Seg.C79_sldt"
   ],
   "note": "Partial: LLDT accepts selectors with TI set (lldt_ti_violation); LTR, LLDT, VERR, VERW and ARPL are not undefined in real mode (real_violation)."
  },
  {
   "property": "C80",
   "status": "proved",
   "theorems": [
    "Verif.Seg.C80_event",
    "Verif.Seg.C80_iret_resumes"
   ],
   "note": "Proved for the delivery and IRET as modelled; a page fault during delivery is a separate outcome (C40)."
  },
  {
   "property": "C81",
   "status": "partial",
   "theorems": [
    "Verif.Near.C81_jcc",
    "Verif.Near.C81_jcxz",
    "Verif.Near.C81_jmp",
    "Verif.Near.C81_loop",
    "Verif.Near.C81_loop_count",
    "Verif.Near.C81_call",
    "Verif.Near.C81_call_rm",
    "Verif.Near.C81_jmp_rm",
    "Verif.Near.C81_ret",
    "Verif.Near.C81_call_ret",
    "Verif.Near.C81_stdcall",
    "Verif.Near.C81_nested",
    "Verif.Near.C81_far_jmp",
    "Verif.Near.C81_far_call",
    "Verif.Near.C81_far_call_ret",
    "Verif.Near.C81_far_fault_partial",
    "Verif.Near.C81_far_call_fault_violation"
   ],
   "note": "Partial: a far CALL outside protected mode that faults on its second push has already moved SP (C81_far_call_fault_violation). CS limit checks are not done by the code and not claimed."
  },
  {
   "property": "C82",
   "status": "partial",
   "theorems": [
    "Verif.Emit.C82_alu",
    "Verif.Emit.C82_register_operand",
    "Verif.Emit.C82_inc_dec",
    "Verif.Emit.C82_neg",
    "Verif.Emit.C82_not",
    "Verif.Emit.C82_xadd",
    "Verif.Emit.C82_xchg_partial",
    "Verif.Emit.C82_xchg_acc",
    "Verif.Emit.C82_xchg_fault_violation",
    "Verif.Emit.C82_cmpxchg_partial",
    "Verif.Emit.C82_cmpxchg_readonly_violation",
    "Verif.Emit.C82_cmpxchg8b",
    "Verif.Emit.C82_writes",
    "Verif.Emit.C82_sizes"
   ],
   "note": "Partial: XCHG with memory overwrites the register before the store that may fault (C82_xchg_fault_violation); CMPXCHG does not write a differing destination back (C82_cmpxchg_readonly_violation) and its flags are C26's violation. The encoding by asmjit and the address computation (C64) are not part of this model."
  },
  {
   "property": "C83",
   "status": "partial",
   "theorems": [
    "Verif.Seg.C83_entry_partial",
    "Verif.Seg.C83_int_denied",
    "Verif.Seg.C83_redirected_partial",
    "Verif.Seg.C83_selector_violation",
    "Verif.Seg.C83_vif_violation",
    "Verif.Seg.C83_flat_violation",
    "Verif.Seg.C83_redirected_rights"
   ],
   "note": "Partial: CS is loaded with the selector of the gate cut to 12 bits (C83_selector_violation); the redirected INT with IOPL below 3 clears IF where the architecture clears VIF (C83_vif_violation); the flat bit of CS stays as it was after a redirected INT (C83_flat_violation). INT 14 redirected to the program is excluded: it sets CR2 to 0 (C108_redirected_violation)."
  },
  {
   "property": "C84",
   "status": "partial",
   "theorems": [
    "Verif.Emit.C84_scan",
    "Verif.Emit.C84_setcc",
    "Verif.Emit.C84_cmovcc",
    "Verif.Emit.C84_flags",
    "Verif.Emit.C84_bound",
    "Verif.Emit.C84_xlat_partial",
    "Verif.Emit.C84_xlat_violation",
    "Verif.Emit.C84_mul",
    "Verif.Emit.C84_imul",
    "Verif.Emit.C84_convert",
    "Verif.Emit.C84_movx",
    "Verif.Emit.C84_bswap"
   ],
   "note": "Partial: XLAT with 16 bit addresses does not wrap the offset at 64K (C84_xlat_violation); excluded by hypothesis in C84_xlat_partial. Flags the architecture leaves undefined are not constrained."
  },
  {
   "property": "C85",
   "status": "partial",
   "theorems": [
    "Verif.Priv.C85_isolation_partial",
    "Verif.Priv.C85_interrupt_flag_partial",
    "Verif.Priv.C85_confined_partial",
    "Verif.Priv.C85_registers",
    "Verif.Priv.C85_privileged_partial",
    "Verif.Priv.C85_gd",
    "Verif.Priv.C85_debug_regs",
    "Verif.Priv.C85_kernel",
    "Verif.Priv.C85_rdtsc",
    "Verif.Priv.C85_gd_violation",
    "Verif.Priv.C85_iret_violation"
   ],
   "note": "Partial: C85_gd_violation (with DR7.GD set, user accesses raise #DB and change DR6 instead of #GP); C85_iret_violation (IRET with VM set in the image changes IOPL from level 3): programs that enter vm86 mode by IRET are excluded. Isolation is about registers; memory isolation is C16, C21."
  },
  {
   "property": "C86",
   "status": "partial",
   "theorems": [
    "Verif.Priv.C86_cli_partial",
    "Verif.Priv.C86_sti_partial",
    "Verif.Priv.C86_popf_flags",
    "Verif.Priv.C86_popf_partial",
    "Verif.Priv.C86_pushf",
    "Verif.Priv.C86_cli_violation",
    "Verif.Priv.C86_sti_violation",
    "Verif.Priv.C86_popf_violation"
   ],
   "note": "Partial: C86_cli_violation, C86_sti_violation (VME outside vm86 mode, PVI at levels 1 and 2, PVI in vm86 mode are accepted) and C86_popf_violation (a set IF with VIP raises #GP although the popped IF is clear) are excluded by hypothesis. RF, VIF and VIP are not in the POPF table for protected mode; the theorem says they stay."
  },
  {
   "property": "C87",
   "status": "partial",
   "theorems": [
    "Verif.Coproc.C87_architecture",
    "Verif.Coproc.C87_decisions",
    "Verif.Coproc.C87_executed_partial"
   ],
   "note": "Partial: C87_executed_partial inherits the excluded histories of C47 (C47_alias_violation, purge during insertion). C87_architecture and C87_decisions hold for all states. The selector of CS, pushed as a constant by translated far calls, is not part of the key (defect list)."
  },
  {
   "property": "C88",
   "status": "partial",
   "theorems": [
    "Verif.Coproc.C88_gate_partial",
    "Verif.Coproc.C88_available",
    "Verif.Coproc.C88_simd",
    "Verif.Coproc.C88_lazy",
    "Verif.Coproc.C88_priority_violation"
   ],
   "note": "Partial: with TS set and EM set or OSFXSR clear, EMMS and SSE instructions raise #NM instead of #UD (C88_priority_violation); C88_available, C88_simd and C88_lazy hold without exception. That each instruction has the check of its class was read off the source (lines cited at Cop), not proved."
  },
  {
   "property": "C89",
   "status": "partial",
   "theorems": [
    "Verif.Seg.C89_direct_frame",
    "Verif.Seg.C89_gate_frame",
    "Verif.Seg.C89_returns",
    "Verif.Seg.C89_direct_round_trip",
    "Verif.Seg.C89_gate_round_trip_partial",
    "Verif.Seg.C89_real_frame",
    "Verif.Seg.C89_real_returns",
    "Verif.Seg.C89_retf_imm_partial",
    "Verif.Seg.C89_wide_violation",
    "Verif.Seg.C89_small_violation",
    "Verif.Seg.C89_params_violation",
    "Verif.Seg.C89_retf_imm_violation"
   ],
   "note": "Partial: 16 bit calls on a 32 bit stack above 64K truncate ESP (C89_wide_violation), 32 bit calls on a 16 bit stack clear the upper half of ESP (C89_small_violation), parameters are read with the mask of the new stack (C89_params_violation), RETF n to an outer level takes the parameters for SS:ESP (C89_retf_imm_violation). C89_direct_frame, C89_gate_frame, C89_returns, C89_direct_round_trip, C89_real_frame and C89_real_returns are for stacks with room for the frame and non-conforming targets."
  },
  {
   "property": "C90",
   "status": "partial",
   "theorems": [
    "Verif.Seg.C90_instr",
    "Verif.Seg.C90_instr_always",
    "Verif.Seg.C90_exec",
    "Verif.Seg.C90_run",
    "Verif.Seg.C90_event_always",
    "Verif.Seg.C90_user_violation"
   ],
   "note": "Partial with respect to the architecture: the request is not checked for privilege first, so a user program can stop the emulator (C90_user_violation). The theorems C90_instr, C90_instr_always, C90_exec, C90_run and C90_event_always hold without exception for the modelled operations. Aborts outside the model: code outside RAM and ROM (translate.cpp 1298), unknown MSRs, opcodes the translator does not implement."
  },
  {
   "property": "C91",
   "status": "partial",
   "theorems": [
    "Verif.Tc.C91_only_there",
    "Verif.Tc.C91_returns_partial",
    "Verif.Tc.C91_original_partial",
    "Verif.Tc.C91_later_hooks_partial",
    "Verif.Tc.C91_overrun_violation",
    "Verif.Tc.C91_refault_violation"
   ],
   "note": "Returning is proved if no link or predicted return leads to the return address when the call starts. C91_overrun_violation: in the normal case the CALL of the caller is such a prediction, the RET of the original function jumps into the block of the caller and trampoline_call does not return. C91_refault_violation: if fetching the first instruction faults, the hook runs once more instead of the original. Partial also because C47 and C51 are."
  },
  {
   "property": "C92",
   "status": "partial",
   "theorems": [
    "Verif.Seg.C92_event",
    "Verif.Seg.C92_call_partial",
    "Verif.Seg.C92_user_rights_violation",
    "Verif.Seg.C92_not_present_violation",
    "Verif.Seg.C92_conforming_violation"
   ],
   "note": "C92_conforming_violation: a call gate to conforming code raises the level on the caller's stack (see C67). C92_user_rights_violation: in protected mode the TSS is read with the rights of the interrupted level, so with a TSS on a supervisor page no event from level 3 can be delivered. C92_not_present_violation: events report a non-present inner stack as #TS instead of #SS."
  },
  {
   "property": "C93",
   "status": "proved",
   "theorems": [
    "Verif.Seg.C93_mark",
    "Verif.Seg.C93_load",
    "Verif.Seg.C93_jump",
    "Verif.Seg.C93_far_return",
    "Verif.Seg.C93_iret",
    "Verif.Seg.C93_call"
   ],
   "note": "For a far call the theorem says that the mark is the last write; the pushes before it are the subject of C89. Marks during event delivery are part of C83 and C92."
  },
  {
   "property": "C94",
   "status": "proved",
   "theorems": [
    "Verif.Seg.C94_load",
    "Verif.Seg.C94_jump",
    "Verif.Seg.C94_vm86",
    "Verif.Seg.C94_real"
   ],
   "note": "cpu_sync_state outside protected mode is excluded (C33_sync_violation)."
  },
  {
   "property": "C95",
   "status": "proved",
   "theorems": [
    "Verif.Emit.C95_shift"
   ],
   "note": "SHLD and SHRD with a count above the operand size are undefined by the SDM and unconstrained here apart from writing only the destination."
  },
  {
   "property": "C96",
   "status": "partial",
   "theorems": [
    "Verif.Block.HostP.C96_pointer",
    "Verif.Block.HostP.C96_null_partial",
    "Verif.Block.HostP.C96_reads_same",
    "Verif.Block.HostP.C96_store",
    "Verif.Block.HostP.C96_alias_violation"
   ],
   "note": "Violated for alias regions: get_host_ptr does not follow aliases, so an address in an alias of ram gives nullptr/invalid_parameter though it is backed by ram (C96_alias_violation)."
  },
  {
   "property": "C97",
   "status": "proved",
   "theorems": [
    "Verif.Emit.C97_operand",
    "Verif.Emit.C97_alu",
    "Verif.Emit.C97_shift",
    "Verif.Emit.C97_movx"
   ],
   "note": ""
  },
  {
   "property": "C98",
   "status": "partial",
   "theorems": [
    "Verif.Emit.C98_mov_store",
    "Verif.Emit.C98_mov_load",
    "Verif.Emit.C98_mov_imm",
    "Verif.Emit.C98_mov_moffs",
    "Verif.Emit.C98_mov_sel_partial",
    "Verif.Emit.C98_push",
    "Verif.Emit.C98_pop",
    "Verif.Emit.C98_pop_mem_partial",
    "Verif.Emit.C98_leave_partial",
    "Verif.Emit.C98_pusha",
    "Verif.Emit.C98_popa",
    "Verif.Emit.C98_push_pop",
    "Verif.Emit.C98_pusha_popa",
    "Verif.Emit.C98_load_sel_partial",
    "Verif.Emit.C98_lea",
    "Verif.Emit.C98_mov_operand",
    "Verif.Emit.C98_mov_sel_violation",
    "Verif.Emit.C98_load_sel_violation",
    "Verif.Emit.C98_pop_mem_violation",
    "Verif.Emit.C98_leave_violation"
   ],
   "note": "Violations: MOV r16, Sreg writes 32 bits; MOV Sreg, m reads four bytes with 32 bit operands; POP to memory uses ESP before the pop in its address; a faulting LEAVE has already written ESP."
  },
  {
   "property": "C99",
   "status": "partial",
   "theorems": [
    "Verif.Emit.C99_block_partial",
    "Verif.Emit.C99_layout",
    "Verif.Emit.C99_addresses_partial",
    "Verif.Emit.C99_interrupt",
    "Verif.Emit.C99_fault_violation"
   ],
   "note": "The blocks include the instructions of C102 that do not end a block (LAHF, SAHF, PUSHF, the bit tests except of memory with the bit number in a register, DIV, byte IDIV, the decimal adjustments; AAM with base zero excluded)."
  },
  {
   "property": "C100",
   "status": "partial",
   "theorems": [
    "Verif.Emit.C100_jump",
    "Verif.Emit.C100_block_partial"
   ],
   "note": "C100_jump is the property for one instruction, in full. The block is partial only as C99 is (instructions that have changed something when they fault). What follows the store to EIP, the linking of blocks, is the subject of C47 to C49."
  },
  {
   "property": "C101",
   "status": "proved",
   "theorems": [
    "Verif.Emit.C101_string",
    "Verif.Emit.C101_restart"
   ],
   "note": "C101_string and C101_restart. After a fault in a repeated CMPS or SCAS the flags are those of the last repetition done; the manual says processors restore the flags from before the instruction, which the specification does not ask for."
  },
  {
   "property": "C102",
   "status": "partial",
   "theorems": [
    "Verif.Emit.C102_lahf",
    "Verif.Emit.C102_sahf",
    "Verif.Emit.C102_bit_partial",
    "Verif.Emit.C102_bit_violation",
    "Verif.Emit.C102_pushf",
    "Verif.Emit.C102_popf",
    "Verif.Emit.C102_popf_vme_partial",
    "Verif.Emit.C102_popf_vme_violation",
    "Verif.Emit.C102_div",
    "Verif.Emit.C102_idiv_partial",
    "Verif.Emit.C102_idiv_violation",
    "Verif.Emit.C102_aaa",
    "Verif.Emit.C102_aas",
    "Verif.Emit.C102_aad",
    "Verif.Emit.C102_aam",
    "Verif.Emit.C102_daa_das"
   ],
   "note": "C102_lahf, C102_sahf, C102_pushf, C102_popf, C102_div, C102_aaa, C102_aas, C102_aad, C102_aam, C102_daa_das hold in full. C102_bit_partial excludes a memory operand with a register bit number outside the operand (C102_bit_violation: the host's BTx reaches outside the copy on the host stack). C102_popf_vme_partial excludes a pending interrupt with IF set and popped IF clear (C102_popf_vme_violation: #GP where the manual has none). C102_idiv_partial excludes the least dividend by minus one (C102_idiv_violation: the helper divides with overflow)."
  },
  {
   "property": "C103",
   "status": "partial",
   "theorems": [
    "Verif.Ipt.C103_mapping_partial",
    "Verif.Ipt.C103_rom",
    "Verif.Ipt.C103_fault",
    "Verif.Ipt.C103_readonly_partial",
    "Verif.Ipt.C103_progress_partial",
    "Verif.Ipt.C103_code_partial",
    "Verif.Ipt.C103_watch",
    "Verif.Ipt.C103_query",
    "Verif.Ipt.C103_mapping_violation",
    "Verif.Ipt.C103_readonly_violation",
    "Verif.Ipt.C103_progress_violation",
    "Verif.Ipt.C103_code_violation",
    "Verif.Ipt.C103_accessed_violation",
    "Verif.Ipt.C103_info",
    "Verif.Ipt.C103_info_violation"
   ],
   "note": "Full: C103_watch, C103_rom, C103_fault, C103_query (translation works in whole pages). C103_mapping_partial needs regions made of whole pages (C103_mapping_violation: the console's boot rom at 0xFFFFFE00 is read at the wrong offset or from the flash rom). C103_readonly_partial: pages read-only in all their mappings (C103_readonly_violation: a second writable mapping, or a read-only directory entry over a writable page entry). C103_progress_partial (C103_progress_violation: a supervisor write to a read-only page with CR0.WP clear faults for ever). C103_code_partial: fetches that fill the tlb, ram mapped once (C103_code_violation: a fetch that hits the tlb marks the page as code but leaves it writable). C103_accessed_violation: no accessed or dirty bit is set. The bytes of back-patching are not modelled."
  },
  {
   "property": "C104",
   "status": "partial",
   "theorems": [
    "Verif.Emit.C104_whole_page",
    "Verif.Emit.C104_run_partial",
    "Verif.Emit.C104_cache",
    "Verif.Emit.C104_cached_one_page"
   ],
   "note": "Proved for programs of the instructions of C99 and C100 that stay as they are, with CS and the mode unchanged. Missing as in C99/C100: instructions with defects of their own (Legal) and what a faulting XCHG with memory, LEAVE, PUSHA or POPA leaves; self-modifying code and mode changes are the subject of C46-C49 and C87. C104_cache and C104_whole_page are complete."
  },
  {
   "property": "C105",
   "status": "partial",
   "theorems": [
    "Verif.Emit.C105_port",
    "Verif.Emit.C105_privileged",
    "Verif.Emit.C105_bitmap_partial",
    "Verif.Emit.C105_string_partial",
    "Verif.Emit.C105_outs",
    "Verif.Emit.C105_outs_restart",
    "Verif.Emit.C105_ins_restart_violation"
   ],
   "note": "C105_port, C105_privileged, C105_outs and C105_outs_restart are complete. C105_bitmap_partial assumes that the calls of the memory helpers keep R10 and R11, which the calling convention does not promise (C62). C105_string_partial excludes what an INS that faults has read: C105_ins_restart_violation shows a faulting INS, executed again, reads the port twice and loses the first value, because the port is read before the store is known to be possible."
  },
  {
   "property": "C106",
   "status": "proved",
   "theorems": [
    "Verif.Emit.C106_link",
    "Verif.Emit.C106_ret_words",
    "Verif.Emit.C106_words",
    "Verif.Emit.C106_ret",
    "Verif.Emit.C106_invalid",
    "Verif.Emit.C106_jumpTo",
    "Verif.Emit.C106_full"
   ],
   "note": "C106_link, C106_ret_words: the emitted code, for all targets and contents. C106_words, C106_ret, C106_jumpTo, C106_full: it agrees with the jump table and buffer of Model/Tc.lean, which C46 to C49 are about. A RET does not look at the timer's answer (C53): in C106_ret_words the result is the same for both answers."
  },
  {
   "property": "C107",
   "status": "partial",
   "theorems": [
    "Verif.Simd.C107_movaps_load",
    "Verif.Simd.C107_movaps_store",
    "Verif.Simd.C107_xor",
    "Verif.Simd.C107_shuffle",
    "Verif.Simd.C107_unpack",
    "Verif.Simd.C107_movh_load",
    "Verif.Simd.C107_movh_store",
    "Verif.Simd.C107_movss_load",
    "Verif.Simd.C107_movss_store",
    "Verif.Simd.C107_emms",
    "Verif.Simd.C107_movq_load",
    "Verif.Simd.C107_movq_store",
    "Verif.Simd.C107_arith_partial",
    "Verif.Simd.C107_rcp_partial",
    "Verif.Simd.C107_cvt",
    "Verif.Simd.C107_unaligned_violation",
    "Verif.Simd.C107_sub_violation"
   ],
   "note": "The results of floating point operations on lanes are an input. Partial because of defects: packed arithmetic accepts memory operands that are not at a multiple of 16 (C107_unaligned_violation), SUBPS and SUBSS run under the host's MXCSR, so that the guest's rounding is ignored and an unmasked exception is not reported (C107_sub_violation). Flags of earlier operations are lost (C63). With CR0.NE clear the translator aborts on any waiting FPU or MMX instruction (jit.cpp 2692-2705), so the code is that of CR0.NE set."
  },
  {
   "property": "C108",
   "status": "partial",
   "theorems": [
    "Verif.Seg.C108_others",
    "Verif.Seg.C108_page_fault",
    "Verif.Seg.C108_last_fault_partial",
    "Verif.Seg.C108_int14_violation",
    "Verif.Seg.C108_redirected_violation",
    "Verif.Seg.C108_double_violation"
   ],
   "note": "Partial because of defects: INT 14 and hardware interrupts with vector 14 set CR2 to 0, in protected mode and when redirected in vm86 mode (C108_int14_violation, C108_redirected_violation), and a page fault promoted to a double fault is not recorded (C108_double_violation)."
  },
  {
   "property": "C109",
   "status": "partial",
   "theorems": [
    "Verif.Step.C109_step_partial",
    "Verif.Step.C109_cached_violation",
    "Verif.Step.C109_twice_violation",
    "Verif.Step.C109_resume_violation",
    "Verif.Step.C109_dr6_violation",
    "Verif.Step.C109_revived_violation"
   ],
   "note": "Partial because of defects: a breakpoint set inside a block already cached is not seen (C109_cached_violation); TF and a data watchpoint in one instruction raise #DB twice (C109_twice_violation); an IRET run with RF set loses the RF it loads (C109_resume_violation); a dismissed debug trap comes back if the handler has a breakpoint (C109_revived_violation); bits 0-3 of DR6 are set when the breakpoint is translated, not when it is reached (C109_dr6_violation). HLT, REP and the debugger's own stepping are not modelled."
  },
  {
   "property": "C110",
   "status": "partial",
   "theorems": [
    "Verif.FpuMem.C110_store_partial",
    "Verif.FpuMem.C110_underflow_partial",
    "Verif.FpuMem.C110_load",
    "Verif.FpuMem.C110_pointers_partial",
    "Verif.FpuMem.C110_fninit",
    "Verif.FpuMem.C110_fault_violation",
    "Verif.FpuMem.C110_address_violation",
    "Verif.FpuMem.C110_pointers_violation",
    "Verif.FpuMem.C110_operand"
   ],
   "note": "Partial because of defects: a faulting store has already cleared C1 and set the pointers (C110_fault_violation); the address of a masked underflow is taken from EDX after a call that may change it (C110_address_violation); FDP is the linear address and FDS is DS without a prefix, even for operands in the stack segment (C110_pointers_violation)."
  },
  {
   "property": "C111",
   "status": "partial",
   "theorems": [
    "Verif.EmitFpu.C111_code_partial",
    "Verif.EmitFpu.C111_result_partial",
    "Verif.EmitFpu.C111_store",
    "Verif.EmitFpu.C111_control",
    "Verif.EmitFpu.C111_far_violation",
    "Verif.EmitFpu.C111_denormal_violation"
   ],
   "note": "Partial because of defects: on an operand out of range FSIN, FCOS and FSINCOS jump to the end without restoring the host's control word and with a host register in use (C111_far_violation); FLD of a 32 or 64 bit number looks at invalid operation only, so an unmasked denormal exception is not reported (C111_denormal_violation)."
  },
  {
   "property": "C112",
   "status": "partial",
   "theorems": [
    "Verif.Seg.C112_not_taken",
    "Verif.Seg.C112_enters",
    "Verif.Seg.C112_resumes",
    "Verif.Seg.C112_refused_partial",
    "Verif.Seg.C112_vm86_partial",
    "Verif.Seg.C112_real",
    "Verif.Seg.C112_restart_violation",
    "Verif.Seg.C112_monitor_violation"
   ],
   "note": "Partial because of a defect: EIP is set to the next instruction before cpu_raise_exception, so the exception of a refused interrupt is raised with EIP behind the instruction (C112_restart_violation for every refused interrupt, C112_monitor_violation for a vm86 program)."
  },
  {
   "property": "C113",
   "status": "proved",
   "theorems": [
    "Verif.Seg.C113_atomic",
    "Verif.Seg.C113_loads",
    "Verif.Seg.C113_segment",
    "Verif.Seg.C113_real"
   ],
   "note": "Segment limits are not checked by the emulator (nowhere; see C72)."
  },
  {
   "property": "C114",
   "status": "partial",
   "theorems": [
    "Verif.Fpu.C114_masked_partial",
    "Verif.Fpu.C114_fcom",
    "Verif.Fpu.C114_fxch_violation",
    "Verif.Fpu.C114_fld_violation",
    "Verif.Fpu.C114_arith_violation"
   ],
   "note": "Wrong in the code: FLD of an empty register, arithmetic with a destination other than ST(0) or a pop, FXCH with one empty register (not exchanged)."
  }
 ]
}