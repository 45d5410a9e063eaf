{"id": "C01", "title": "Every address resolves to the region that contains it", "statement": "After any sequence of mem_init_region_ram/io/alias/rom and mem_destroy_region calls that take effect, a lookup of any physical address (or port) finds exactly one region and that region's [start,end] contains the address; the regions tile the whole space without gap or overlap.", "quantifier": "all finite histories of region creations and destructions with arbitrary start/size, all addresses, memory space (32 bit) and port space (16 bit)", "why_tests_cant": "the history space is unbounded; the failing histories need a particular boundary coincidence (a new range ending exactly on the first byte of a longer neighbour)", "anchors": ["lib86cpu/as.hpp: address_space::insert, erase, search, split, get_it", "lib86cpu/interface.cpp: mem_init_region_*, mem_destroy_region"]}
{"id": "C02", "title": "A new region owns its range and leaves the rest alone", "statement": "After a region is created over [start, start+size-1] every address in that range is served by the new region (type, handlers, opaque, rom pointer) and every address outside is served exactly as before.", "quantifier": "all tiled address spaces, all new ranges, all addresses", "why_tests_cant": "needs every relative position of the new range with respect to every existing tiling", "anchors": ["lib86cpu/as.hpp: insert", "lib86cpu/interface.cpp: mem_init_region_ram, mem_init_region_io, mem_init_region_rom, mem_init_region_alias"]}
{"id": "C03", "title": "Destroying a range unmaps exactly that range", "statement": "mem_destroy_region makes exactly the addresses of the given range unmapped and does not change who serves any other address, including when the new unmapped range is merged with unmapped neighbours.", "quantifier": "all tiled address spaces, all ranges, all addresses", "why_tests_cant": "merging and splitting interact with every possible neighbour configuration", "anchors": ["lib86cpu/as.hpp: erase", "lib86cpu/interface.cpp: mem_destroy_region"]}
{"id": "C04", "title": "Region size arithmetic and parameter checks", "statement": "Region creation rejects size 0 (and a null rom buffer, and port ranges leaving 0..65535, and update != 0 without should_int) with invalid_parameter and without any effect; an accepted size is clamped so that the region covers exactly the addresses start..min(start+size-1, max).", "quantifier": "all 32 bit starts and all 64 bit sizes", "why_tests_cant": "2^96 argument combinations, with wrap-around of the 64 bit sum", "anchors": ["lib86cpu/interface.cpp: mem_init_region_ram, mem_init_region_io, mem_init_region_rom, mem_init_region_alias, mem_destroy_region"]}
{"id": "C05", "title": "Alias regions forward to the original bytes", "statement": "An access at offset o inside an alias created by mem_init_region_alias(alias_start, ori_start, size) reaches the byte that an access at ori_start+o reaches, through chains of aliases of any depth, and all resolvers (block api, guest accesses, TLB fill) agree.", "quantifier": "all alias chains of any depth, all offsets, all later region changes", "why_tests_cant": "chain depth is unbounded and the answer depends on later splits of the alias or of the original", "anchors": ["lib86cpu/core/memory_management.hpp: AS_RESOLVE_ALIAS", "lib86cpu/core/memory_management.cpp: correct_phys_addr", "lib86cpu/interface.cpp: mem_init_region_alias", "lib86cpu/as.hpp: split"]}
{"id": "C06", "title": "Carving a region keeps the backing bytes of what remains", "statement": "When part of a ram or rom region is replaced or destroyed, each surviving address keeps the same backing host byte.", "quantifier": "all histories, all surviving addresses", "why_tests_cant": "depends on every split history", "anchors": ["lib86cpu/as.hpp: split", "lib86cpu/core/memory_management.hpp: get_ram_host_ptr, get_rom_host_ptr"]}
{"id": "C07", "title": "Deferred region changes equal immediate ones", "statement": "Region changes requested with should_int=true leave the memory map untouched until the guest services the interrupt, and then yield the map that applying the same requests immediately in the same order yields; nothing is lost or applied twice, whatever other interrupts are pending.", "quantifier": "all request sequences, all combinations of pending interrupts", "why_tests_cant": "all interleavings of requests with interrupt servicing", "anchors": ["lib86cpu/interface.cpp: mem_init_region_*", "lib86cpu/core/translate.cpp: cpu_do_int"]}
{"id": "C08", "title": "Handler updates take effect atomically at the interrupt, in order", "statement": "mem_init_region_io with update=1/2/3 changes the handlers of the region owning start only when CPU_HANDLER_INT is serviced; the last request for a region wins, null callbacks are replaced by defaults, other regions and all bounds are unchanged.", "quantifier": "all sequences of update requests and services", "why_tests_cant": "unbounded request sequences, all region maps", "anchors": ["lib86cpu/interface.cpp: mem_init_region_io", "lib86cpu/core/translate.cpp: cpu_do_int"]}
{"id": "C09", "title": "Port I/O goes to the owning handler only", "statement": "io_read_N/io_write_N (and guest IN/OUT) on a port call exactly the width-N callback of the region that owns the port with that port number, and an unmapped port reads as zero and discards writes; a null callback is never called.", "quantifier": "all port maps, ports, widths and values", "why_tests_cant": "every port map is a history of creations and destructions", "anchors": ["lib86cpu/interface.cpp: io_read_8/16/32, io_write_8/16/32", "lib86cpu/core/memory_management.hpp: as_io_dispatch_read, as_io_dispatch_write"]}
{"id": "C10", "title": "A20 gate: last request wins and only bit 20 is affected", "statement": "After any sequence of cpu_set_a20 calls and interrupt services, once no request is pending the address mask is the one requested last; with closed=true addresses are unchanged and with closed=false exactly bit 20 of physical addresses is forced to zero.", "quantifier": "all request/service interleavings, all addresses", "why_tests_cant": "interleavings of requests with services are unbounded", "anchors": ["lib86cpu/interface.cpp: cpu_set_a20", "lib86cpu/core/translate.cpp: cpu_do_int"]}
{"id": "C11", "title": "Block write then block read returns the written bytes", "statement": "If mem_write_block_phys succeeds on ram, a mem_read_block_phys of the same range succeeds and returns the same bytes, across any number of pages and regions; bytes outside the range are unchanged.", "quantifier": "all addresses, sizes and contents, all region maps", "why_tests_cant": "unbounded sizes and maps; chunk boundaries matter", "anchors": ["lib86cpu/interface.cpp: mem_read_block, mem_write_handler"]}
{"id": "C12", "title": "actual_size is the exact length of the transferred prefix", "statement": "Every block read/write/fill reports in actual_size the number of bytes transferred before the first failing page chunk, success iff it equals size, and it has no effect beyond that prefix.", "quantifier": "all addresses, sizes and region maps", "why_tests_cant": "failure can happen at any chunk of any map", "anchors": ["lib86cpu/interface.cpp: mem_read_block, mem_write_handler"]}
{"id": "C13", "title": "Rom is never modified by block writes", "statement": "mem_write_block/mem_fill_block over rom report success and modify no rom byte and no ram byte for these chunks.", "quantifier": "all maps, addresses, sizes, contents", "why_tests_cant": "any mixture of ram, rom and alias chunks", "anchors": ["lib86cpu/interface.cpp: mem_write_handler"]}
{"id": "C14", "title": "Fill equals writing a constant block", "statement": "mem_fill_block(addr, size, val) has the same status, actual_size and memory effect as mem_write_block with size copies of the low byte of val.", "quantifier": "all addresses, sizes, values and maps", "why_tests_cant": "equivalence over all memory states", "anchors": ["lib86cpu/interface.cpp: mem_write_handler"]}
{"id": "C15", "title": "With paging off virtual addresses are physical addresses", "statement": "When CR0.PG is clear every translation returns the virtual address itself, never faults and changes no memory.", "quantifier": "all addresses, access kinds and privilege levels", "why_tests_cant": "2^32 addresses times all states", "anchors": ["lib86cpu/core/memory_management.cpp: mmu_translate_addr, tlb_get_*_addr"]}
{"id": "C16", "title": "Page translation obeys the x86 permission rules", "statement": "A translation succeeds iff PDE and PTE are present and the combined user/supervisor and read/write rights (with CR0.WP) allow the access at the current privilege; otherwise #PF is raised and nothing is written.", "quantifier": "all page tables, addresses, CPL, WP, access kinds", "why_tests_cant": "all combinations of PDE/PTE bits and addresses", "anchors": ["lib86cpu/core/memory_management.cpp: mmu_translate_addr, check_page_access, check_page_privilege"]}
{"id": "C17", "title": "Page fault error codes are architectural", "statement": "A page fault reports bit0 = protection violation, bit1 = write, bit2 = user (CPL 3), and CR2 = the faulting address.", "quantifier": "all faulting translations", "why_tests_cant": "all combinations of page-table contents", "anchors": ["lib86cpu/core/memory_management.cpp: mmu_translate_addr", "lib86cpu/core/translate.cpp: cpu_raise_exception"]}
{"id": "C18", "title": "Accessed and dirty bits are maintained", "statement": "After a successful access the accessed bits of PDE and PTE are set, and after a successful write the dirty bit of the mapping entry is set; translation changes no other bit in memory.", "quantifier": "all accesses (guest and block api), all TLB states", "why_tests_cant": "depends on TLB history", "anchors": ["lib86cpu/core/memory_management.cpp: mmu_translate_addr, tlb_get_write_addr"]}
{"id": "C19", "title": "Translated address is frame plus offset", "statement": "A successful translation of va returns the frame base of the 4 KiB (or 4 MiB with CR4.PSE) page plus the page offset.", "quantifier": "all page tables and addresses", "why_tests_cant": "2^32 addresses x all page tables", "anchors": ["lib86cpu/core/memory_management.cpp: mmu_translate_addr"]}
{"id": "C20", "title": "TLB index and tag identify the virtual page", "statement": "A TLB hit for an address is only possible on an entry filled for the same virtual page; two different pages never match the same entry.", "quantifier": "all pairs of addresses, both TLBs", "why_tests_cant": "pairs of 2^20 pages", "anchors": ["lib86cpu/core/memory_management.cpp: tlb_fill, tlb_get_read_addr, tlb_get_write_addr, tlb_get_code_addr", "lib86cpu/core/internal.hpp"]}
{"id": "C21", "title": "TLB hit answers equal a fresh page walk", "statement": "As long as the page tables are unchanged since the fill (or the affected entries were invalidated), reads and writes served by a TLB hit use the same physical address and permission decision as a fresh walk would.", "quantifier": "all access histories at all privilege levels", "why_tests_cant": "unbounded histories of fills, hits and evictions", "anchors": ["lib86cpu/core/memory_management.cpp: tlb_fill, mem_read_helper, mem_write_helper, tlb_gen_access_mask"]}
{"id": "C22", "title": "tlb_invalidate removes the page from the TLBs", "statement": "After tlb_invalidate(addr) (or INVLPG) no access to that page is served from a TLB entry filled before.", "quantifier": "all TLB states reachable by any access history", "why_tests_cant": "needs a history that creates duplicate entries", "anchors": ["lib86cpu/interface.cpp: tlb_invalidate", "lib86cpu/core/memory_management.cpp: tlb_fill"]}
{"id": "C23", "title": "Global pages survive non-global flushes and nothing else does", "statement": "A non-global flush drops every valid entry without the global bit and keeps exactly those with it; a full flush drops all.", "quantifier": "all TLB contents", "why_tests_cant": "2048 sets times all entries", "anchors": ["lib86cpu/core/memory_management.cpp: tlb_flush"]}
{"id": "C24", "title": "Page-crossing accesses equal byte accesses", "statement": "A guest 2, 4, 8, 10 or 16 byte read or write that crosses a page returns/stores the same bytes as individual byte accesses at consecutive virtual addresses, with little-endian composition.", "quantifier": "all addresses, sizes, mappings and contents", "why_tests_cant": "all addresses and all pairs of mappings", "anchors": ["lib86cpu/core/memory_management.hpp: mem_read_slow, mem_write_slow"]}
{"id": "C25", "title": "EFLAGS write/read round trip", "statement": "write_eflags(v) followed by read_eflags returns v with reserved bits forced to their architectural values; with reg32=false the upper half is preserved.", "quantifier": "all 2^32 values and all previous states", "why_tests_cant": "2^32 values times 2^96 lazy states", "anchors": ["lib86cpu/interface.cpp: read_eflags, write_eflags"]}
{"id": "C26", "title": "Lazy flags equal architectural flags", "statement": "After an ADD/ADC/SUB/SBB/CMP/logic/INC/DEC/NEG of any width the flags reported by read_eflags are the architectural CF, PF, AF, ZF, SF and OF of the operation.", "quantifier": "all operand pairs and widths", "why_tests_cant": "2^64 operand pairs per operation", "anchors": ["lib86cpu/core/emitter/x64/jit.cpp: set_flags_sum, set_flags_sub, set_flags", "lib86cpu/interface.cpp: read_eflags"]}
{"id": "C27", "title": "Helper-changed single flags leave the others alone", "statement": "Operations that change only ZF (VERR/VERW/ARPL) or only IF/other system flags leave all other arithmetic flags as they were.", "quantifier": "all lazy flag states", "why_tests_cant": "2^64 lazy states", "anchors": ["lib86cpu/core/instructions.cpp: verrw_helper", "lib86cpu/core/helpers.cpp: write_eflags_helper"]}
{"id": "C28", "title": "FPU tag and status words round trip", "statement": "read_ftags after write_ftags(v) returns v, read_fstatus after write_fstatus(v) returns v, and the top-of-stack used by FPU instructions is the TOP field of v.", "quantifier": "all 2^16 values and all states", "why_tests_cant": "interaction with any previous FPU state", "anchors": ["lib86cpu/interface.cpp: read_ftags, write_ftags, read_fstatus, write_fstatus"]}
{"id": "C29", "title": "FPU stack push and pop are inverse and faults are masked per control word", "statement": "Push decrements TOP modulo 8 and marks the register used, pop marks it empty and increments TOP; pushing on a full slot or popping an empty one raises the invalid/stack-fault status and never corrupts another register.", "quantifier": "all FPU states and operation sequences", "why_tests_cant": "unbounded sequences of pushes and pops", "anchors": ["lib86cpu/core/fpu.cpp"]}
{"id": "C30", "title": "FXSAVE/FXRSTOR round trip", "statement": "Saving the FPU/SSE state with FXSAVE and restoring it with FXRSTOR reproduces the observable FPU/SSE state.", "quantifier": "all FPU/SSE states", "why_tests_cant": "2^(thousands of bits) states", "anchors": ["lib86cpu/core/fpu_instructions.cpp"]}
{"id": "C31", "title": "DIV/IDIV deliver quotient and remainder or #DE", "statement": "For every dividend and divisor DIV/IDIV of each width either raises #DE (divisor zero or quotient out of range) leaving registers unchanged, or stores the truncated quotient and the remainder; there is no host crash.", "quantifier": "all operands of all three widths", "why_tests_cant": "2^96 operand combinations", "anchors": ["lib86cpu/core/instructions.cpp: divd_helper, divw_helper, divb_helper, idivd_helper, idivw_helper, idivb_helper"]}
{"id": "C32", "title": "MSR write/read round trip and reserved bits", "statement": "WRMSR of an implemented register with no reserved bit set succeeds and RDMSR returns the written value; reserved bits or unknown registers raise #GP and change nothing.", "quantifier": "all register numbers and all 64 bit values", "why_tests_cant": "2^96 combinations", "anchors": ["lib86cpu/core/instructions.cpp: msr_read_helper, msr_write_helper"]}
{"id": "C33", "title": "Cached mode bits always agree with the registers", "statement": "After any segment load, control register write, mode switch, exception delivery, IRET or cpu_sync_state, the mode bits under which code is translated (CPL, operand size, stack size, PE, flat-segment bits) agree with the architectural registers.", "quantifier": "all instruction histories", "why_tests_cant": "the divergence depends on a history of mode switches", "anchors": ["lib86cpu/core/instructions.cpp: write_seg_reg_helper, update_crN_helper, iret_real_helper", "lib86cpu/core/translate.cpp: cpu_raise_exception", "lib86cpu/interface.cpp: cpu_sync_state"]}
{"id": "C34", "title": "CR0/CR4 writes reject invalid combinations and apply the rest", "statement": "MOV CR0 with PG and not PE, or NW and not CD, raises #GP and changes nothing; an accepted write is what a later read returns; paging-relevant changes flush the TLB.", "quantifier": "all 32 bit values and previous states", "why_tests_cant": "2^64 combinations", "anchors": ["lib86cpu/core/instructions.cpp: update_crN_helper"]}
{"id": "C35", "title": "Segment descriptor decode", "statement": "Base, limit and flags cached for a segment equal the fields of the descriptor read from memory, with page granularity scaling; access outside the table limit raises #GP with the selector.", "quantifier": "all 64 bit descriptors, selectors and table limits", "why_tests_cant": "2^64 descriptors", "anchors": ["lib86cpu/core/helpers.cpp: read_seg_desc_helper, read_seg_desc_base_helper, read_seg_desc_limit_helper"]}
{"id": "C36", "title": "Segment loads enforce privilege", "statement": "Loading SS succeeds only with RPL = DPL = CPL, a writable data segment, present; loading DS/ES/FS/GS requires a readable segment with sufficient privilege; a failing load changes no register.", "quantifier": "all descriptors, selectors and CPLs", "why_tests_cant": "all combinations of descriptor bits", "anchors": ["lib86cpu/core/helpers.cpp: check_ss_desc_priv_helper, check_seg_desc_priv_helper", "lib86cpu/core/instructions.cpp: mov_sel_pe_helper"]}
{"id": "C37", "title": "Returning to an outer level nulls segments that are too privileged", "statement": "After RETF/IRET to an outer privilege level, DS, ES, FS and GS that hold data or non-conforming code segments with DPL < new CPL contain the null selector.", "quantifier": "all register contents at return time", "why_tests_cant": "all descriptor flag combinations", "anchors": ["lib86cpu/core/instructions.cpp: validate_seg_helper, lret_pe_helper"]}
{"id": "C38", "title": "Far jump through a call gate goes to the gate's target", "statement": "JMP FAR through a call gate transfers control to the code selector and offset stored in the gate.", "quantifier": "all gates and targets", "why_tests_cant": "all gate contents", "anchors": ["lib86cpu/core/instructions.cpp: ljmp_pe_helper"]}
{"id": "C39", "title": "Stack push/pop helpers are inverse and respect stack size", "statement": "Pushing n values and popping n values returns them in reverse order and restores (E)SP; only SP changes on 16 bit stacks and the full ESP is used on 32 bit stacks.", "quantifier": "all stack pointers, sizes and values", "why_tests_cant": "wrap-around stack pointers", "anchors": ["lib86cpu/core/helpers.cpp: stack_push_helper, stack_pop_helper"]}
{"id": "C40", "title": "Double and triple faults follow the architectural table and terminate", "statement": "An exception raised while delivering another one is delivered serially, promoted to #DF, or shuts down exactly per the contributory/page-fault table; nested delivery always terminates.", "quantifier": "all exception sequences", "why_tests_cant": "unbounded chains of nested faults", "anchors": ["lib86cpu/core/translate.cpp: check_dbl_exp, cpu_raise_exception"]}
{"id": "C41", "title": "Snapshot/restore round trip", "statement": "cpu_take_snapshot followed by any execution and cpu_restore_snapshot restores registers, flags, MSRs, halted state, A20, TSC, ram and debug watchpoints of the snapshot time.", "quantifier": "all machine states and intervening histories", "why_tests_cant": "all machine states", "anchors": ["lib86cpu/support.cpp: cpu_save_state, cpu_load_state", "lib86cpu/interface.cpp: cpu_take_snapshot, cpu_restore_snapshot"]}
{"id": "C42", "title": "A rejected snapshot changes nothing", "statement": "cpu_restore_snapshot with a wrong id or size returns invalid_parameter and leaves the cpu state unchanged.", "quantifier": "all states and all snapshot headers", "why_tests_cant": "all states", "anchors": ["lib86cpu/support.cpp: cpu_load_state"]}
{"id": "C43", "title": "Snapshots from any thread complete", "statement": "cpu_take_snapshot/cpu_restore_snapshot called from any thread, with the cpu running, suspended or stopped, returns, and the snapshot is taken while the guest is not executing.", "quantifier": "all thread interleavings", "why_tests_cant": "schedules cannot be enumerated by tests", "anchors": ["lib86cpu/interface.cpp: cpu_snapshot_handler, cpu_suspend, cpu_resume", "lib86cpu/core/translate.cpp: cpu_do_int"]}
{"id": "C44", "title": "No suspend request is lost", "statement": "After cpu_suspend the guest stops executing until cpu_resume is called, in every interleaving of suspends, resumes and the cpu loop.", "quantifier": "all thread interleavings", "why_tests_cant": "needs a specific interleaving of three steps", "anchors": ["lib86cpu/interface.cpp: cpu_suspend, cpu_resume", "lib86cpu/core/translate.cpp: cpu_do_int"]}
{"id": "C45", "title": "Hardware interrupts are delivered only with IF set and are not lost", "statement": "A raised interrupt line stays pending until it is serviced or lowered; it is serviced only when IF is set; exit requests win over every other event; servicing one event never drops another.", "quantifier": "all sequences of raise/lower/service in all flag states", "why_tests_cant": "all interleavings of atomics", "anchors": ["lib86cpu/core/translate.cpp: cpu_do_int", "lib86cpu/core/emitter/x64/jit.cpp: raise_int_fn, clear_int_fn, read_int_fn"]}
{"id": "C46", "title": "No stale code after a write to code", "statement": "After guest or api code writes bytes that were translated, no translated block containing the old bytes is executed again.", "quantifier": "all write addresses/sizes and all sets of translated blocks", "why_tests_cant": "all overlaps of writes and blocks including page-crossing writes", "anchors": ["lib86cpu/core/translate.cpp: tc_invalidate", "lib86cpu/core/memory_management.hpp: mem_write_slow", "lib86cpu/interface.cpp: mem_write_handler"]}
{"id": "C47", "title": "Executing a cached block equals executing fresh code", "statement": "A cached block is reused only for the same virtual address, physical address, code segment base and cpu mode.", "quantifier": "all cache histories", "why_tests_cant": "needs two mappings of one page", "anchors": ["lib86cpu/core/translate.cpp: tc_cache_search, tc_cache_insert, tc_hash"]}
{"id": "C48", "title": "Direct links between blocks are removed when a target is invalidated", "statement": "After invalidation, unmapping or TLB invalidation of a page no remaining translated block jumps directly to a dropped block.", "quantifier": "all link/unlink histories", "why_tests_cant": "unbounded histories", "anchors": ["lib86cpu/core/translate.cpp: tc_link_jmp, tc_unlink, tc_unlink_page, tc_unlink_all"]}
{"id": "C49", "title": "Return address prediction is only a hint", "statement": "The return stack predictor returns a block only if it matches the actual return address and mode; it behaves as a bounded LIFO.", "quantifier": "all call/return sequences", "why_tests_cant": "unbounded call depth with wrap-around of a 64 entry ring", "anchors": ["lib86cpu/core/helpers.cpp: rsb_push, rsb_pop, rsb_flush"]}
{"id": "C50", "title": "Code memory blocks are never handed out twice", "statement": "The code allocator never returns a block that is still in use, every freed block becomes available again, and the block cache limit prevents exhaustion.", "quantifier": "all alloc/free sequences", "why_tests_cant": "unbounded histories", "anchors": ["lib86cpu/core/allocator.cpp"]}
{"id": "C51", "title": "Hooks behave as a map from address to callback", "statement": "After any sequence of hook_add/hook_remove the hooked addresses and callbacks are those of the last successful operations; hook_remove of a missing hook returns not_found and changes nothing; failed translation leaves hooks unchanged.", "quantifier": "all operation sequences", "why_tests_cant": "unbounded sequences", "anchors": ["lib86cpu/interface.cpp: hook_add, hook_remove"]}
{"id": "C52", "title": "Flag validation in cpu_set_flags", "statement": "cpu_set_flags accepts exactly the documented flag combinations, rejects others without effect, and an accepted value fully determines the new user-visible options.", "quantifier": "all 2^32 flag values and previous states", "why_tests_cant": "2^64 combinations", "anchors": ["lib86cpu/interface.cpp: cpu_set_flags"]}
{"id": "C53", "title": "Timeout: cpu_run_until returns after the deadline", "statement": "cpu_run_until returns with timeout status once the elapsed time reaches the requested timeout, not before; a later cpu_run is possible.", "quantifier": "all clock readings", "why_tests_cant": "all clock schedules", "anchors": ["lib86cpu/core/linux/clock.cpp: cpu_timer_helper, cpu_timer_set_now", "lib86cpu/core/translate.cpp: cpu_start", "lib86cpu/interface.cpp: cpu_run, cpu_run_until"]}
{"id": "C54", "title": "TSC is monotone and continuous across snapshots", "statement": "RDTSC never decreases as host time advances, and restoring a snapshot makes it continue from the saved value.", "quantifier": "all clock readings", "why_tests_cant": "128 bit arithmetic over all readings", "anchors": ["lib86cpu/core/linux/clock.cpp", "lib86cpu/support.cpp: muldiv128, cpu_load_state"]}
{"id": "C55", "title": "Watchpoints fire exactly on matching accesses", "statement": "A data/IO watchpoint configured by DR7 fires iff an access of the configured kind overlaps its range, and an instruction breakpoint fires only on execution.", "quantifier": "all DR0-DR7 values, addresses, sizes", "why_tests_cant": "2^160 combinations", "anchors": ["lib86cpu/core/breakpoint.cpp", "lib86cpu/core/instructions.cpp: update_drN_helper"]}
{"id": "C56", "title": "Nothing the guest cached outlives a change of the memory map or of the a20 gate", "statement": "Whenever the guest executes, everything cached from the memory map (translations and translated code) was taken from a map with the same regions and the same a20 mask as the ones in force, however requests, deferred services and execution interleave.", "quantifier": "all histories of region requests, a20 requests, interrupt services and guest execution", "why_tests_cant": "unbounded interleavings; a missed flush shows only when stale state happens to be hit", "anchors": ["lib86cpu/interface.cpp: mem_init_region_*, mem_destroy_region, cpu_set_a20", "lib86cpu/core/translate.cpp: cpu_do_int, tc_clear_cache_and_tlb"]}
{"id": "C57", "title": "PUSHF, POPF, LAHF and SAHF agree with EFLAGS", "statement": "PUSHF stores and LAHF loads exactly the architectural flag image of the current flags; POPF and SAHF set exactly the bits the current privilege level may change and leave the others alone; saving and restoring is lossless.", "quantifier": "all flag states, privilege levels and images", "why_tests_cant": "2^32 images times all representations of the lazily evaluated flags", "anchors": ["lib86cpu/core/emitter/x64/jit.cpp: PUSHF, POPF, LAHF, SAHF"]}
{"id": "C58", "title": "Condition codes mean what the comparison said", "statement": "Jcc, SETcc and CMOVcc evaluate each of the sixteen conditions as the SDM defines it, and after CMP a,b the signed and unsigned conditions hold exactly when the integers compare that way.", "quantifier": "all operand values, sizes and conditions", "why_tests_cant": "2^64 operand pairs", "anchors": ["lib86cpu/core/emitter/x64/jit.cpp: JCC_start, SETCC, CMOVCC, CMP"]}
{"id": "C59", "title": "Shifts and rotates match the architecture", "statement": "SHL/SHR/SAR/ROL/ROR/RCL/RCR/SHLD/SHRD with the count masked to five bits produce the result and CF of repeating the one-bit step that many times; a masked count of zero changes neither destination nor flags; rotates change no flag but CF and OF.", "quantifier": "all operands, counts, sizes and flag states", "why_tests_cant": "all values times all counts times all lazily represented flags", "anchors": ["lib86cpu/core/emitter/x64/jit.cpp: shift, double_shift, rotate"]}
{"id": "C60", "title": "Decimal adjust instructions compute decimal arithmetic", "statement": "Adding (subtracting) packed or unpacked decimal numbers and then adjusting with DAA, AAA (DAS, AAS) leaves the decimal result and carry; AAM splits and AAD joins digits in any base without loss; AAM by zero raises the divide exception.", "quantifier": "all operands and flag states", "why_tests_cant": "all operands times all flag states", "anchors": ["lib86cpu/core/emitter/x64/jit.cpp: AAA, AAD, AAM, AAS, DAA, DAS"]}
{"id": "C61", "title": "Bit test instructions address the guest's bit string", "statement": "BT/BTS/BTR/BTC test and modify exactly the addressed bit (register operand: bit offset modulo the size; memory operand with a register offset: the bit at that signed distance from the operand) and touch no other memory.", "quantifier": "all bit offsets and operands", "why_tests_cant": "2^32 offsets", "anchors": ["lib86cpu/core/emitter/x64/jit.cpp: bit"]}
{"id": "C62", "title": "I/O permission bitmap", "statement": "When CPL > IOPL an I/O access is allowed exactly when the TSS bitmap bits of all accessed ports are clear and the bitmap lies within the TSS limit; otherwise #GP is raised and the port is not touched.", "quantifier": "all TSS contents, limits, ports and access sizes", "why_tests_cant": "all bitmaps", "anchors": ["lib86cpu/core/emitter/x64/jit.cpp: gen_check_io_priv"]}
{"id": "C63", "title": "Floating point exception flags are sticky", "statement": "An exception flag set by an FPU or SSE instruction stays set in the status word or MXCSR until software clears it.", "quantifier": "all instruction histories", "why_tests_cant": "unbounded histories", "anchors": ["lib86cpu/core/emitter/x64/jit.cpp: gen_fpu_exp_post_check, gen_simd_exp_post_check"]}
{"id": "C64", "title": "Effective addresses", "statement": "A memory operand's address is segment base plus base plus scaled index plus displacement, with wrap-around modulo 2^16 of the offset for 16 bit addressing and modulo 2^32 for 32 bit addressing.", "quantifier": "all ModRM/SIB bytes, displacements and register values", "why_tests_cant": "all encodings times all register values", "anchors": ["lib86cpu/core/emitter/x64/jit.cpp: get_operand"]}
{"id": "C65", "title": "REP string instructions", "statement": "A REP prefixed string instruction performs the element operation exactly (E)CX times, or until the REPE/REPNE condition fails, advances (E)SI/(E)DI by the element size in the direction of DF, decrements (E)CX per element, and can be interrupted between elements and resumed with the same final effect.", "quantifier": "all counts, directions, memory contents and interruption points", "why_tests_cant": "unbounded counts and interruption schedules", "anchors": ["lib86cpu/core/emitter/x64/jit.cpp: rep_start, rep, MOVS, STOS, LODS, CMPS, SCAS"]}
{"id": "C66", "title": "Stack instructions", "statement": "PUSH then POP returns the pushed value and restores (E)SP; only the stack pointer bits selected by the stack size change; a fault during the access leaves (E)SP unchanged.", "quantifier": "all values, stack sizes, operand sizes and stack pointers", "why_tests_cant": "all stack pointer values including wrap-around", "anchors": ["lib86cpu/core/emitter/x64/jit.cpp: gen_stack_push, gen_stack_pop"]}
{"id": "C67", "title": "Targets and privilege of far calls and jumps", "statement": "A far CALL to a code segment transfers to the given selector and offset at the same privilege level; through a call gate it transfers to the gate's selector and offset, and the privilege level becomes the DPL of a non-conforming target segment and is unchanged by a conforming one.", "quantifier": "all descriptor tables, selectors, offsets and register states", "why_tests_cant": "all descriptor table contents", "anchors": ["lib86cpu/core/instructions.cpp: lcall_pe_helper, ljmp_pe_helper"]}
{"id": "C68", "title": "Faulting event delivery is restartable", "statement": "When the delivery of an exception or interrupt itself faults, no register has been changed yet: the second event sees (and saves) the state of the first, and a shutdown leaves the registers of the interrupted program.", "quantifier": "all events, descriptor tables, memory permissions and nesting sequences", "why_tests_cant": "every fault point inside the delivery sequence", "anchors": ["lib86cpu/core/translate.cpp: cpu_raise_exception, check_dbl_exp"]}
{"id": "C69", "title": "Self-modifying code stops the running block", "statement": "When an instruction overwrites bytes of the translated block that is executing it, the block is left before its next instruction, so that the new bytes are executed.", "quantifier": "all blocks, positions of the writing instruction and written ranges", "why_tests_cant": "every alignment of a store relative to the running block", "anchors": ["lib86cpu/core/translate.cpp: tc_invalidate, cpu_translate", "lib86cpu/core/memory_management.cpp: mem_write_helper"]}
{"id": "C70", "title": "cpu_new checks its parameters and provides the ram asked for", "statement": "cpu_new succeeds exactly for a non-zero size and a power-of-two alignment (or reports no_memory); the ram pointer of the new cpu then has the requested alignment, the requested number of bytes behind it belongs to the cpu, and cpu_free returns exactly what was allocated.", "quantifier": "all ram sizes, alignments and allocator answers", "why_tests_cant": "sizes and alignments range over 64 bit values", "anchors": ["lib86cpu/interface.cpp: cpu_new, cpu_free"]}
{"id": "C71", "title": "HLT waits for an interrupt", "statement": "After HLT the guest executes nothing until a hardware interrupt is delivered, also when execution is stopped and started again in between; an exception delivered while waiting ends the wait.", "quantifier": "all histories of events, stops and restarts", "why_tests_cant": "needs all schedules of events around HLT", "anchors": ["lib86cpu/core/instructions.cpp: hlt_helper", "lib86cpu/core/emitter/x64/jit.cpp: HLT", "lib86cpu/core/translate.cpp: cpu_do_int, cpu_start"]}
{"id": "C72", "title": "Guest accesses reach exactly the bytes or the device behind their addresses", "statement": "A guest read or write of 1, 2, 4, 8, 10 or 16 bytes at a physical address transfers, byte for byte, the bytes backing its consecutive addresses (rom ignores writes, unmapped memory reads as 0), or is exactly one call of the owning device's handler with the full size and address; nothing else is touched, no access leaves the buffers, and it always returns.", "quantifier": "all memory maps built with the region functions, addresses, sizes and memory contents", "why_tests_cant": "all positions of an access relative to region boundaries", "anchors": ["lib86cpu/core/memory_management.hpp: as_memory_dispatch_read, as_memory_dispatch_write, mem_read_slow, mem_write_slow"]}
{"id": "C73", "title": "An interrupted program resumes where it was", "statement": "Delivering an exception or interrupt in protected mode saves EIP, CS, EFLAGS (and ESP, SS on a change of privilege level) of the interrupted program in the frame on the handler's stack, with an error code exactly for the exceptions that have one, and enters the gate's target with TF, NT, RF, VM off (and IF off for interrupt gates only); the IRET of a handler that leaves the frame alone resumes the program with the same EIP, CS, EFLAGS, stack and privilege level.", "quantifier": "all events, gates, descriptor tables, register states, memory contents and handlers", "why_tests_cant": "every combination of gate, privilege change and handler behaviour", "anchors": ["lib86cpu/core/translate.cpp: cpu_raise_exception", "lib86cpu/core/instructions.cpp: lret_pe_helper, iret_real_helper"]}
{"id": "C74", "title": "Events reach handlers only through valid gates", "statement": "A vector outside the IDT, a descriptor that is no interrupt or trap gate, a gate more privileged than the program that executes INT n, a gate that is not present, and a handler whose code segment is null, outside its table, not a code segment, less privileged than the program or not present raise the documented exception with the documented error code (index, IDT and EXT bits) instead of being entered, with no register or memory changed.", "quantifier": "all events, descriptor tables, register states and memory contents", "why_tests_cant": "all gates and descriptors", "anchors": ["lib86cpu/core/translate.cpp: cpu_raise_exception"]}
{"id": "C75", "title": "Pages that instructions were fetched from stay watched for writes", "statement": "Once the address of an instruction to be executed has been translated, the physical page it is on (unless it is rom) is marked as containing code, so that writes to it are reported to the code cache, and no later translation, flush, invalidation or store removes the mark; only the code cache does, when it drops the page.", "quantifier": "all page tables, memory maps and sequences of translations, flushes, invalidations and stores", "why_tests_cant": "all interleavings of fetches, evictions and stores", "anchors": ["lib86cpu/core/memory_management.cpp: tlb_fill, get_code_addr", "lib86cpu/core/memory_management.hpp: mem_write_slow"]}
{"id": "C76", "title": "Procedure frames and register frames are undone exactly", "statement": "ENTER saves EBP, makes the address of the saved EBP the frame pointer, copies the enclosing frame pointers and reserves the requested space, and LEAVE restores ESP and EBP; POPA after PUSHA restores the registers and the stack pointer; an ENTER or PUSHA that faults changes no register, and a POPA that faults can be executed again with the result of an uninterrupted one.", "quantifier": "all register values, stack segments (16 and 32 bit), nesting levels, sizes, memory contents and fault positions", "why_tests_cant": "every wrap-around of the stack pointer and every fault position", "anchors": ["lib86cpu/core/emitter/x64/jit.cpp: ENTER, LEAVE, PUSHA, POPA, gen_stack_push"]}
{"id": "C77", "title": "The FPU registers behave as a stack of eight places", "statement": "The x87 instructions act on ST(0)..ST(7) as on a stack of eight places: a load pushes, a popping instruction discards ST(0), an arithmetic instruction writes exactly its destination register, FXCH exchanges two, and no other place changes; the tag word reports empty, zero, valid or special for what the register holds; FNINIT and FNCLEX work with an exception pending, every other instruction waits; FLDCW makes an unmasked recorded exception pending.", "quantifier": "all FPU states, register numbers, operand and result values, control words and instruction histories", "why_tests_cant": "the register file is a rotating window over eight physical registers, and every value and rotation must be covered", "anchors": ["lib86cpu/core/emitter/x64/jit.cpp: FLD, FST, FXCH, FADD, FCOM, FSINCOS, FPATAN, FLDCW, FNINIT, FNCLEX", "lib86cpu/core/fpu.cpp: fpu_init, fpu_push, fpu_pop, fpu_update_tag"]}
{"id": "C78", "title": "IRET restores the flags the program may change", "statement": "An IRET that completes leaves, in every flag, the popped image's bit where the level and mode let the program write it, and the old value elsewhere: the arithmetic flags, TF, DF, NT (and with 32 bit operands RF, AC, ID) always, IF only if CPL <= IOPL, IOPL only at level 0; a return to virtual-8086 mode happens only from level 0 and loads the six segments, ESP and EIP from the stack.", "quantifier": "all popped images, levels, IOPLs, operand sizes, modes, stacks and memory contents", "why_tests_cant": "32 bit images times all levels, modes and operand sizes", "anchors": ["lib86cpu/core/instructions.cpp: iret_real_helper, lret_pe_helper", "lib86cpu/core/helpers.cpp: write_eflags"]}
{"id": "C79", "title": "System segment and descriptor table instructions", "statement": "LTR and LLDT raise the architecture's fault, or load base, limit and attributes of the named descriptor (LTR marks the TSS busy) and change nothing else; VERR and VERW set ZF exactly if the segment could be read or written at this level; ARPL raises the RPL field to the source's; LGDT/LIDT load limit and base at level 0 only, SGDT/SIDT store them, and LGDT of what SGDT stored restores the register.", "quantifier": "all selectors, descriptors, table limits, levels and memory contents", "why_tests_cant": "all descriptors and selectors, with every level", "anchors": ["lib86cpu/core/instructions.cpp: ltr_helper, lldt_helper, verrw_helper", "lib86cpu/core/emitter/x64/jit.cpp: LGDT, LIDT, SGDT, SIDT, SLDT, STR, ARPL, VERR, VERW"]}
{"id": "C80", "title": "Real mode interrupts enter the table's handler and IRET resumes the program", "statement": "In real mode every interrupt, exception or INT n whose vector lies in the interrupt table pushes FLAGS, CS and IP as words below SS:SP (wrapping within 64 KiB), continues at the selector and offset of the four byte entry with IF, TF, RF and AC clear, and changes nothing else; a vector outside the table is a general protection fault; a 16 bit IRET after the handler resumes the interrupted program with its flags and stack pointer.", "quantifier": "all vectors, table positions and limits, stack pointers, register and memory contents, and handlers that leave the frame", "why_tests_cant": "all vectors, stack positions and memory contents; wrap-around of the stack", "anchors": ["lib86cpu/core/translate.cpp: cpu_raise_exception", "lib86cpu/core/instructions.cpp: iret_real_helper"]}
{"id": "C81", "title": "Jumps, loops, calls and returns go where the architecture says", "statement": "A conditional jump, JCXZ, LOOP, LOOPE, LOOPNE, near JMP, CALL or RET sets EIP to the displacement target (in the operand size) or the next instruction exactly as the architectural condition on the flags or counter says, and changes nothing but EIP, the counter and the stack. A loop whose body leaves the counter alone runs exactly as many times as the counter says, zero meaning 65536 or 2^32. Any depth of nested calls is undone by as many returns; RET imm removes the arguments. In real and virtual 8086 mode the same holds of far JMP, CALL and RET, which also set CS and its base. A transfer that faults on an access leaves the guest state unchanged.", "quantifier": "every guest state, displacement, instruction length, operand and address size, loop body, call depth, 16 and 32 bit stacks, accessible memory", "why_tests_cant": "ranges over all displacements, counters and call depths; the loop and nesting claims are inductive", "anchors": ["lib86cpu/core/emitter/x64/jit.cpp: JCC_start, JCC_end, JCXZ, LOOP, JMP, CALL_, RET_"]}
{"id": "C82", "title": "The host code emitted for integer instructions implements them", "statement": "For ADD, ADC, SUB, SBB, CMP, AND, OR, XOR and TEST in every operand form, and for INC, DEC, NEG, NOT, XADD, XCHG, CMPXCHG and CMPXCHG8B, the emitted sequence of host instructions, run from any host state that has the cpu context in RCX and with memory helpers that may leave anything in the host registers they do not preserve, either completes with the architectural result in the destination, the architectural flags, nothing else of the guest changed and the context pointer in RCX again, or, when an access of the instruction is not allowed, ends in the page fault with the guest state unchanged.", "quantifier": "every instruction of the list, operand form and size, guest state, host register and local contents, linear address, set of accessible addresses and behaviour of the helpers on volatile registers", "why_tests_cant": "ranges over all register contents and all values a called helper may leave in volatile registers; a test sees one", "anchors": ["lib86cpu/core/emitter/x64/jit.cpp: r_to_rm, r_to_rm_flags, rm_to_r, rm_to_r_flags, imm_to_eax, imm_to_rm, set_flags, set_flags_sum, set_flags_sub, ADD_, ADC, SUB_, SBB, CMP_, AND_, OR_, XOR_, TEST_, INC_, DEC_, NEG_, NOT_, XADD, XCHG_, CMPXCHG, CMPXCHG8B"]}
{"id": "C83", "title": "Interrupts and exceptions of a vm86 program", "statement": "When an event is delivered while a vm86 program runs, either the handler named by the protected-mode gate is entered at level 0 on the stack the TSS gives, with the program's IP, CS, FLAGS, SP, SS, ES, DS, FS and GS saved in that order, the four data segment registers empty, VM, TF, NT and RF clear (IF only for interrupt gates) and everything else kept; or, for INT n with CR4.VME set and a clear bit in the redirection map, the handler named by the program's own table at linear address 0 is entered in vm86 mode with IP, CS and FLAGS saved on its own stack; INT n with IOPL below 3 and no redirection raises #GP(0) with nothing changed.", "quantifier": "every event kind, vector, error code, faulting address, guest register and memory state in vm86 mode, gate, TSS and set of accessible addresses", "why_tests_cant": "ranges over every gate, TSS, redirection map and state of the program", "anchors": ["lib86cpu/core/translate.cpp: cpu_raise_exception (553-606, 746-834)"]}
{"id": "C84", "title": "Host code of multiplications, extensions, scans, conditional sets and moves, flag instructions, XLAT and BOUND", "statement": "Whatever the host registers, locals and host flags hold before, and whatever the memory helpers leave in registers they do not preserve, the emitted code of MUL, IMUL (one, two and three operands), CBW, CWDE, CWD, CDQ, MOVSX, MOVZX, BSWAP, BSF, BSR, SETcc, CMOVcc, CLC, STC, CMC, CLD, STD, XLAT and BOUND computes the architectural result: the exact product and CF = OF = it does not fit; the sign or zero extension; the number of the least or greatest set bit and ZF; the byte or move the condition on EFLAGS asks for; exactly the flag named; the byte of the table; the exception exactly if the signed index is outside the bounds. Nothing else of the guest changes, and an access that is not allowed ends in the fault with the guest unchanged.", "quantifier": "every operand form, size and value, guest register, flag and memory state, set of accessible addresses, host register, local and host flag contents", "why_tests_cant": "ranges over all operand values and all contents of host registers and of what the helpers clobber", "anchors": ["lib86cpu/core/emitter/x64/jit.cpp: MUL_ (8709), IMUL_ (6751), CBW, CWDE, CWD, CDQ, MOVSX_, MOVZX_, BSWAP_, BSF_, BSR_ (4726), SETCC (10122), CMOVCC (5062), CLC_, STC_, CMC, CLD, STD, XLAT (10914), BOUND (4697), ld_pf (1830)"]}
{"id": "C85", "title": "Privileged instructions and isolation of user programs", "statement": "Above level 0 the privileged instructions (HLT, WBINVD, INVLPG, RDMSR, WRMSR, LGDT, LIDT, LMSW, CLTS, LTR, LLDT, MOV to and from CRn and DRn) raise #GP(0) (#UD for LTR and LLDT in vm86 mode) and change nothing; RDTSC does so if CR4.TSD is set. Accesses to debug registers with DR7.GD set raise #DB and set DR6.BD; DR4 and DR5 name DR6 and DR7, or raise #UD with CR4.DE. A program of any length that runs above level 0 leaves control registers, descriptor table registers, LDTR, TR, debug registers, MSRs, IOPL and VIP as they were; above IOPL it leaves IF as it was; without far calls it stays at its level or a less privileged one.", "quantifier": "every program of any length of system, segment, far transfer, flag and arbitrary other instructions, every register and memory state, descriptor tables, set of accessible addresses", "why_tests_cant": "ranges over all programs and all states; a test can only run some programs", "anchors": ["lib86cpu/core/emitter/x64/jit.cpp: CLI (4997), CLTS (5024), HLT (6642), INVLPG (7088), MOV CR/DR (7884-8035), POPF (9336), PUSHF (9641), RDMSR (9743), RDTSC (9759), STI (10420), WBINVD, WRMSR (10780), LGDT, LIDT, LMSW, LTR, LLDT", "lib86cpu/core/instructions.cpp: update_crN_helper, ltr_helper, lldt_helper, iret_real_helper, lret_pe_helper, lcall_pe_helper"]}
{"id": "C86", "title": "Interrupt-flag instructions follow the privilege tables", "statement": "CLI and STI change IF in real mode, at or below IOPL, or in vm86 mode with IOPL 3; they change VIF at level 3 with CR4.PVI and in vm86 mode with CR4.VME (STI raising #GP if VIP is set); otherwise they raise #GP(0). No other flag changes, and STI with IF clear inhibits interrupts for one instruction. POPF takes exactly the flags from the stack that mode, level, IOPL and operand size allow, in vm86 mode with IOPL below 3 it needs VME and 16 bit operands, raises #GP for a popped TF or a popped IF with VIP, and moves the popped IF to VIF. PUSHF pushes EFLAGS without RF and VM, under VME with IOPL 3 and IF = VIF.", "quantifier": "every mode, level, IOPL, CR4, flag and stack contents, operand size, set of accessible addresses", "why_tests_cant": "the tables range over mode, level, IOPL, two CR4 bits, all flags and all popped images", "anchors": ["lib86cpu/core/emitter/x64/jit.cpp: CLI (4997), STI (10420), POPF (9336), PUSHF (9641)"]}
{"id": "C87", "title": "Translated code is only executed in the mode it was translated for", "statement": "Decisions the translator takes once, while emitting code (privilege checks, protected or real mode, vm86 mode, operand and stack size, IOPL, trap and resume flag, coprocessor availability, flat segment bases, what CLI, STI, POPF and PUSHF may do), hold in every state in which that code is later executed: a block is only entered if its key equals the key of the current state, and equal keys mean equal mode, level, sizes, IOPL, TF, RF, and CR0/CR4 control bits.", "quantifier": "every history of translations, executions, writes, remappings and mode changes, every pair of register states", "why_tests_cant": "staleness shows only if a block is re-entered after a mode change that a mask forgot; all pairs of states and all histories", "anchors": ["lib86cpu/core/internal.hpp: HFLG_CONST (105), EFLAGS_CONST (242)", "lib86cpu/core/translate.cpp: 1045, 1120, 1536", "lib86cpu/core/helpers.cpp: 309", "lib86cpu/core/emitter/x64/jit.cpp: gen_tc_linking_jmp (983)"]}
{"id": "C88", "title": "Coprocessor availability and lazy switching", "statement": "x87 instructions raise #NM if CR0.EM or CR0.TS is set, FWAIT if CR0.MP and CR0.TS are, MMX instructions raise #UD if EM is set and #NM if TS is, SSE instructions raise #UD if EM is set or CR4.OSFXSR is clear and #NM if TS is; otherwise they execute. Unmasked SIMD conditions raise #XF, or #UD if CR4.OSXMMEXCPT is clear. While TS is set, no user program of any length changes the coprocessor state.", "quantifier": "every CR0 and CR4, instruction class, program of any length above level 0", "why_tests_cant": "lazy switching is a property of all programs; the table has 16 rows for five classes in 30 places", "anchors": ["lib86cpu/core/emitter/x64/jit.cpp: 2531, 2765, 3809-4062, 5588, 5893, 6036-6620, 8232-8581, 10357, 10712, 10741, 11017"]}
{"id": "C89", "title": "A far call comes back", "statement": "A far call writes the return address (old CS and the address after the instruction) in the width of the call or gate just below the old stack pointer, or, for a call to a more privileged level, on the inner stack of the task together with the old SS:ESP and the gate's parameter count of items copied from the old stack in order; it continues at the entry point at the level of the target, and writes nothing else. A far return with that frame on top of the stack continues after the call with the caller's CS, level, SS and stack pointer. So call followed by return, with the procedure in between leaving frame, tables and stack pointer as they were, resumes the caller.", "quantifier": "every caller state, selector, descriptor table, gate, parameter count, stack base and width, return address, procedure body", "why_tests_cant": "the frame is built by one function and taken apart by another, in 2 widths, 3 modes, with 0..31 parameters and two stacks; every combination must agree", "anchors": ["lib86cpu/core/instructions.cpp: lcall_pe_helper (464-673), lret_pe_helper / ret_pe (155-314)", "lib86cpu/core/helpers.cpp: stack push/pop (10-94)", "lib86cpu/core/emitter/x64/jit.cpp: 4843-4849, 4929-4933 (call far, real), 9804-9847 (retf imm)"]}
{"id": "C90", "title": "Only task switches and PAE make the emulator give up", "statement": "No sequence of segment loads, far transfers, returns, control register writes, system segment loads and events makes the emulator abort, unless it ends with an instruction that asks for a hardware task switch (far call or jump to a TSS or task gate, IRET with NT set) or that sets CR4.PAE, or with an event whose gate is a task gate; these always do, and leave the guest state as it was.", "quantifier": "every state with consistent mode bits, every history of operations, every page fault behaviour", "why_tests_cant": "an abort ends the host's emulation of the guest; absence must hold for all guest programs", "anchors": ["lib86cpu/core/instructions.cpp: LIB86CPU_ABORT in lcall (527), ljmp (409), iret (178), update_crN (954)", "lib86cpu/core/translate.cpp: exception delivery, task gates (619)", "lib86cpu/core/instructions.cpp: update_crN_helper CR4"]}
{"id": "C91", "title": "A trampoline runs the original function once and returns at its return address", "statement": "trampoline_call, called from a hook, runs the code at the hooked address as it is now, without its hook, exactly once; other calls made meanwhile, including recursive ones, go through their hooks; it returns when, and only when, the guest reaches the instruction pointer given, before executing anything there.", "quantifier": "all histories of translations, links, calls, writes and hooks before the call, all return addresses, and all sequences of blocks, jumps, calls, returns, faults and callbacks while the trampoline runs", "why_tests_cant": "whether the call returns depends on every link and predicted return present when it starts and made while it runs; a test sees one caller and one history", "anchors": ["lib86cpu/interface.cpp:trampoline_call", "lib86cpu/core/translate.cpp:cpu_exec_trampoline", "lib86cpu/core/translate.cpp:cpu_main_loop", "lib86cpu/core/translate.cpp:cpu_suppress_trampolines", "lib86cpu/core/helpers.cpp:rsb_pop"]}
{"id": "C92", "title": "A more privileged level runs on the stack its task state segment names", "statement": "When an interrupt, an exception or a call through a gate ends at a more privileged level, the processor is on the stack that the task state segment has for that level: a present, writable data segment of exactly that level, whose stack pointer is inside the TSS, with only the frame of the transition on it. If the TSS has no such stack the transition does not complete. The TSS is accessible to the transition whatever the program itself may access.", "quantifier": "all register and memory contents, gates, 16 and 32 bit TSSs, levels, event kinds, vectors and memory access rights, from protected and vm86 mode", "why_tests_cant": "a wrong check or slot shows only for some levels, TSS sizes and TSS limits; a test uses one TSS", "anchors": ["lib86cpu/core/helpers.cpp:read_stack_ptr_from_tss_helper", "lib86cpu/core/translate.cpp:cpu_raise_exception", "lib86cpu/core/instructions.cpp:lcall_pe_helper"]}
{"id": "C93", "title": "Loading a segment marks its descriptor as accessed and writes nothing else", "statement": "In protected mode, an instruction that loads a segment register from a descriptor leaves the accessed bit of that descriptor set in memory and changes no other bit of it and no other byte of memory: loading a data or stack segment register (a null selector writes nothing), a far jump (directly or through a call gate: the descriptor of the code segment entered), a far return and an interrupt return (code segment, and stack segment when the level changes; nothing on a return to vm86 mode). A far call leaves, on top of what it pushes, the mark in the descriptor of the code segment entered.", "quantifier": "all register and memory contents, selectors, descriptors, operand sizes, levels and memory access rights", "why_tests_cant": "the mark is a read-modify-write of guest memory conditional on two descriptor bits: a test sees one descriptor, and only if it reads the table back", "anchors": ["lib86cpu/core/helpers.cpp:set_access_flg_seg_desc_helper", "lib86cpu/core/instructions.cpp:lret_pe_helper", "lib86cpu/core/instructions.cpp:ljmp_pe_helper", "lib86cpu/core/instructions.cpp:mov_sel_pe_helper"]}
{"id": "C94", "title": "In real and vm86 mode a segment is its selector times 16", "statement": "In real and vm86 mode loading a segment register is never refused, gives it the selector and 16 times the selector as base, and keeps its limit and attributes (so a segment prepared in protected mode stays large, as unreal mode needs); nothing else changes. In a vm86 task every segment register has 16 times its selector as base and a 64 KiB limit at all times, however the task was entered and whatever it and the exceptions and interrupts did.", "quantifier": "all register contents, selectors, and finite histories of segment loads, far transfers, interrupt returns, control register writes, exceptions and interrupts in all modes", "why_tests_cant": "the property of a vm86 task is an invariant over every history through every mode; a test loads one register once", "anchors": ["lib86cpu/core/emitter/x64/jit.cpp:MOV", "lib86cpu/core/instructions.cpp:iret_real_helper", "lib86cpu/core/instructions.cpp:lret_pe_helper", "lib86cpu/core/instructions.cpp:write_seg_reg_helper"]}
{"id": "C95", "title": "The host code emitted for shifts and rotates does what the instruction says", "statement": "The x64 code emitted for SHL, SHR, SAR, RCL, RCR, ROL, ROR, SHLD and SHRD, for every operand size, a register or memory destination and a count in CL or an immediate: with a count of zero (modulo 32) nothing changes and no access is made; otherwise the destination gets the shifted value, the flags those of the instruction and nothing else of the guest changes; a destination that may not be read or written faults with nothing changed.", "quantifier": "all guest register, flag and memory contents, operands, counts, all contents of host registers and locals before, and all values the host leaves in undefined flags and results", "why_tests_cant": "the result depends on which host register holds the operand, the count, the address and the carry at each emitted instruction, in twelve variants of the emitter; a test samples operands", "anchors": ["lib86cpu/core/emitter/x64/jit.cpp:lc86_jit::shift", "lib86cpu/core/emitter/x64/jit.cpp:lc86_jit::double_shift", "lib86cpu/core/emitter/x64/jit.cpp:lc86_jit::rotate"]}
{"id": "C96", "title": "get_host_ptr points at the byte behind the guest address", "statement": "A pointer returned by get_host_ptr points at the host byte that backs the given guest virtual address, the same byte mem_read_block_virt reads there and mem_write_block_virt writes there; pointer arithmetic follows the guest addresses inside the page and region; nullptr with guest_exp is returned exactly when the address is not mapped and nullptr with invalid_parameter exactly when it does not map to ram or rom.", "quantifier": "all memory maps the api can build, all page tables, virtual addresses and memory contents", "why_tests_cant": "the answer depends on the whole memory map and page tables; a test samples addresses of one map", "anchors": ["lib86cpu/interface.cpp:get_host_ptr", "lib86cpu/core/memory_management.hpp:get_ram_host_ptr", "lib86cpu/core/memory_management.hpp:get_rom_host_ptr"]}
{"id": "C97", "title": "Emitted code computes memory operands without disturbing the instruction", "statement": "For every instruction with a memory operand (arithmetic and logic, INC/DEC/NEG/NOT, exchanges, compare-exchange, multiplications, MOVZX/MOVSX, bit scans, SETcc, CMOVcc, BOUND, shifts and rotates), the code run on the host, including the code that computes the operand's address, accesses the linear address segment base + ((base + index * scale + displacement) mod 2^address size) mod 2^32 formed from the registers before the instruction, and has the architectural result and flags.", "quantifier": "all instructions of these kinds, operand and address sizes, addressing forms, segments, register and memory contents, and contents of the host registers and flags before it", "why_tests_cant": "the address code shares host registers with the instruction's code; a clobbered register shows only for particular combinations of instruction and addressing form", "anchors": ["lib86cpu/core/emitter/x64/jit.cpp:get_operand", "lib86cpu/core/emitter/x64/jit.cpp:get_rm"]}
{"id": "C98", "title": "Emitted code of MOV, LEA and the stack instructions", "statement": "The code run on the host for MOV (registers, memory, immediates, direct addresses, selectors), LEA, PUSH and POP of registers, memory, immediates and selectors, LEAVE, PUSHA and POPA moves exactly the value of the source as it was before the instruction to the destination, changes the stack pointer by the operand size modulo the stack's size (keeping the upper half of ESP on 16 bit stacks), changes no other register, no flag and no other memory, and changes nothing if an access faults; PUSH and POP, and PUSHA and POPA, undo each other.", "quantifier": "all operand sizes, stack sizes and bases, operands, register and memory contents, access rights, and contents of the host registers before it", "why_tests_cant": "the stack pointer lives in a host register between the emitted instructions and wraps at 16 or 32 bits; whether a fault or a wrap leaves a half done instruction depends on every combination of sizes", "anchors": ["lib86cpu/core/emitter/x64/jit.cpp:mov", "lib86cpu/core/emitter/x64/jit.cpp:lea", "lib86cpu/core/emitter/x64/jit.cpp:gen_stack_push", "lib86cpu/core/emitter/x64/jit.cpp:gen_stack_pop", "lib86cpu/core/emitter/x64/jit.cpp:push", "lib86cpu/core/emitter/x64/jit.cpp:pop", "lib86cpu/core/emitter/x64/jit.cpp:leave", "lib86cpu/core/emitter/x64/jit.cpp:pusha", "lib86cpu/core/emitter/x64/jit.cpp:popa"]}
{"id": "C99", "title": "A translated block does what its instructions do one after the other", "statement": "Running the host code of a translated block has on the guest exactly the effect of the block's instructions in program order, each on the state the previous one left. A fault is taken at the first instruction one of whose accesses is not allowed, with EIP at that instruction and the effect of exactly the instructions before it. A pending interrupt is taken between two instructions, at the first check after which a request is pending that is not the maskable one or with IF set, with EIP at the next instruction, and the handler gets the set of those requests. All instructions of a block start on one page.", "quantifier": "all lists of modelled instructions with register or memory operands and their lengths, all start addresses and code segment bases, all guest states, all contents of host registers, access rights that may change between instructions, and all sequences of pending interrupt words", "why_tests_cant": "host registers and local slots carry over from one instruction's code to the next, and flags are kept lazily; a block of any length mixes any instructions, and a fault or interrupt may come at any of them", "anchors": ["lib86cpu/core/translate.cpp:cpu_translate", "lib86cpu/core/emitter/x64/jit.cpp:update_eip", "lib86cpu/core/emitter/x64/jit.cpp:gen_interrupt_check", "lib86cpu/core/emitter/x64/jit.cpp:gen_tc_epilogue"]}
{"id": "C100", "title": "Emitted near jumps, calls and returns, and blocks that end with them", "statement": "Running the host code of Jcc, JCXZ, LOOP, LOOPE, LOOPNE and of near JMP, CALL and RET in all their forms leaves EIP where the architecture says the instruction goes: the address after it plus the signed displacement, truncated to the operand size, if the condition on the guest's flags or counter holds, and the address after it otherwise; for indirect forms the operand as it was before the instruction. Only CX or ECX (LOOP) or the stack (CALL, RET) change. A fault leaves everything as it was, with EIP at the instruction. A block that ends with such an instruction does its instructions in order and then the jump in the state they left, unless a fault, an interrupt or a page boundary ends it before.", "quantifier": "all conditions, counters, displacements, operand, address and stack sizes, register and memory operands, all addresses and lengths, all guest states and contents of host registers, all blocks before the jump, all access rights that may change between instructions, and all pending interrupts", "why_tests_cant": "the sixteen conditions are computed by different instruction sequences from lazily kept flags, for each of the 2^64 states of these; targets wrap at 2^16 and 2^32; and the target of an indirect call is read before and used after the push", "anchors": ["lib86cpu/core/emitter/x64/jit.cpp:lc86_jit::jcc", "lib86cpu/core/emitter/x64/jit.cpp:lc86_jit::loop", "lib86cpu/core/emitter/x64/jit.cpp:lc86_jit::jmp", "lib86cpu/core/emitter/x64/jit.cpp:lc86_jit::call", "lib86cpu/core/emitter/x64/jit.cpp:lc86_jit::ret", "lib86cpu/core/translate.cpp:cpu_translate"]}
{"id": "C101", "title": "Emitted string instructions complete, or fault where they can be restarted", "statement": "Running the host code of MOVS, CMPS, STOS, LODS and SCAS, with or without a repeat prefix, terminates: with a prefix after at most as many turns as CX or ECX says. It either completes, having done exactly the repetitions the architecture asks for (all of them, or up to the first whose comparison ends a REPE or REPNE), each moving the index registers by the element size in the direction of DF within the address size; or it faults at the first element that may not be accessed, with all repetitions before it done, the registers telling what remains and every other register as it was. Running the faulting instruction again, when that access and possibly others have become allowed, leaves the guest exactly where one uninterrupted run would have.", "quantifier": "all five instructions, element and address sizes, prefixes, segment bases, counts up to 2^32-1, directions, guest states and contents of host registers, and all access rights", "why_tests_cant": "the loop runs up to 2^32 times over any memory, sources and destinations may overlap, and the fault may come at any element of any count", "anchors": ["lib86cpu/core/emitter/x64/jit.cpp:lc86_jit::rep_start", "lib86cpu/core/emitter/x64/jit.cpp:lc86_jit::rep", "lib86cpu/core/emitter/x64/jit.cpp:lc86_jit::movs", "lib86cpu/core/emitter/x64/jit.cpp:lc86_jit::cmps", "lib86cpu/core/emitter/x64/jit.cpp:lc86_jit::stos", "lib86cpu/core/emitter/x64/jit.cpp:lc86_jit::lods", "lib86cpu/core/emitter/x64/jit.cpp:lc86_jit::scas"]}
{"id": "C102", "title": "Emitted flag, bit, decimal and divide instructions do what the manual says", "statement": "Running the host code emitted for LAHF and SAHF transfers exactly the five low arithmetic flags between AH and EFLAGS; BT, BTC, BTR and BTS set CF to the selected bit and keep, complement, clear or set that bit and no other; PUSHF pushes the flags word (without RF and VM with 32 bit operands, with VIF in place of IF and IOPL shown as 3 under the virtual 8086 mode extensions); POPF takes the arithmetic flags and exactly the system flags its privilege allows from the popped word, and under the extensions raises #GP exactly when TF would be set or interrupts be enabled with one pending; DIV and IDIV raise #DE exactly when the divisor is zero or the quotient does not fit and otherwise leave the mathematical quotient and remainder; AAA, AAS, AAD, AAM, DAA and DAS adjust AL and AH by the manual's rules. Every faulting access leaves the guest as it was.", "quantifier": "all operands, operand sizes, bit numbers, immediates, stack widths, guest states, flag states, access rights and contents of host registers", "why_tests_cant": "every register value, flag combination and access right counts; a wrong host register or jump offset shows only for some of them", "anchors": ["lib86cpu/core/emitter/x64/jit.cpp:lc86_jit::lahf", "lib86cpu/core/emitter/x64/jit.cpp:lc86_jit::sahf", "lib86cpu/core/emitter/x64/jit.cpp:lc86_jit::bit", "lib86cpu/core/emitter/x64/jit.cpp:lc86_jit::pushf", "lib86cpu/core/emitter/x64/jit.cpp:lc86_jit::popf", "lib86cpu/core/emitter/x64/jit.cpp:lc86_jit::div", "lib86cpu/core/emitter/x64/jit.cpp:lc86_jit::idiv", "lib86cpu/core/emitter/x64/jit.cpp:lc86_jit::aaa", "lib86cpu/core/emitter/x64/jit.cpp:lc86_jit::daa", "lib86cpu/core/emitter/x64/jit.cpp:lc86_jit::das", "lib86cpu/core/instructions.cpp:idivd_helper"]}
{"id": "C103", "title": "Direct memory accesses of the Xbox build agree with the memory handlers", "statement": "In the Xbox build, a load or store of translated code that bypasses the memory handlers touches exactly the host bytes the handlers would use for the guest's translation at some moment since that page was last invalidated, never writes rom or a page that is read-only for the guest, never misses a data watchpoint, never overwrites a page of translated code, ends, and leaves the accessed and dirty bits as the handlers would; a page fault delivered this way is the one of the page tables.", "quantifier": "all histories of accesses, changes of page tables and control registers, flushes, INVLPG, code fetches, invalidations of code, debug register writes and memory map changes; all addresses and sizes", "why_tests_cant": "whether an access is direct depends on everything that happened before: which pages were touched in which order and through which mappings", "anchors": ["lib86cpu/core/emitter/x64/linux/ipt.cpp:ipt_segfault_sigaction", "lib86cpu/core/emitter/x64/linux/ipt.cpp:ipt_protect_code_page", "lib86cpu/core/emitter/x64/linux/ipt.cpp:ipt_protect_debug_page", "lib86cpu/core/emitter/x64/linux/ipt.cpp:ipt_flush", "lib86cpu/core/emitter/x64/jit.cpp:lc86_jit::load_ipt", "lib86cpu/core/emitter/x64/jit.cpp:lc86_jit::store_ipt", "lib86cpu/core/memory_management.cpp:tlb_fill", "lib86cpu/core/memory_management.cpp:query_write_addr", "lib86cpu/interface.cpp:tlb_invalidate", "lib86cpu/core/instructions.cpp:update_drN_helper"]}
{"id": "C104", "title": "Running translated blocks is running the guest program instruction by instruction", "statement": "However guest code is cut into blocks (at jumps, page ends, single instructions), whatever blocks the code cache already holds and whatever is dropped from it in between, and whenever requests become pending, an execution shows the guest exactly what its instructions do one after the other: the registers, memory, flags and EIP seen at every return to the client are those some whole number of instructions leads to, every block makes progress, a fault is one of the instruction at EIP in the state the instructions before it left, an interrupt is taken between two instructions only, and execution never ends up anywhere the program did not go.", "quantifier": "all guest programs of the modelled instructions, all initial states, all contents and evictions of the code cache, all schedules of requests and of access rights, any number of blocks", "why_tests_cant": "the way an execution is cut into blocks depends on history (entry points, page boundaries, the cache), and a test sees one cut of one program", "anchors": ["lib86cpu/core/translate.cpp:cpu_translate", "lib86cpu/core/translate.cpp:cpu_main_loop", "lib86cpu/core/translate.cpp:tc_cache_insert", "lib86cpu/core/emitter/x64/jit.cpp:lc86_jit::gen_no_link_checks", "lib86cpu/core/emitter/x64/jit.cpp:lc86_jit::gen_tc_epilogue", "lib86cpu/core/emitter/x64/jit.cpp:lc86_jit::gen_interrupt_check"]}
{"id": "C105", "title": "Port instructions make exactly the port accesses they name, once, and only if allowed", "statement": "IN and OUT make one access of their operand size to the port in DX or the immediate byte and move exactly the accumulator's low bytes; if the code runs with CPL above IOPL (or in virtual 8086 mode) the access happens only if the TSS permission bitmap allows every byte of it, otherwise #GP is raised and nothing happened. INS and OUTS move one element between that port and memory per repetition in order, index and count registers follow, a fault leaves the state and the accesses of the completed elements, and executing the instruction again goes on where it stopped with no access lost or made twice.", "quantifier": "all port instructions, operand and address sizes, repeat prefixes, directions, register and memory contents, TSS bases and limits, permission bitmaps, device behaviours (any function of the accesses so far), access rights, and every point of a fault", "why_tests_cant": "the check, the access and the memory operand are separate emitted pieces with their own fault points; tests see a few ports and no fault in the middle of a repeated transfer", "anchors": ["lib86cpu/core/emitter/x64/jit.cpp:lc86_jit::load_io", "lib86cpu/core/emitter/x64/jit.cpp:lc86_jit::store_io", "lib86cpu/core/emitter/x64/jit.cpp:lc86_jit::gen_check_io_priv", "lib86cpu/core/emitter/x64/jit.cpp:lc86_jit::in", "lib86cpu/core/emitter/x64/jit.cpp:lc86_jit::out", "lib86cpu/core/emitter/x64/jit.cpp:lc86_jit::ins", "lib86cpu/core/emitter/x64/jit.cpp:lc86_jit::outs", "lib86cpu/core/memory_management.cpp:io_read_helper", "lib86cpu/core/memory_management.cpp:io_write_helper"]}
{"id": "C106", "title": "A block goes on only to code translated for exactly the address, code base and mode it reaches", "statement": "When translated code reaches the end of a block it goes on directly to the code of another block only if that block was translated for exactly the linear address, code segment base and processor mode now in effect, and the same holds for a RET predicted by the return stack buffer; otherwise, or when a request is pending that can be served now, or (except after RET) when the time is over, it goes back to the main loop. Guest registers, flags and memory stay as they are. The packed words of the return stack buffer say, over every history of CALLs, RETs and flushes, exactly what an unpacked stack of (block, offset, return address) says, and no valid element of the jump table is without a block.", "quantifier": "all jump targets (known, indirect through EIP, in a register), contents of host memory and of the jump table, modes, pending requests, timer answers, CALLs with or without a kept block, and all histories of the return stack buffer and of the code cache", "why_tests_cant": "a stale or mismatched link is taken silently and runs the wrong code; the number of modes, addresses with equal index and histories of the buffer is out of reach of tests", "anchors": ["lib86cpu/core/emitter/x64/jit.cpp:lc86_jit::gen_tc_linking_jmp", "lib86cpu/core/emitter/x64/jit.cpp:lc86_jit::gen_tc_linking_ret", "lib86cpu/core/emitter/x64/jit.cpp:lc86_jit::gen_rsb_push", "lib86cpu/core/emitter/x64/jit.cpp:lc86_jit::gen_rsb_pop", "lib86cpu/core/emitter/x64/jit.cpp:lc86_jit::gen_interrupt_check", "lib86cpu/core/emitter/x64/jit.cpp:lc86_jit::gen_timeout_check", "lib86cpu/core/helpers.cpp:rsb_push", "lib86cpu/core/helpers.cpp:rsb_pop", "lib86cpu/core/helpers.cpp:rsb_flush"]}
{"id": "C107", "title": "The code of SSE and MMX instructions does what they do", "statement": "MOVAPS, MOVUPS, MOVNTPS, MOVLPS, MOVHPS, MOVSS, XORPS, SHUFPS, UNPCKHPS, UNPCKLPS, the arithmetic MULPS, ADDPS, SUBPS, RCPPS, RSQRTPS and their scalar forms, CVTTSS2SI, MOVQ, MOVNTQ and EMMS leave exactly the registers, the memory, the tags and the MXCSR flags the architecture defines, refuse memory operands of 16 bytes that are not aligned with #GP, report unmasked floating point exceptions with #XF (or #UD without CR4.OSXMMEXCPT), change nothing when they fault, and leave the host's MXCSR as it was.", "quantifier": "all operands, register contents, memory contents, MXCSR values, addresses", "why_tests_cant": "2^128 operand values, and the register conventions of the calls in between", "anchors": ["lib86cpu/core/emitter/x64/jit.cpp: movaps, movups, movntps, movlps, movhps, movss, xorps, shufps, unpckhps, unpcklps, simd_arithmetic, cvttss2si, movq, movntq, emms, gen_simd_exp_post_check, gen_simd_mem_align_check, gen_set_host_simd_ctx, gen_check_fpu_unmasked_exp"]}
{"id": "C108", "title": "CR2 is the address of the last page fault", "statement": "In the handler that an exception or interrupt finally enters, whatever exceptions its delivery raised on the way, CR2 is the linear address of the last page fault, including one promoted to a double fault, and is unchanged if there was none; software and hardware interrupts never change it.", "quantifier": "all states, memories, access rights, events and chains of exceptions raised by their delivery", "why_tests_cant": "The chains of exceptions and the states they start in are unbounded, and CR2 is set in three places of the delivery code.", "anchors": ["lib86cpu/core/translate.cpp: cpu_raise_exception, check_dbl_exp, cpu_do_int", "lib86cpu/core/emitter/x64/jit.cpp: int_"]}
{"id": "C109", "title": "Single stepping and breakpoints do not depend on how code is split into blocks", "statement": "Whatever blocks the guest's code is translated, cached and linked in, the guest takes a debug exception before every instruction at an enabled instruction breakpoint (unless RF is set), exactly one after every instruction run with TF set or that hits a data watchpoint, and none besides, each with the return address and flags of the architecture, and RF lasts exactly one instruction.", "quantifier": "all programs, breakpoints, starting states, choices of block lengths, links, cache contents and evictions", "why_tests_cant": "The block structure depends on the history of execution, page layout and cache evictions, which are unbounded.", "anchors": ["lib86cpu/core/translate.cpp: cpu_translate, cpu_main_loop, cpu_do_int", "lib86cpu/core/emitter/x64/jit.cpp: gen_check_rf_single_step, gen_no_link_checks, gen_interrupt_check", "lib86cpu/core/breakpoint.cpp: cpu_check_watchpoints", "lib86cpu/core/memory_management.cpp: ram_fetch"]}
{"id": "C110", "title": "FPU memory instructions can be restarted, and the FPU pointers name the last instruction and operand", "statement": "An FPU instruction whose memory access faults leaves the FPU registers, tags, TOP and memory as they were, so that running it again does what running it once would have done; a store goes to its operand's address, also the indefinite value of a masked stack underflow; after every non-control FPU instruction FCS:FIP, FOP and, for memory operands, FDS:FDP name that instruction and the segment and offset of its operand.", "quantifier": "all FPU states, memories, faults, operands, conversions and host status words", "why_tests_cant": "Faults can come at every access, in every FPU state, and what a called helper leaves in volatile registers depends on the compiler.", "anchors": ["lib86cpu/core/emitter/x64/jit.cpp: fpu_store, fpu_load, fpu_arithmetic, FCOM, FNINIT, gen_update_fpu_ptr, gen_fpu_check_stack_underflow", "lib86cpu/core/fpu.cpp: fpu_update_ptr, fpu_stack_underflow_mem", "lib86cpu/core/emitter/emitter_common.cpp: get_seg_prfx_offset"]}
{"id": "C111", "title": "Every FPU instruction computes on the guest's operands with the guest's rounding and precision, and gives the host its FPU back", "statement": "The code emitted for an x87 instruction applies the host's operation to the guest's registers ST(0), ST(i) or its memory operand, in the order the instruction says (reversed forms included), under the guest's rounding and precision control with all exceptions masked, stores the result, the condition codes and the exceptions where the instruction says, reports unmasked exceptions without storing, and leaves the host's control word and an empty host register stack behind, on every path.  After any history of writes of the guest's control words the host's copies are the guest's with all exceptions masked.", "quantifier": "all x87 instructions, register numbers, formats, FPU states, operand values, host arithmetic, and histories of control word writes", "why_tests_cant": "The result depends on every combination of operand values, rounding modes, tags and masks; a wrong control word or a register left in use on the host shows only in later, unrelated host code.", "anchors": ["lib86cpu/core/emitter/x64/jit.cpp: fpu_arithmetic, fpu_load, fpu_store, fpu_load_constant, FCHS, FCOM, FCOS, FPATAN, FSIN, FSINCOS, FSQRT, FXCH, gen_set_host_fpu_ctx, gen_fpu_exp_post_check, gen_fpu_load_stx, gen_fpu_store_stx, RESTORE_FPU_CTX", "lib86cpu/core/fpu.cpp: fpu_init", "lib86cpu/core/fpu_instructions.cpp: fxrstor_helper"]}
{"id": "C112", "title": "Interrupt instructions enter their handler and return behind themselves, or fault at themselves", "statement": "INT3, INT n and INTO (the latter only after an overflow, otherwise it does nothing) enter the handler of their vector without an error code and with the address of the next instruction in the frame, so that the handler's IRET resumes the program behind the instruction.  If the interrupt is refused (gate outside the IDT, not a gate, closed to the program, not present; a vm86 program with IOPL below 3) the documented exception is raised, nothing has changed, and the frame holds the address of the interrupt instruction itself, so that it can be emulated or repeated.", "quantifier": "all three instructions, vectors, instruction lengths, cpu states, modes, descriptor tables, memories, and page faults at every access", "why_tests_cant": "The tables, privilege levels, modes and faults combine without bound; what is wrong in the frame of a refused interrupt is seen only by a monitor or a handler that repeats the instruction.", "anchors": ["lib86cpu/core/emitter/x64/jit.cpp: int_, INT3_, INTN, INTO", "lib86cpu/core/translate.cpp: cpu_raise_exception"]}
{"id": "C113", "title": "LDS, LES, LFS, LGS and LSS load a far pointer whole or not at all", "statement": "An instruction that loads a far pointer reads offset and selector from memory, loads the segment register as MOV does with that selector and the general register (ESP included) with the offset, the upper half of the register staying with 16 bit operands, and changes nothing else but EIP; if the operand cannot be read or the selector is refused, the exception leaves both registers and everything else as they were, so that the instruction can be repeated.", "quantifier": "all five segment registers, destination registers, operand sizes, addresses, memories, descriptor tables, modes and page faults at every access", "why_tests_cant": "The fault can come at any of four accesses and depends on descriptor tables, privilege levels and pages.", "anchors": ["lib86cpu/core/emitter/x64/jit.cpp: lxs", "lib86cpu/core/instructions.cpp: mov_sel_pe_helper, mov_sel_real_helper"]}
{"id": "C114", "title": "A masked FPU stack fault completes with the indefinite value", "statement": "With the invalid operation exception masked and none pending, an x87 instruction that finds an operand register empty, or no free register for its result, completes with the indefinite value in place of the result, pops what it pops, changes no other register, and sets IE and SF in the status word, C1 telling overflow from underflow, without reporting an exception; a comparison says unordered.", "quantifier": "all x87 stack instructions, register numbers, contents, tags, positions of TOP, control and status words", "why_tests_cant": "It ranges over every content of the register stack and every instruction; the wrong responses show only for particular combinations of empty registers.", "anchors": ["lib86cpu/core/fpu.cpp: fpu_stack_fault, fpu_stack_overflow, fpu_stack_underflow_reg, fpu_stack_underflow_mem, fpu_stack_fault_fcom, fpu_stack_fault_fpatan, fpu_stack_fault_fsincos, fpu_stack_fault_fxch"]}
