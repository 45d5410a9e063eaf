# Formal model of lib86cpu in Lean 4: design

## Layout

* `lean/Verif/Model/*.lean`: executable model, function by function; each definition cites `/repo/lib86cpu` file and lines.
* `lean/Verif/Spec/*.lean`: small independent specifications (architectural rules, abstract maps), no reference to model helpers.
* `lean/Verif/Lemmas/*.lean`: helper lemmas.
* `lean/Verif/Props/*.lean`: property theorems `Cnn_*`, and beside them an `example` showing a concrete case that meets the hypotheses.
* `MANIFEST.json`: property -> theorem names. `AXIOMS.md`: the axioms of each theorem. `seeded/LOG.jsonl`: mutation attempts.

## Trusted base

* The Lean 4.33.0 kernel. Axioms used: at most `propext`, `Classical.choice`, `Quot.sound`, listed theorem by theorem in
  `AXIOMS.md` (output of `#print axioms`). No `bv_decide`, no `native_decide`, no own axioms. A few finite facts (parity of a
  byte, the 16x16 tables of exceptions, page protection tables) are decided by the kernel over their *whole* domain.
* The faithfulness of the hand-written model to the C++ text, which was read, not built or run. Every model definition cites
  the lines it models and says where it simplifies.
* The meaning of the host's x86-64 instructions the jit emits: taken from the Intel SDM and written as functions in the model
  (Host, Emit for the register-level model; Flags, Shift, BitTest, Bcd, Stack, Near, Frames, StringOps, EffAddr as functions on operand values). Results that the SDM leaves undefined are arbitrary parameters.
* C++ undefined behaviour that the model can reach is a distinct outcome (`none`/`.ub`/`Stuck`), never a silent default.
* Loops without a bound in the code take the number of allowed iterations; "not ended" is a distinct outcome, and theorems either
  show that enough iterations exist or quantify over all numbers.
* Where the code violates an English property, the negation is proved with a concrete witness, reachable from the initial state
  where the property is about histories (`..._violation`), and the strongest true part is proved with suffix `_partial`.

## What is modelled and what is not

Modelled (see the header of each file for the exact lines):

| model file | code |
|---|---|
| AddressSpace, Alias, RegionApi, PortIo | as.hpp; AS_RESOLVE_ALIAS, correct_phys_addr; mem_init_region_*, mem_destroy_region, io_*, cpu_set_a20 and the deferred requests; as_io_dispatch_* |
| Ipt | XBOX_CPU: ipt.cpp (Linux) fault handler, flushes and protections, load_ipt / store_ipt |
| Block, HostPtr, Dispatch, CrossPage, GuestMem | mem_read_block / mem_write_handler / fill; get_host_ptr; as_memory_dispatch_*; mem_read_slow / mem_write_slow |
| Paging, Tlb | mmu_translate_addr, check_page_access, check_page_privilege; tlb_fill, tlb_flush, tlb_invalidate, lookups |
| FpuMem | FPU instructions with a memory operand and the FPU pointers: jit.cpp 2581-2606, 2680-2690, 3890-4052, 4133-4208, 6303-6328, fpu.cpp 66-77, 260-281; FSTENV/FRSTOR do not exist in the code |
| EmitFpu | the host code emitted for the x87 instructions, with the host's FPU as a stack machine whose arithmetic is a parameter: jit.cpp 436-438, 559-565, 2535-2590, 2691-2742, 3804-4213, 6012-6135, 6203-6238, 6305-6330, 6376-6510, 6568-6590, fpu.cpp 11-22, fpu_instructions.cpp 51-62 |
| SoftInt | INT3, INT n, INTO: jit.cpp 3762-3802, 7071-7087, over Exc and Step; not the forwarding of vectors 1 and 3 to the debugger |
| FarPtr | LDS, LES, LFS, LGS, LSS: jit.cpp 3619-3679, given the operand's linear address |
| DbgStep | single stepping and instruction breakpoints across translated blocks: translate.cpp 1229-1376, 1478-1592, jit.cpp 796-941; HLT, REP and hardware interrupts left out |
| Host, Emit, EmitMore, EmitShift, EmitEa, EmitMov, EmitBlock, EmitJump, EmitStr, EmitFlag, EmitRun, EmitIo, EmitLink, EmitSimd | the host machine and the emitted instruction lists of memory operands (get_operand), the ALU, exchange and compare-exchange instructions, multiplications, scans, conditional sets and moves, shifts and rotates, moves and the stack, near jumps, calls and returns; the block around them; the translator and main loop over a program |
| Flags, Shift, Bcd, BitTest, Div, EffAddr, Stack, Near, Frames, StringOps | lazy flags and the emitted code of the integer instructions |
| Fpu, Fxsave, Sticky | x87 stack, tags and status; FXSAVE/FXRSTOR; exception flag updates of x87 and SSE |
| Seg, Exc, Ctrl, Step, FarRet, SysSeg, Priv, Coproc, Msr, IoBitmap, Watch | descriptor helpers, system segment instructions, segment loads, far transfers, exception delivery, privilege checks in front of system instructions, CLI/STI/POPF/PUSHF, availability checks of x87/MMX/SSE, CRn/DRn/MSR writes, I/O permission check, watchpoints |
| Tc, Tramp, Pool | code cache, links, jump table, return stack buffer, hooks; trampoline_call; allocator of code memory |
| Ints, Threads, Clock, Snapshot, SetFlags, New | event word, suspend/resume/snapshot threads, timers and TSC, save/load state, option flags, cpu_new |

Not modelled: the host compiler, asmjit and the register allocation of emitted code (except where noted), Zydis (the decoder's
output is an input), Windows code, the debugger GUI, XBOX-only code other than the inline page table (its set-up, back-patched bytes, Windows version), numeric results of FPU/SSE arithmetic and of
transcendental functions, host page protections and mprotect failures, the wall-clock behaviour of the host's scheduler, memory
exhaustion of the host, logging.

The files are models of separate components. Interfaces between them are parameters (for instance `fix`, `tr`, `Acc`, `map`,
`bus`) about which the component theorems assume only what another theorem proves; the header of each file says which.

## Per-property plan and outcome

| id | title | modelled | how proved | Props files | status |
|---|---|---|---|---|---|
| C01 | Every address resolves to the region that contains it | Model/AddressSpace (as.hpp as a keyed sorted map, iterators are keys, `split_at+1` wraps, deref of end() = UB) | invariant `Tiled` kept by insert and erase, induction over histories | AddressSpace | partial |
| C02 | A new region owns its range and leaves the rest alone | Model/AddressSpace | pointwise characterisation of search after insert (insert_spec) | AddressSpace | partial |
| C03 | Destroying a range unmaps exactly that range | Model/AddressSpace | pointwise characterisation of search after erase, including merging | AddressSpace | partial |
| C04 | Region size arithmetic and parameter checks | Model/RegionApi, argument arithmetic modulo 2^64 | case analysis, omega | RegionApi | partial |
| C05 | Alias regions forward to the original bytes | Model/Alias: region identities, AS_RESOLVE_ALIAS, correct_phys_addr | induction on chains of any depth, against the relation Forwards of Spec/Alias | Alias | partial |
| C06 | Carving a region keeps the backing bytes of what remains | Model/AddressSpace, split copies buff_off_start | corollary of C02/C03 with payload | AddressSpace | partial |
| C07 | Deferred region changes equal immediate ones | Model/RegionApi: request queue and its service | simulation of queued by immediate requests, induction | Deferred | partial |
| C08 | Handler updates take effect atomically at the interrupt, in order | Model/RegionApi: handler queue | induction over the queue | Handlers | partial |
| C09 | Port I/O goes to the owning handler only | Model/PortIo over the port tree | corollary of C01-C03 | Handlers | partial |
| C10 | A20 gate: last request wins and only bit 20 is affected | Model/RegionApi: a20 state machine | induction over requests | A20 | proved |
| C11 | Block write then block read returns the written bytes | Model/Block | induction on the page-chunk loop, refinement to a byte map | Block | partial |
| C12 | actual_size is the exact length of the transferred prefix | Model/Block | induction on the loop | Block, BlockVirt | partial |
| C13 | Rom is never modified by block writes | Model/Block | invariant of the loop | Block | proved |
| C14 | Fill equals writing a constant block | Model/Block | equality of the two loops | Block | proved |
| C15 | With paging off virtual addresses are physical addresses | Model/Paging | case analysis | Paging | proved |
| C16 | Page translation obeys the x86 permission rules | Model/Paging against Spec/Paging | whole finite tables by kernel `decide`, bit lemmas for addresses | Paging | partial |
| C17 | Page fault error codes are architectural | Model/Paging against Spec/Paging | case analysis of the walk | Paging | proved |
| C18 | Accessed and dirty bits are maintained | Model/Paging, Model/Tlb | walk lemma; invariant over histories of accesses | Paging, TlbDirty | partial |
| C19 | Translated address is frame plus offset | Model/Paging | bit lemmas | Paging | proved |
| C20 | TLB index and tag identify the virtual page | Model/Tlb | bit-field arithmetic | Tlb | proved |
| C21 | TLB hit answers equal a fresh page walk | Model/Tlb against a fresh walk (Spec/Tlb) | invariant over all access/flush/map histories | Tlb | partial |
| C22 | tlb_invalidate removes the page from the TLBs | Model/Tlb | set/line invariant; witness histories | Tlb | partial |
| C23 | Global pages survive non-global flushes and nothing else does | Model/Tlb | frame property of the flushes | Tlb | proved |
| C24 | Page-crossing accesses equal byte accesses | Model/CrossPage | composition lemma over bytes for any width | CrossPage | partial |
| C25 | EFLAGS write/read round trip | Model/Flags | bit-level proofs | Flags | proved |
| C26 | Lazy flags equal architectural flags | Model/Flags against Spec/Flags | bit and integer arithmetic for every width and operand | Flags | partial |
| C27 | Helper-changed single flags leave the others alone | Model/Flags | bit-level proofs | Flags | proved |
| C28 | FPU tag and status words round trip | Model/Fpu | all values, invariant over histories | Fpu | proved |
| C29 | FPU stack push and pop are inverse and faults are masked per control word | Model/Fpu | case analysis, invariants | Fpu, FpuStack | partial |
| C30 | FXSAVE/FXRSTOR round trip | Model/Fxsave over Model/GuestMem | byte layout lemma, round trip, fault sequences by induction | Fxsave | partial |
| C31 | DIV/IDIV deliver quotient and remainder or #DE | Model/Div with UB outcome | Int/Nat arithmetic | Div | partial |
| C32 | MSR write/read round trip and reserved bits | Model/Msr | case analysis over all register numbers and values | Msr, MsrMachine | partial |
| C33 | Cached mode bits always agree with the registers | Model/Seg, Exc, Ctrl, Step | invariant over every run of the modelled instructions | Mode | partial |
| C34 | CR0/CR4 writes reject invalid combinations and apply the rest | Model/Ctrl | accept/reject sets for all values | CtrlRegs | partial |
| C35 | Segment descriptor decode | Model/Seg against Spec/Desc | descriptor arithmetic | Seg | partial |
| C36 | Segment loads enforce privilege | Model/Seg against Spec/Desc | accept/reject sets | Seg | partial |
| C37 | Returning to an outer level nulls segments that are too privileged | Model/Seg | case analysis; witnesses | FarRet | partial |
| C38 | Far jump through a call gate goes to the gate's target | Model/Seg | case analysis; witness | FarJmp | partial |
| C39 | Stack push/pop helpers are inverse and respect stack size | Model/Stack | BitVec arithmetic | Stack | partial |
| C40 | Double and triple faults follow the architectural table and terminate | Model/Exc against Spec/DoubleFault | table equivalence; termination by a measure on the nesting | DoubleFault | proved |
| C41 | Snapshot/restore round trip | Model/Snapshot | structural round trip after any history | Snapshot | partial |
| C42 | A rejected snapshot changes nothing | Model/Snapshot | case analysis | Snapshot | partial |
| C43 | Snapshots from any thread complete | Model/Threads | interleaving model with any number of threads, invariants; witness schedules | ThreadsSnap | partial |
| C44 | No suspend request is lost | Model/Threads | interleaving model, invariants; witness schedule | Threads | partial |
| C45 | Hardware interrupts are delivered only with IF set and are not lost | Model/Ints | interleaving model of the event word, invariants | Ints, StiShadow | proved |
| C46 | No stale code after a write to code | Model/Tc | invariant over all histories; reachable witnesses | CodeCache | partial |
| C47 | Executing a cached block equals executing fresh code | Model/Tc | invariant over all histories; reachable witness | CodeLinks | partial |
| C48 | Direct links between blocks are removed when a target is invalidated | Model/Tc | invariant over all histories; reachable witness | CodeLinks | partial |
| C49 | Return address prediction is only a hint | Model/Tc: the ring | refinement to a bounded stack | CodeLinks | partial |
| C50 | Code memory blocks are never handed out twice | Model/Pool | invariant over all histories | Pool | partial |
| C51 | Hooks behave as a map from address to callback | Model/Tc: hooks | refinement to a partial function | CodeLinks | partial |
| C52 | Flag validation in cpu_set_flags | Model/SetFlags | bit-level equivalence, induction over histories | SetFlags | proved |
| C53 | Timeout: cpu_run_until returns after the deadline | Model/Clock | arithmetic of deadlines; run induction | Timeout | partial |
| C54 | TSC is monotone and continuous across snapshots | Model/Clock | Nat division and modular arithmetic | Tsc | proved |
| C55 | Watchpoints fire exactly on matching accesses | Model/Watch | overlap arithmetic, invariant over histories | Watch | partial |
| C56 | Nothing the guest cached outlives a change of the memory map or of the a20 gate | Model/RegionApi: `cache` | invariant over histories | A20 | proved |
| C57 | PUSHF, POPF, LAHF and SAHF agree with EFLAGS | Model/Flags | bit-level proofs | FlagInstr | proved |
| C58 | Condition codes mean what the comparison said | Model/Flags against integer comparison | integer arithmetic | FlagInstr | proved |
| C59 | Shifts and rotates match the architecture | Model/Shift against Spec/Shift | bit-position arithmetic for all widths and counts | Shift | proved |
| C60 | Decimal adjust instructions compute decimal arithmetic | Model/Bcd | decimal arithmetic over all bytes | Bcd | proved |
| C61 | Bit test instructions address the guest's bit string | Model/BitTest against Spec/BitTest | bit lemmas on memory | BitTest | partial |
| C62 | I/O permission bitmap | Model/IoBitmap | exact decision for all inputs; witnesses | IoBitmap | partial |
| C63 | Floating point exception flags are sticky | Model/Sticky | bit-level proofs; witness | Sticky | partial |
| C64 | Effective addresses | Model/EffAddr | BitVec arithmetic | EffAddr | proved |
| C65 | REP string instructions | Model/StringOps | induction on the count, restart over any list of faults | StringElem, StringOps | proved |
| C66 | Stack instructions | Model/Stack | case analysis over instructions | Stack | partial |
| C67 | Targets and privilege of far calls and jumps | Model/Seg | accept sets; witness | FarJmp | partial |
| C68 | Faulting event delivery is restartable | Model/Exc | every fault point of the delivery | DoubleFault | proved |
| C69 | Self-modifying code stops the running block | Model/Tc | case analysis; witness | CodeLinks | partial |
| C70 | cpu_new checks its parameters and provides the ram asked for | Model/New | arithmetic modulo 2^64 | New | partial |
| C71 | HLT waits for an interrupt | Model/Ints | interleaving model; witness schedules | Halt | partial |
| C72 | Guest accesses reach exactly the bytes or the device behind their addresses | Model/Dispatch over Model/Block | resolution lemmas for regions and aliases; witnesses | Dispatch | partial |
| C73 | An interrupted program resumes where it was | Model/Exc.lean, Model/Seg.lean | `Spec/Frame.lean` says what a frame, an entered handler and a resumed program are; delivery is inverted into its single success path, the pushes are read back with store/load lemmas, and IRET is run on the resulting frame. Negations by concrete executions for 16 bit gates on 32 bit stacks and for DF of vm86 programs | IntRet, IretResume | partial |
| C74 | Events reach handlers only through valid gates | Model/Exc.lean | `Spec/Gate.lean` is the table of checks; delivery is shown to stop with exactly that exception, by case analysis on the table | Gate | partial |
| C75 | Pages that instructions were fetched from stay watched for writes | Model/Tlb.lean | an invariant over every operation on the translation state (`watched_step`) and induction over histories | SmcMark | proved |
| C76 | Procedure frames and register frames are undone exactly | Model/Frames.lean, Model/Stack.lean | ENTER, PUSHA and POPA are rewritten as lists of pushes, whose contents are read back with the lemmas of C66; POPA by induction over its registers; restart by a relation between the states before and after the aborted attempt | Frames | partial |
| C77 | The FPU registers behave as a stack of eight places | Model/Fpu.lean | `Spec/Fpu.lean` is a stack of eight optional values; the physical registers, tags and top are mapped to it (`view`) and each instruction is shown to commute with that map | FpuMachine | proved |
| C78 | IRET restores the flags the program may change | Model/Step.lean, Model/Seg.lean | `Spec/IretFlags.lean` gives the rule per bit; the pops are read back with the stack lemmas of C73 and each bit of the composed EFLAGS word is computed | IretFlags | partial |
| C79 | System segment and descriptor table instructions | Model/SysSeg.lean, Model/Step.lean | `Spec/SysSeg.lean` states the faults in the architecture's order; each helper is cut into tails with the descriptor as a variable, whose runs are compared with the specification case by case | SysSeg | partial |
| C80 | Real mode interrupts enter the table's handler and IRET resumes the program | Model/Exc.lean, Model/Seg.lean | `Spec/RealEvent.lean` states the entry, the handler's end and the resumption from registers and memory; the pushes by induction over the list, the pops with the lemmas of C78 | RealEvent | proved |
| C81 | Jumps, loops, calls and returns go where the architecture says | Model/Near.lean: each emitted sequence as a function on (stack, flags, ECX, EIP, CS); Model/Stack.lean for pushes and pops | bit vector arithmetic against integer specifications; induction over passes of a loop and over the list of nested calls (via C66_lifo) | Near | partial |
| C82 | The host code emitted for integer instructions implements them | Model/Host.lean: a machine with the host registers, partial register writes, locals, host ZF and the guest context; Model/Emit.lean: the emitted instruction lists; Spec/Emit.lean: operands, results and flags without host registers | symbolic execution lemmas for each sequence, composed over the operand templates; the flag sequences refine the functions of Model/Flags.lean, for which C26 gives the architectural flags | Emit | partial |
| C83 | Interrupts and exceptions of a vm86 program | Model/Exc.lean: deliver, vmeRedirect, deliverIdt, newStack, fromVm86; Spec/Vm86Event.lean: V86Entered and Redirected state what the handler finds, in terms of descriptor and TSS fields read by load | the successful run is decomposed through its checks, pushes and stores (C66 for the stack); each flag bit separately | Vm86Event | partial |
| C84 | Host code of multiplications, extensions, scans, conditional sets and moves, flag instructions, XLAT and BOUND | Model/Host.lean (host machine, with IMUL, SETcc, CMOVcc, BSF, BSR), Model/EmitMore.lean (emitted code); Spec/EmitMore.lean: products as integers, fits, IsScan, signed order | symbolic execution of the emitted code on the host machine; overflow, upper half and signed order from the integer meaning of the words; conditions through C58 | EmitMore, EmitMul | partial |
| C85 | Privileged instructions and isolation of user programs | Model/Priv.lean: a machine that executes every instruction of Model/Step and Model/SysSeg, MSR, DR, flag and 'any other' instructions; Spec/Priv.lean: Privileged, SameSystem, Runs | invariant: each completed instruction keeps the system registers (keeps-lemmas per helper), the mode bits stay in agreement, induction over the program | Isolation, Priv, PrivEx | partial |
| C86 | Interrupt-flag instructions follow the privilege tables | Model/Priv.lean: ifAct, cli, sti, popf, pushf; Spec/Priv.lean: effect (SDM table), popfWrites, pushfBit | translation of the mode bits to architectural registers (AgreeCore), flag words bit by bit | IfFlag, PrivEx | partial |
| C87 | Translated code is only executed in the mode it was translated for | Model/Tc.lean: modeOf and the code cache; Model/Priv.lean and Model/Coproc.lean: the decisions; Spec/Coproc.lean: SameMode | the masks are disjoint, so the key determines the masked words bit by bit; mode bits equal the architectural registers (AgreeCore, C33); C47_key for histories | Coproc | partial |
| C88 | Coprocessor availability and lazy switching | Model/Coproc.lean: gate, simdExc, step; Spec/Coproc.lean: unavailable | case analysis on the bits; lazy switching by induction with the isolation lemmas of C85 | Coproc | partial |
| C89 | A far call comes back | Model/Seg.lean: lcallPe, copyParams, callInner, retPe; Model/Step.lean: farCallReal, farRetReal; Model/FarRet.lean: RETF imm; Spec/FarCall.lean: CallFrame, ProcDone, BackIn | inversion of a completed call to its frame, forward execution of the return from the frame alone, then composition; memory separation by address arithmetic | FarCall | partial |
| C90 | Only task switches and PAE make the emulator give up | Model/Seg.lean, Model/Exc.lean, Model/Step.lean; Spec/GivesUp.lean: Unsupported, TaskGate | a predicate 'never aborts' closed under the combinators, proved for every helper; exact characterisation for the four functions that can; induction over fuel and history | GivesUp | partial |
| C91 | A trampoline runs the original function once and returns at its return address | Model/Tramp.lean on top of the code cache Model/Tc.lean: the loop of cpu_exec_trampoline with the flag HFLG_TRAMP, direct jumps and predicted returns that bypass its condition, and faults while fetching. | every event of the trampoline is a sequence of events of the code cache (step_hist), so freshness (C47) and hooks (C51) apply to it; links and predictions leading to the return address can only disappear, an invariant kept by all events. | Tramp | partial |
| C92 | A more privileged level runs on the stack its task state segment names | Model/Seg.lean (tssStack, lcallPe) and Model/Exc.lean (newStack, fromVm86, deliverIdt). | deliverIdt_cases inverts a delivery into its three outcomes; the descriptor word compared by the code is decoded bit by bit into the conditions on the segment; the pushes give the distance of ESP from the TSS entry. | InnerStack | partial |
| C93 | Loading a segment marks its descriptor as accessed and writes nothing else | Model/Seg.lean (setAccessed, movSelPe, ljmpPe, retPe, iretPe, lcallPe). | Spec/Accessed.lean defines the marked memory; setAccessed_mem shows the helper computes it; each instruction is inverted into read-only steps and its marks. C93_mark states the mark in terms of bits and bytes. | Accessed | proved |
| C94 | In real and vm86 mode a segment is its selector times 16 | Model/Seg.lean (movSelReal, farReal, iretReal, iretToVm86), Model/Exc.lean (deliverReal, vmeRedirect, fromVm86), Model/Step.lean. | invariant over histories, by mode: outside protected mode every helper keeps any predicate that real-mode loads keep (all_*); entry from protected mode is IRET, which loads all six registers. | RealSeg | proved |
| C95 | The host code emitted for shifts and rotates does what the instruction says | Model/EmitShift.lean (emitted code), Model/Host.lean (host machine, shopStep), Model/Shift.lean (host shifts). | symbolic execution of the emitted list in three segments (operands, host instruction, flags and store), then C59 for the values. | EmitShift | proved |
| C96 | get_host_ptr points at the byte behind the guest address | Model/HostPtr.lean over the memory map (Model/AddressSpace.lean) and the host memory of Model/Block.lean; translation is a parameter constrained by Spec/BlockVirt.lean. | case analysis on translation and region type; agreement with mem_read_block_virt by unfolding both. | HostPtr | partial |
| C97 | Emitted code computes memory operands without disturbing the instruction | Model/EmitEa.lean: the emitted list of get_operand on the machine of Model/Host.lean, and that machine with this list in the place of each memory operand (`runWith`). | symbolic execution of the address code in stages (base, index, displacement); an invariant (what precedes the operand leaves RCX and the guest alone) by induction over the code; the effects from C82, C84, C95 and C64. | EmitEa | proved |
| C98 | Emitted code of MOV, LEA and the stack instructions | Model/EmitMov.lean: the emitted lists on the machine of Model/Host.lean, memory operands by C97. | each stage (stack pointer to (E)BX, item address, access, update) is executed symbolically and related to the stack of Model/Stack.lean and Model/Frames.lean; PUSHA and POPA by induction over the register list; the results in terms of offsets modulo the stack's size from C66 and C76. | EmitMov | partial |
| C99 | A translated block does what its instructions do one after the other | Model/EmitBlock.lean: the translation loop (EIP updates, interrupt checks, page rule) around the emitted code of C82, C84, C95, C97 and C98; Spec/EmitBlock.lean has what each instruction does and the sequence. | every instruction's theorem is put into one contract (runs iff allowed, then its effect; RCX kept; a fault leaves the state), the lazily kept flags invariant is preserved by every effect, and the block follows by induction over its instructions; the layout by induction over the decoded list. | EmitBlock | partial |
| C100 | Emitted near jumps, calls and returns, and blocks that end with them | Model/EmitJump.lean: the emitted lists up to the store to EIP, and the block with its terminator; Spec/EmitJump.lean gives targets and conditions in integers. | symbolic execution of each condition's list to the lazily kept flags' test, then C58; LOOP and JCXZ by cases of the counter; calls and returns from the push and pop theorems of C98, memory operands from C97; the block by C99. | EmitJump | partial |
| C101 | Emitted string instructions complete, or fault where they can be restarted | Model/EmitStr.lean: the emitted lists with their jumps, and the loop that re-enters them; Spec/EmitStr.lean: repetitions as a relation over the elements of Spec/StringOps.lean. | symbolic execution of one turn for each instruction, a bisimulation of the loop with the instruction-level model of C65 by induction on the count, and the theorems of C65. | EmitStr | proved |
| C102 | Emitted flag, bit, decimal and divide instructions do what the manual says | Model/EmitFlag.lean: the emitted lists with their jumps; Model/Host.lean: BT of a local, the calls of the division helpers; Spec/EmitFlag.lean: pushed and popped bits, dividends, adjustments. | symbolic execution of each piece, joined to the instruction-level theorems of C31, C57, C60 and C61. | EmitFlag | partial |
| C103 | Direct memory accesses of the Xbox build agree with the memory handlers | Model/Ipt.lean: the table, the host protections of the views, the fault handler, the emitted page-crossing check and the events that change them; Spec/Ipt.lean: the byte a linear address denotes. | invariants over histories by induction on the last event (origin of each element, protection of read-only and code pages, pages of watchpoints); violations are computed histories. | Ipt | partial |
| C104 | Running translated blocks is running the guest program instruction by instruction | Model/EmitRun.lean: the translator's loop over a program, which blocks are cached, the main loop with the emitted code of C99 and C100; Spec/EmitRun.lean: the program's instructions one at a time, with no blocks or host code. | simulation: each block is a path of instruction steps (C99, C100) and the steps of blocks compose; the cache holds only the program's blocks. | EmitRun | partial |
| C105 | Port instructions make exactly the port accesses they name, once, and only if allowed | Model/EmitIo.lean: the emitted instruction lists on the host machine of Model/Host.lean with the port helpers and the record of port accesses; Spec/EmitIo.lean: the accesses and results in terms of guest registers, the TSS and memory. | symbolic execution of each piece, induction over the repetitions, comparison with the bitmap of Model/IoBitmap.lean for the check. | EmitIo | partial |
| C106 | A block goes on only to code translated for exactly the address, code base and mode it reaches | Model/EmitLink.lean: the emitted instruction lists over host memory that holds the jump table in 24 byte elements, and the return stack buffer as pairs of 64 bit words; Spec/EmitLink.lean: elements, requests that can be served, what a word pair says. | symbolic execution of each piece; simulation of Model/Tc.lean's buffer by the words, by induction over histories; the invariant that every valid element has a block over all histories of Model/Tc.lean. | EmitLink | proved |
| C107 | The code of SSE and MMX instructions does what they do | Model/EmitSimd.lean: the emitted code on a host with XMM0 to XMM2 and MXCSR, calls that lose them, the results of floating point operations on a lane being an input | symbolic execution against Spec/EmitSimd.lean (lanes, operands, flags) | EmitSimd | partial |
| C108 | CR2 is the address of the last page fault | Model/Exc.lean (deliver, raise) | a triple for each delivery path, then induction over the chain of events | Cr2 | partial |
| C109 | Single stepping and breakpoints do not depend on how code is split into blocks | Model/DbgStep.lean (gather, body, endCheck, enter, turn) | simulation of a reference that runs one instruction at a time (Spec/DbgStep.lean): induction over the instructions of a block and over the blocks | DbgStep | partial |
| C110 | FPU memory instructions can be restarted, and the FPU pointers name the last instruction and operand | Model/FpuMem.lean (fstMem, readMem, regIns, updatePtr) over Model/Fpu.lean | case analysis on the order of the emitted steps; bit-level proof of the packing and unpacking of the pointers | FpuMem | partial |
| C111 | Every FPU instruction computes on the guest's operands with the guest's rounding and precision, and gives the host its FPU back | Model/EmitFpu.lean (host instruction sequences over a host FPU with a parametric arithmetic) over Model/Fpu.lean | symbolic execution of each emitted sequence, refinement to the stack machine of C77; induction over histories of control word writes | EmitFpu | partial |
| C112 | Interrupt instructions enter their handler and return behind themselves, or fault at themselves | Model/SoftInt.lean over Model/Exc.lean and Model/Step.lean | composition with the handling of events (C40), the frame and IRET (C73), gates (C74), real mode (C80) and vm86 mode (C83) | SoftInt | partial |
| C113 | LDS, LES, LFS, LGS and LSS load a far pointer whole or not at all | Model/FarPtr.lean over Model/Seg.lean and Model/Step.lean | case analysis on the accesses, composed with C35, C36 and C94 | FarPtr | proved |
| C114 | A masked FPU stack fault completes with the indefinite value | Model/Fpu.lean, Spec/FpuMasked.lean | case analysis on the instruction over the abstraction of C77 (each place of the stack empty or a value) | FpuMasked | partial |

What is missing from each partial property:

* **C01**: Proved for every history in which no new range ends exactly on the first byte of a longer neighbour (in particular all histories of page aligned ranges). The excluded coincidence leaves a gap or undefined behaviour in the code: the two _violation theorems.
* **C02**: Proved outside the coincidence of C01; witness of the lost neighbour in the violation theorem.
* **C03**: Proved outside the coincidence of C01; witness of a neighbour being unmapped in the violation theorem.
* **C04**: Proved for start + size not wrapping modulo 2^64; the wrap and destroy with size 0 are violations of the code.
* **C05**: Chains of any depth and agreement of all resolvers proved; the offset claim is proved until the alias or its original is split or dropped, which the code mishandles (three violation theorems).
* **C06**: C06_lost_violation: after a region is added whose end is the start of another, the bytes of that one are not found any more.
* **C07**: Proved for all sequences except alias requests made while other changes wait (violated by the code).
* **C08**: Proved when no map change is pending at the service; an update of a region whose creation is deferred is lost by the code.
* **C09**: C09_neighbour_violation: after ports are added whose end is the start of another port region, that region calls the callback of the new one.
* **C11**: Proved for one ram region under aliases (C11_one_region_partial) and, for any map, that what is read back is what was written provided no two written addresses share a backing byte. The code backs every ram region with the same buffer at offset 0 of the region, so two ram regions share bytes: violation theorem.
* **C12**: Proved for every map without wrap-around of addr + size; the wrap-around makes the code read past a rom buffer: violation theorem.
* **C16**: Proved for all user accesses and all supervisor accesses except a CR0.WP supervisor write to a supervisor page whose PDE and PTE disagree about R/W, where the code ORs the two bits: violation theorem.
* **C18**: The page walk sets exactly the accessed bits and, for writes, the dirty bit; through the TLB proved for accessed bits on all histories and for the dirty bit on histories of guest accesses. The block api's virtual writes only set the TLB's dirty flag: violation theorem.
* **C21**: Proved for maps whose regions are page aligned and aliases shifted by whole pages, over all histories; a misaligned alias is served from a wrong address on a hit: violation theorem.
* **C22**: The code clears only the first matching line; proved for pages translated at most once since the last flush, and that eight calls suffice in general; two histories that leave a stale entry are the violation theorems.
* **C24**: Reads of every width and writes of 1, 2, 4, 8 bytes are complete, for any pair of mappings, over ram. Violated by writes of 10 and 16 bytes (FSTP m80, MOVUPS) that cross a page: the shift operator of the 80 and 128 bit types changes its operand, so the loop stores byte 0+1+...+i of the value as byte i (C24_wide_write_violation, C24_wide_write_partial).
* **C26**: ADD, ADC, SUB/CMP, SBB, NEG, INC, DEC, XADD and logic proved at all widths. CMPXCHG: data, ZF proved; the code subtracts the accumulator from the destination instead of the reverse, so CF/OF/SF/AF differ from the architecture: violation theorem.
* **C29**: Push, pop and their inverse, overflow, underflow, unmasked faults of every modelled instruction, pending exceptions. Partial: FLD ST(i)/FADDP with an empty ST(i) give the wrong masked response, FXCH and FPATAN leave stale tags (violation theorems).
* **C30**: Round trip, layout of the image, restart after page faults, no change on faults. Partial: stale tags left by FXCH/FPATAN change across the round trip, and the image holds physical registers instead of ST(i) (violation theorems).
* **C31**: DIV/IDIV of all widths for all operands. Partial: IDIV r/m32 and r/m16 of the most negative dividend by -1 is undefined behaviour in the helper instead of #DE (violation theorems).
* **C32**: Round trip, frame, reserved bits, privilege, bounds for all register numbers and values. Partial: violations for PAT field 7, MCG_STATUS, EBL_CR_POWERON, APIC_BASE and unknown registers.
* **C33**: Proved for every run of the modelled instructions (MOV CRn, LMSW, far transfers, IRET, RET, exceptions): the derived mode bits stay coherent with CR0/EFLAGS and the cached segments (core), and a flat bit set means the base is zero. Partial: witnesses where real-mode far transfers, vm86 entry and external register writes leave the mode bits stale.
* **C34**: CR0/CR3/CR4/LMSW accept and reject sets for all values; partial: CR4.PAE accepted without the paging mode, with witness.
* **C35**: Segment registers hold what the descriptor said, for all selectors and descriptors; C35_outside_partial rejects selectors outside the table when the limit computation does not wrap; C35_wrap_violation shows the wrapping case being accepted.
* **C36**: Accept and reject sets of SS loads exactly as specified; data segment loads except the privilege rule, which the code weakens (violation witness: CPL 3 loads a DPL 0 segment with RPL 0); rejected loads change nothing.
* **C37**: Far returns to an outer level: CPL, CS, SS as specified; partial: the clearing of too-privileged data segments reads the wrong flag bits (two violation witnesses).
* **C38**: Direct far jumps for all descriptors; through a gate the code uses the operand instead of the gate's target (violation).
* **C39**: The general stack helpers lose the upper half of ESP for 16 bit stacks (violations proved), so the full property only holds for 32 bit stacks or ESP below 64 KiB (partial theorems).
* **C41**: Partial. Proved: taking a snapshot changes nothing; restoring it later into a cpu of the same shape brings back registers, MSRs, lazy flags, FPU/SSE state, RAM, A20 and the time stamp counter for every intermediate history, with no stale code or TLB entry. Not true of the code: the halted state is not restored (support.cpp 132 assigns the field to itself) - C41_halted_violation; a client buffer of the documented ram size is overflowed - C41_client_buffer_violation; an aligned ram buffer is read past its allocation - C41_aligned_ram_violation.
* **C42**: Partial. Proved: wrong id or size rejected with the cpu unchanged, good header accepted. Not true of the code: the size of the ram image is not checked (C42_ram_size_violation). The branch taken when the cpu runs on another thread is in Model/Threads (C43).
* **C43**: Proved, for every interleaving with any number of threads: a snapshot of a suspended cpu returns and is of one state, and so does one of a cpu that is not being run and whose thread id is clear. Violated (all shown): a snapshot of a running cpu from another thread never returns, after suspend-resume-suspend the guest may execute while the snapshot is written, and of several waiting snapshots two can run at once. cpu_run_until on a cpu that stays halted returns with the thread id still set, after which a snapshot from another thread never returns although nothing runs (C43_halted_violation); from the same thread it fails with internal_error (not modelled).
* **C44**: Proved, for every interleaving with any number of threads: a suspend of a freely running cpu stops the guest at its next check and it stays stopped; resume resumes. Violated: a suspend right after a resume can be lost for good (C44_lost_suspend_violation).
* **C46**: Over all histories of runs, jumps, returns, writes, mappings, mode changes and hooks: an executed block has the bytes now in memory (C46_bytes_partial) and is the translation of the current memory (C46_current_partial). Missing: writes across a page, blocks that begin with undecodable bytes and a full cache, for which the code is wrong (three violations, each on a reachable history).
* **C47**: The base, mode, physical address (main loop) and linear address (direct jump) always match; an executed block equals a fresh translation when no code is reached through two linear addresses (C47_fresh_partial). The code looks blocks up by physical address only: C47_alias_violation.
* **C48**: No jump to a removed block, none to an invalidated page, none after a flush, over all histories outside the C46 defects. C48_alias_violation: a block found through an alias is linked under an address that maps elsewhere.
* **C49**: The ring refines a bounded stack of 64 entries for pushes and pops from any state; a prediction needs the exact return address, base and mode. C49_live_partial: predicted blocks are cached when the return address lies on the page of the block; C49_dangling_violation: a CALL at the end of a page leaves an entry to a freed block.
* **C50**: Over all histories of translations, releases, purges and code writes (which overwrite the free-list words): the pool partitions into free and used blocks, no block is in use twice, and the cache limit prevents exhaustion. Missing: aborts and nested loops while an uncached block runs, where the code leaks a block (the pool then runs empty, C50_leak_violation) or hands out the memory of running code (C50_nested_violation).
* **C51**: The hook table is the map of the last operations over all histories; the callback that is called is the one of the map outside three defects, each shown by a reachable history. An address whose translation faults is not modelled.
* **C53**: Never early: proved. Returns in time: proved for guests only ever run with cpu_run_until and for jumps, calls, page ends and HLT; with returns, at most 64 further blocks run past the deadline. Violations: a RET whose target is predicted sees the timeout and goes on; code translated by cpu_run is reused without timer checks; blocks ending with an exception or a pending interrupt never check; cpu_run is rejected forever after one cpu_run_until. Trampolines and the debugger are not modelled.
* **C55**: Data watchpoints: exact (trap and DR6 bits) in every history of DR/CR4 writes, client register edits, syncs and accesses, for accesses that do not wrap past 2^32. io: exact right after DR7 is written with ports < 2^16. Instruction breakpoints: exact when no data watchpoint is enabled. Violations: wrapping access missed; a data watchpoint stops execution; io watchpoints moved with CR4.DE clear. That breakpoints on already translated code are only checked when the main loop reaches the block is not modelled.
* **C61**: Register and immediate forms proved in full; memory destination with a register offset proved for offsets inside the operand, and the out-of-range case is shown to access the host's stack (violation).
* **C62**: The limit check is right; the bitmap is read 103 bytes too far, with user privileges and through host registers a call may clobber: violations proved, the exact computed decision characterised.
* **C63**: Flags are overwritten, not accumulated: proved exactly what is kept (the last instruction's flags) and that the full property fails.
* **C66**: PUSH/POP/LEAVE are proved; POP [mem] addressing through ESP uses the old ESP and LEAVE writes ESP before a pop that faults: both violations are proved.
* **C67**: Far calls: partial because a gate to a conforming segment lowers CPL (violation witness).
* **C69**: Proved when the block executes its first instruction; the code compares the instruction pointer with the start of the block, so later instructions are not stopped (violation).
* **C70**: Proved for the documented parameters (and that other alignments and size 0 are refused). Violated: alignment 0 is accepted and gives a null ram pointer; a size that wraps around is accepted with a buffer of a few bytes. XBOX_CPU builds not modelled.
* **C71**: Partial. Proved: without a stop request nothing is executed after HLT before a hardware interrupt is delivered. Not true of the code: after cpu_exit and cpu_run the halted state is forgotten (C71_exit_forgets_halt_violation); a debug trap delivered by the waiting loop does not end the wait and can hang the cpu for ever (C71_debug_trap_hangs_violation).
* **C72**: Proved, for every map built by the region functions, for accesses that lie in one region (directly or through any chain of aliases), of ram, rom, devices and unmapped memory. Violated at region boundaries inside a page: past ram the ram buffer is read and written, past rom the bytes read as 0, and at the end of rom below 4 GiB a read through an alias never returns. An access of 10 or 16 bytes to a device aborts the emulator (C72_wide_device_partial, C72_wide_device_violation).
* **C73**: Proved for events in protected mode through all gates (frame, entry) and for 32 bit IRET at the same or an outer level, for every handler that leaves the frame, NT and VM alone. False for 16 bit frames on 32 bit stacks (ESP is truncated: C73_iret16_violation) and for DF of a vm86 program (C73_vm86_violation). Task gates are not modelled (the code aborts on them).
* **C74**: All checks of gate and handler proved, except that the handler's segment is a code segment: the code does not check it (C74_data_violation). Tables that reach past the linear address space are excluded for the handler's descriptor (C35_wrap_violation), and task gates (the code aborts).
* **C76**: 16 bit ENTER on a 32 bit stack and displays that wrap on a 16 bit stack are left out and shown to go wrong (violation theorems). A fault may leave partial data below the stack pointer in memory.
* **C78**: Partial: the code accepts a popped VM flag at level 3 and takes IOPL and IF from the image (escalation_violation), does not restore DF for vm86 (df_violation), and a 16 bit IRET at level 0 keeps IOPL (iopl16_violation). In 16 bit stacks the frame must not wrap (ItemsReached).
* **C79**: Partial: LLDT accepts selectors with TI set (lldt_ti_violation); LTR, LLDT, VERR, VERW and ARPL are not undefined in real mode (real_violation).
* **C81**: Partial: a far CALL outside protected mode that faults on its second push has already moved SP (C81_far_call_fault_violation). CS limit checks are not done by the code and not claimed.
* **C82**: Partial: XCHG with memory overwrites the register before the store that may fault (C82_xchg_fault_violation); CMPXCHG does not write a differing destination back (C82_cmpxchg_readonly_violation) and its flags are C26's violation. The encoding by asmjit and the address computation (C64) are not part of this model.
* **C83**: Partial: CS is loaded with the selector of the gate cut to 12 bits (C83_selector_violation); the redirected INT with IOPL below 3 clears IF where the architecture clears VIF (C83_vif_violation); the flat bit of CS stays as it was after a redirected INT (C83_flat_violation). INT 14 redirected to the program is excluded: it sets CR2 to 0 (C108_redirected_violation).
* **C84**: Partial: XLAT with 16 bit addresses does not wrap the offset at 64K (C84_xlat_violation); excluded by hypothesis in C84_xlat_partial. Flags the architecture leaves undefined are not constrained.
* **C85**: Partial: C85_gd_violation (with DR7.GD set, user accesses raise #DB and change DR6 instead of #GP); C85_iret_violation (IRET with VM set in the image changes IOPL from level 3): programs that enter vm86 mode by IRET are excluded. Isolation is about registers; memory isolation is C16, C21.
* **C86**: Partial: C86_cli_violation, C86_sti_violation (VME outside vm86 mode, PVI at levels 1 and 2, PVI in vm86 mode are accepted) and C86_popf_violation (a set IF with VIP raises #GP although the popped IF is clear) are excluded by hypothesis. RF, VIF and VIP are not in the POPF table for protected mode; the theorem says they stay.
* **C87**: Partial: C87_executed_partial inherits the excluded histories of C47 (C47_alias_violation, purge during insertion). C87_architecture and C87_decisions hold for all states. The selector of CS, pushed as a constant by translated far calls, is not part of the key (defect list).
* **C88**: Partial: with TS set and EM set or OSFXSR clear, EMMS and SSE instructions raise #NM instead of #UD (C88_priority_violation); C88_available, C88_simd and C88_lazy hold without exception. That each instruction has the check of its class was read off the source (lines cited at Cop), not proved.
* **C89**: Partial: 16 bit calls on a 32 bit stack above 64K truncate ESP (C89_wide_violation), 32 bit calls on a 16 bit stack clear the upper half of ESP (C89_small_violation), parameters are read with the mask of the new stack (C89_params_violation), RETF n to an outer level takes the parameters for SS:ESP (C89_retf_imm_violation). C89_direct_frame, C89_gate_frame, C89_returns, C89_direct_round_trip, C89_real_frame and C89_real_returns are for stacks with room for the frame and non-conforming targets.
* **C90**: Partial with respect to the architecture: the request is not checked for privilege first, so a user program can stop the emulator (C90_user_violation). The theorems C90_instr, C90_instr_always, C90_exec, C90_run and C90_event_always hold without exception for the modelled operations. Aborts outside the model: code outside RAM and ROM (translate.cpp 1298), unknown MSRs, opcodes the translator does not implement.
* **C91**: Returning is proved if no link or predicted return leads to the return address when the call starts. C91_overrun_violation: in the normal case the CALL of the caller is such a prediction, the RET of the original function jumps into the block of the caller and trampoline_call does not return. C91_refault_violation: if fetching the first instruction faults, the hook runs once more instead of the original. Partial also because C47 and C51 are.
* **C92**: C92_conforming_violation: a call gate to conforming code raises the level on the caller's stack (see C67). C92_user_rights_violation: in protected mode the TSS is read with the rights of the interrupted level, so with a TSS on a supervisor page no event from level 3 can be delivered. C92_not_present_violation: events report a non-present inner stack as #TS instead of #SS.
* **C96**: Violated for alias regions: get_host_ptr does not follow aliases, so an address in an alias of ram gives nullptr/invalid_parameter though it is backed by ram (C96_alias_violation).
* **C98**: Violations: MOV r16, Sreg writes 32 bits; MOV Sreg, m reads four bytes with 32 bit operands; POP to memory uses ESP before the pop in its address; a faulting LEAVE has already written ESP.
* **C99**: The blocks include the instructions of C102 that do not end a block (LAHF, SAHF, PUSHF, the bit tests except of memory with the bit number in a register, DIV, byte IDIV, the decimal adjustments; AAM with base zero excluded).
* **C100**: C100_jump is the property for one instruction, in full. The block is partial only as C99 is (instructions that have changed something when they fault). What follows the store to EIP, the linking of blocks, is the subject of C47 to C49.
* **C102**: C102_lahf, C102_sahf, C102_pushf, C102_popf, C102_div, C102_aaa, C102_aas, C102_aad, C102_aam, C102_daa_das hold in full. C102_bit_partial excludes a memory operand with a register bit number outside the operand (C102_bit_violation: the host's BTx reaches outside the copy on the host stack). C102_popf_vme_partial excludes a pending interrupt with IF set and popped IF clear (C102_popf_vme_violation: #GP where the manual has none). C102_idiv_partial excludes the least dividend by minus one (C102_idiv_violation: the helper divides with overflow).
* **C103**: Full: C103_watch, C103_rom, C103_fault, C103_query (translation works in whole pages). C103_mapping_partial needs regions made of whole pages (C103_mapping_violation: the console's boot rom at 0xFFFFFE00 is read at the wrong offset or from the flash rom). C103_readonly_partial: pages read-only in all their mappings (C103_readonly_violation: a second writable mapping, or a read-only directory entry over a writable page entry). C103_progress_partial (C103_progress_violation: a supervisor write to a read-only page with CR0.WP clear faults for ever). C103_code_partial: fetches that fill the tlb, ram mapped once (C103_code_violation: a fetch that hits the tlb marks the page as code but leaves it writable). C103_accessed_violation: no accessed or dirty bit is set. The bytes of back-patching are not modelled.
* **C104**: Proved for programs of the instructions of C99 and C100 that stay as they are, with CS and the mode unchanged. Missing as in C99/C100: instructions with defects of their own (Legal) and what a faulting XCHG with memory, LEAVE, PUSHA or POPA leaves; self-modifying code and mode changes are the subject of C46-C49 and C87. C104_cache and C104_whole_page are complete.
* **C105**: C105_port, C105_privileged, C105_outs and C105_outs_restart are complete. C105_bitmap_partial assumes that the calls of the memory helpers keep R10 and R11, which the calling convention does not promise (C62). C105_string_partial excludes what an INS that faults has read: C105_ins_restart_violation shows a faulting INS, executed again, reads the port twice and loses the first value, because the port is read before the store is known to be possible.
* **C107**: The results of floating point operations on lanes are an input. Partial because of defects: packed arithmetic accepts memory operands that are not at a multiple of 16 (C107_unaligned_violation), SUBPS and SUBSS run under the host's MXCSR, so that the guest's rounding is ignored and an unmasked exception is not reported (C107_sub_violation). Flags of earlier operations are lost (C63). With CR0.NE clear the translator aborts on any waiting FPU or MMX instruction (jit.cpp 2692-2705), so the code is that of CR0.NE set.
* **C108**: Partial because of defects: INT 14 and hardware interrupts with vector 14 set CR2 to 0, in protected mode and when redirected in vm86 mode (C108_int14_violation, C108_redirected_violation), and a page fault promoted to a double fault is not recorded (C108_double_violation).
* **C109**: Partial because of defects: a breakpoint set inside a block already cached is not seen (C109_cached_violation); TF and a data watchpoint in one instruction raise #DB twice (C109_twice_violation); an IRET run with RF set loses the RF it loads (C109_resume_violation); a dismissed debug trap comes back if the handler has a breakpoint (C109_revived_violation); bits 0-3 of DR6 are set when the breakpoint is translated, not when it is reached (C109_dr6_violation). HLT, REP and the debugger's own stepping are not modelled.
* **C110**: Partial because of defects: a faulting store has already cleared C1 and set the pointers (C110_fault_violation); the address of a masked underflow is taken from EDX after a call that may change it (C110_address_violation); FDP is the linear address and FDS is DS without a prefix, even for operands in the stack segment (C110_pointers_violation).
* **C111**: Partial because of defects: on an operand out of range FSIN, FCOS and FSINCOS jump to the end without restoring the host's control word and with a host register in use (C111_far_violation); FLD of a 32 or 64 bit number looks at invalid operation only, so an unmasked denormal exception is not reported (C111_denormal_violation).
* **C112**: Partial because of a defect: EIP is set to the next instruction before cpu_raise_exception, so the exception of a refused interrupt is raised with EIP behind the instruction (C112_restart_violation for every refused interrupt, C112_monitor_violation for a vm86 program).
* **C114**: Wrong in the code: FLD of an empty register, arithmetic with a destination other than ST(0) or a pop, FXCH with one empty register (not exchanged).

## Mutation testing

`seeded/LOG.jsonl` has one line per wrong program tried: the definition edited, the edit, the claim it breaks, the theorems that
failed to build, and the theorems that were tightened. Mutants are built in a scratch copy outside `/verif`.

## Defects of the code found while modelling

Proved in the model (the theorem names are the `_violation` theorems of the property in brackets):

* Address space: a new range that ends exactly on the first byte of a longer neighbour loses the neighbour or runs into undefined
  behaviour [C01-C03]; size arithmetic wraps and destroy of size 0 wraps [C04]; splitting or dropping an alias or its original leaves
  wrong offsets or dangling pointers [C05]; deferred alias requests are resolved too late [C07]; updates of regions whose creation is
  pending are lost [C08].
* Memory: all ram regions share the buffer from byte 0 [C11]; block reads that wrap past 4 GiB read past a rom [C12]; typed accesses past
  a region's end, 10 and 16 byte accesses to a device abort [C72]; 10 and 16 byte writes across a page store the wrong bytes (the shift
  operators of uint80_t and uint128_t change their operand) [C24]; virtual block writes do not set the page table's dirty bit [C18]; R/W of PDE and PTE are ORed for supervisor
  writes with CR0.WP [C16]; misaligned aliases are wrong on a TLB hit [C21]; tlb_invalidate removes only one line [C22].
* Instructions: CMPXCHG subtracts in the wrong order [C26]; FLD ST(i)/FADDP of empty registers, FXCH and FPATAN tags [C29]; FXCH with one empty register does not exchange [C114]; FXSAVE
  physical order [C30]; IDIV of the most negative value by -1 is undefined behaviour in the host [C31]; MSR defects [C32]; POP [ESP] and LEAVE [C66]; ENTER with 16 bit
  operands on a 32 bit stack sets only BP, and its display wraps in 32 bits on 16 bit stacks [C76]; a far CALL outside protected mode that faults on its second push has moved SP [C81];
  XCHG with memory overwrites the register before a store that faults, CMPXCHG does not write a differing destination back [C82]; XLAT with a 16 bit address does not wrap its offset [C84];
  BT with a register offset on memory addresses the host's stack [C61]; the I/O bitmap is read at the wrong place [C62]; exception flags
  are overwritten [C63].
* Segmentation: privilege check of data segments [C36]; clearing of segments on outer returns [C37]; far jumps through gates [C38];
  gates to conforming segments lower CPL [C67]; wrapping limit check of descriptor reads [C35]; stale or wrong mode bits (CPL taken from
  CS in real and vm86 mode) [C33]; CR4.PAE [C34]; stack helpers write the whole ESP on 16 bit stacks [C39]; 16 bit frames
  on 32 bit stacks truncate ESP, IRET to vm86 does not restore DF [C73]; event gates to data segments are accepted [C74];
  IRET at level 3 with VM set in the image enters vm86 mode with the image's IOPL and IF, 16 bit IRET at level 0 keeps IOPL [C78]; LLDT accepts
  selectors of the LDT, LTR/LLDT/VERR/ARPL run in real mode [C79]; entering a handler from vm86 mode cuts the selector of CS to 12 bits, a
  redirected INT n with IOPL below 3 clears IF instead of VIF and leaves the flat bit of CS as it was [C83];
  MOV DR at level 3 with DR7.GD set raises #DB and sets DR6.BD [C85]; CLI and STI accept VME outside vm86 mode, PVI at levels 1 and 2 and
  PVI in vm86 mode, POPF under VME raises #GP for a set IF with VIP whatever is popped [C86];
  the TSS is read with user rights by events and call gates of level 3, a non-present inner stack is reported as #TS by events [C92];
  EMMS and SSE instructions raise #NM instead of #UD when TS and EM (or not OSFXSR) [C88]; far calls write the whole ESP, copied
  gate parameters are read with the mask of the new stack, RETF n to an outer level does not skip the parameters before SS:ESP [C89];
  far calls and jumps to a TSS or task gate and IRET with NT abort the emulator before any privilege check, so level 3 can stop it [C90].
* Code cache: trampoline_call does not return when the RET of the original function is predicted, and calls the hook again after a fetch fault [C91]; writes across a page, undecodable blocks, purge during insertion [C46]; lookup by physical address only [C47, C48]; dangling
  return prediction [C49]; leaked and reused code memory [C50]; hooks [C51]; self-modification after the first instruction of a block [C69].
* Memory api: get_host_ptr does not follow aliases [C96].
* Xbox build: boot rom read at the wrong offset, read-only pages written, endless fault with CR0.WP clear, stale code after a fetch that hits the
  tlb, accessed and dirty bits not set, the dirty flag of a tlb hit reported at bit 12 [C103].
* Moves: MOV r16, Sreg writes 32 bits, MOV Sreg, m reads four bytes with 32 bit operands [C98].
* Threads and time: snapshot of a running cpu deadlocks, torn snapshots [C43]; lost suspend [C44]; timers, among them a RET past the deadline whose target the return stack buffer predicts: it sees the timeout and goes on [C53]; watchpoints [C55]; snapshots lose
  the halted state and do not check the ram size [C41, C42]; cpu_new with alignment 0 or wrapping size [C70]; HLT forgotten or hanging [C71].
* Ports: an INS whose store faults has already read the port; executed again it reads the port twice and the first value is lost [C105]; OUTS reads its
  memory operand before the permission check.
* interrupts with vector 14 set CR2 to 0, and a page fault promoted to a double fault is not recorded in CR2 [C108];
* cpu_run_until on a cpu that stays halted returns without clearing the id of its thread: a snapshot from another thread then never returns [C43];
* instruction breakpoints are only looked at when a block is entered through the main loop or translated: one set inside a cached block, or at a block reached by a link, never fires; TF with a data watchpoint raises #DB twice although the comment in gen_check_rf_single_step says it cannot; an IRET run with RF set drops the RF it loads [C109];
* FPU: FST/FSTP/FIST to memory calls fpu_update_ptr before it passes EDX, a volatile register, to fpu_stack_underflow_mem as the address: the indefinite value may go anywhere; a faulting store has already cleared C1 and set FIP; FDP is a linear address and FDS is never SS without a prefix [C110];
* FPU: on an operand out of range FSIN, FCOS and FSINCOS branch to end_instr past RESTORE_FPU_CTX and past the pop of the host's register (jit.cpp 6126-6127, 6432-6433, 6468-6469): the host goes on with the guest's rounding and a register in use; FLD m32/m64 checks invalid operation only (jit.cpp 4033) [C111];
* INT n, INT3 and INTO store the address of the next instruction in EIP before cpu_raise_exception (jit.cpp 3776, 3795): if the interrupt is refused, #GP or #NP is delivered with EIP behind the instruction, so a vm86 monitor cannot find the INT it is to emulate [C112];
* SSE and MMX: packed arithmetic does not check the alignment of its memory operand, SUBPS and SUBSS run under the host's MXCSR and report no exception [C107]; with CR0.NE
  clear the translator aborts on a waiting FPU or MMX instruction (jit.cpp 2692-2705).
