/-
The event word of a cpu: core/translate.cpp 1355-1465 (cpu_do_int), core/instructions.cpp 1495-1520
(hlt_helper), core/emitter/x64/jit.cpp 653-722 (read/raise/clear: one lock-prefixed instruction each),
798-810 (gen_interrupt_check), 848-864 (gen_tc_epilogue), 10422-10457 (STI), interface.cpp 326-336
(cpu_exit), 394-409 (cpu_set_a20), 456-475 (cpu_raise/lower_hw_int_line), 672-675, 725-733, 777-780,
817-820, 866-869, 897-900 (requests with should_int), core/internal.hpp 111-123.

The model is a transition system whose steps are the atomic accesses: other threads may act between any
two steps of cpu_do_int. Suspension is left to Model/Threads (the suspend event is only an event to clear
here). What a region change or a handler update does is left abstract (type `ρ`; Model/RegionApi has the
details): applying one appends it to the list of applied changes.
-/
namespace Verif.Ints

/-- core/internal.hpp 112-121. -/
def HALT_TC : BitVec 32 := 1#32
def ABORT : BitVec 32 := 2#32
def A20 : BitVec 32 := 4#32
def REGION : BitVec 32 := 8#32
def SUSPEND : BitVec 32 := 0x20#32
def HANDLER : BitVec 32 := 0x40#32
def MASKED : BitVec 32 := 0x80#32
def DBG_TRAP : BitVec 32 := 0x100#32
def HW : BitVec 32 := 0x200#32

/-- core/internal.hpp 122. -/
def NON_HW : BitVec 32 := A20 ||| REGION ||| SUSPEND ||| HANDLER ||| MASKED ||| DBG_TRAP ||| HALT_TC

/-- What the guest or the client can see. -/
inductive Ev
  /-- a hardware interrupt enters the guest -/
  | hw
  /-- a debug exception enters the guest -/
  | debug
  /-- cpu_run returns because of cpu_exit -/
  | exited
  /-- an instruction is executed -/
  | instr
  deriving DecidableEq, Repr

/-- Where in cpu_do_int the cpu thread is (the line that comes next). -/
inductive Stage
  /-- 1367 -/ | dbg
  /-- 1379 -/ | handler
  /-- 1399 -/ | a20
  /-- 1432 -/ | suspend
  /-- 1449 -/ | clear
  /-- 1453 -/ | hw
  deriving DecidableEq, Repr

/-- What the cpu thread is doing: executing guest code, waiting in HLT, inside cpu_do_int called with
`flg` and with `clr` collected in int_clear_flg (`halt`: from HLT), or outside cpu_run. -/
inductive Phase
  | run
  | hlt
  | busy (st : Stage) (flg clr : BitVec 32) (halt : Bool)
  | stopped
  deriving DecidableEq, Repr

structure St (ρ : Type) where
  ints : BitVec 32
  /-- EFLAGS.IF -/
  ifl : Bool
  a20 : BitVec 32
  newA20 : BitVec 32
  /-- cpu->regions_changed -/
  changed : List ρ
  /-- the region changes made to the memory map, oldest first -/
  space : List ρ
  /-- cpu->regions_updated -/
  updated : List ρ
  /-- the handler updates made, oldest first -/
  handlers : List ρ
  /-- exp_info.exp_data.idx == EXP_DB -/
  isDb : Bool
  /-- has an instruction been executed since the events were last checked? Translated code checks them at the
  end of a code block, so never twice without an instruction (or hook) in between (jit.cpp 831-864) -/
  ran : Bool
  phase : Phase
  log : List Ev

variable {ρ : Type}

/-- raise_int_fn, jit.cpp 674-677. -/
def raise (s : St ρ) (m : BitVec 32) : St ρ := { s with ints := s.ints ||| m }

/-- clear_int_fn, jit.cpp 679-683. -/
def clear (s : St ρ) (m : BitVec 32) : St ρ := { s with ints := s.ints &&& ~~~m }

/-- `int_flg & x` as a condition. -/
def has (flg x : BitVec 32) : Bool := flg &&& x != 0#32

/-- cpu_do_int up to its first atomic access after the flags were read: 1358-1366 and 1452. -/
def enter (s : St ρ) (flg : BitVec 32) (halt : Bool) : St ρ :=
  if has flg ABORT then
    { clear s ABORT with phase := .stopped, log := s.log ++ [.exited] }
  else if has flg NON_HW then
    { s with phase := .busy .dbg flg (MASKED ||| HALT_TC) halt }
  else if has flg HW && s.ifl then
    { s with phase := .busy .hw flg 0#32 halt }
  else
    { s with phase := if halt then .hlt else .run }

/-- gen_interrupt_check, jit.cpp 798-806: the event word without a hardware interrupt that IF masks. -/
def visible (s : St ρ) : BitVec 32 := s.ints &&& ((if s.ifl then HW else 0#32) ||| ~~~HW)

/-- Reading the event word: gen_interrupt_check in running code (a pending hardware interrupt is masked
out when IF is clear, and no event means no call), hlt_helper when halted. -/
def poll (s : St ρ) : St ρ :=
  match s.phase with
  | .run =>
    if s.ran then
      if visible s = 0#32 then { s with ran := false } else enter { s with ran := false } (visible s) false
    else s
  | .hlt => enter s s.ints true
  | _ => s

/-- The next line of cpu_do_int. `thr`: delivering the debug exception (1374) or the hardware interrupt (1457)
ends with a host exception, which leaves cpu_do_int without clearing the events; that exception is then
delivered from tc_run_code. `nif`: EFLAGS.IF after the delivery (it depends on the gate). -/
def micro (s : St ρ) (thr nif : Bool) : St ρ :=
  match s.phase with
  | .busy .dbg flg clr halt =>
    if has flg DBG_TRAP then
      if s.isDb then
        if thr then { s with isDb := false, ifl := nif, phase := .run }
        else { s with ifl := nif, log := s.log ++ [.debug], phase := .busy .handler flg (clr ||| DBG_TRAP) halt }
      else { s with phase := .busy .handler flg (clr ||| DBG_TRAP) halt }
    else { s with phase := .busy .handler flg clr halt }
  | .busy .handler flg clr halt =>
    if has flg HANDLER then
      { s with handlers := s.handlers ++ s.updated, updated := [], phase := .busy .a20 flg (clr ||| HANDLER) halt }
    else { s with phase := .busy .a20 flg clr halt }
  | .busy .a20 flg clr halt =>
    if has flg A20 then
      if has flg REGION then
        { s with a20 := s.newA20, space := s.space ++ s.changed, changed := [], phase := .busy .suspend flg (clr ||| A20 ||| REGION) halt }
      else { s with a20 := s.newA20, phase := .busy .suspend flg (clr ||| A20) halt }
    else if has flg REGION then
      { s with space := s.space ++ s.changed, changed := [], phase := .busy .suspend flg (clr ||| REGION) halt }
    else { s with phase := .busy .suspend flg clr halt }
  | .busy .suspend flg clr halt =>
    if has flg SUSPEND then { s with phase := .busy .clear flg (clr ||| SUSPEND) halt }
    else { s with phase := .busy .clear flg clr halt }
  | .busy .clear _ clr halt =>
    { clear s clr with phase := if halt then .hlt else .run }
  | .busy .hw _ _ _ =>
    if thr then { s with isDb := false, ifl := nif, phase := .run }
    else { s with isDb := false, ifl := nif, log := s.log ++ [.hw], phase := .run }
  | _ => s

/-- Instructions, as far as they matter here. -/
inductive Instr
  /-- anything that leaves the event word alone and sets IF to the given value (POPF, IRET, CLI...) or keeps it -/
  | plain (newIf : Option Bool)
  /-- STI (jit.cpp 10422-10457) -/
  | sti
  /-- HLT (jit.cpp 6642-6672) -/
  | hlt
  /-- a memory access that hits a data watchpoint (breakpoint.cpp 60-71) -/
  | watched
  /-- an instruction that raises an exception other than #DB -/
  | faulting (newIf : Bool)
  /-- a write to code that is executing (translate.cpp 1109-1111) -/
  | selfWrite
  /-- MOV SS, POP SS and LSS inhibit interrupts -/
  | movSs
  deriving DecidableEq, Repr

inductive Act (ρ : Type)
  /-- cpu_raise_hw_int_line, any thread, any time -/
  | raiseLine
  /-- cpu_lower_hw_int_line, any thread, any time -/
  | lowerLine
  /-- cpu_exit, any thread, any time -/
  | exit
  /-- cpu_set_a20 with should_int, from the cpu thread (a callback) -/
  | setA20 (mask : BitVec 32)
  /-- a region change with should_int, from the cpu thread -/
  | region (r : ρ)
  /-- a handler update, from the cpu thread; the event is requested or not (update 2 or 1) -/
  | handler (r : ρ) (now : Bool)
  /-- mem_init_region_io with update 3 -/
  | handlersNow
  | exec (i : Instr)
  | poll
  | micro (thr nif : Bool)
  /-- cpu_run is called again -/
  | start

/-- Client callbacks run on the cpu thread: from guest code, or while the debug exception is delivered. -/
def inCallback (p : Phase) : Bool :=
  match p with
  | .run => true
  | .stopped => true
  | .busy .dbg _ _ _ => true
  | _ => false

/-- Executing an instruction. -/
def exec (s0 : St ρ) (i : Instr) : St ρ :=
  let s := { s0 with ran := true }
  match i with
  | .plain n => { s with ifl := n.getD s.ifl, log := s.log ++ [.instr] }
  | .sti =>
    let s1 := { s with ifl := true, log := s.log ++ [.instr] }
    if s.ifl then s1 else raise s1 MASKED
  | .hlt => { s with phase := .hlt, log := s.log ++ [.instr] }
  | .watched => raise { s with isDb := true, log := s.log ++ [.instr] } DBG_TRAP
  | .faulting n => { s with isDb := false, ifl := n, log := s.log ++ [.instr] }
  | .selfWrite => raise { s with log := s.log ++ [.instr] } HALT_TC
  | .movSs => raise { s with log := s.log ++ [.instr] } MASKED

/-- One step of the system. -/
def step (s : St ρ) : Act ρ → St ρ
  | .raiseLine => raise s HW
  | .lowerLine => clear s HW
  | .exit => raise s ABORT
  | .setA20 m =>
    if inCallback s.phase then
      let s1 := { s with newA20 := m }
      if s.a20 ≠ m then raise s1 A20 else s1
    else s
  | .region r => if inCallback s.phase then raise { s with changed := s.changed ++ [r] } REGION else s
  | .handler r now =>
    if inCallback s.phase then
      let s1 := { s with updated := s.updated ++ [r] }
      if now then raise s1 HANDLER else s1
    else s
  | .handlersNow => if inCallback s.phase then raise s HANDLER else s
  | .exec i => if s.phase = .run then exec s i else s
  | .poll => poll s
  | .micro thr nif => micro s thr nif
  | .start => if s.phase = .stopped then { s with phase := .run, ran := false } else s

def run (s : St ρ) (as : List (Act ρ)) : St ρ := as.foldl step s

end Verif.Ints
