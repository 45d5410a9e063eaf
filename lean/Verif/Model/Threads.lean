/-
Suspending, resuming and taking snapshots from other threads: interface.cpp 411-456 (cpu_force_suspend,
cpu_suspend, cpu_resume, cpu_is_suspended), 489-537 (cpu_snapshot_handler), core/translate.cpp 1431-1449
(the suspend event in cpu_do_int), 1659-1668, 1672, 1693, 1702 (cpu_start).

An interleaving model: one step is one atomic access. The cpu thread has its own program counter, every client
thread has one; any number of client threads. Only the suspend event of the event word is modelled (Model/Ints has
the others), and std::atomic_flag::wait(true) is a step that is enabled only when the flag is clear (a waiter is
always notified after a clear: interface.cpp 441, 533). What is saved is left to Model/Snapshot; here only when.
-/
namespace Verif.Threads

/-- The cpu thread. -/
inductive CpuPc
  /-- outside cpu_run -/ | out
  /-- translate.cpp 1659 -/ | c0
  /-- 1660 -/ | c1
  /-- 1665 -/ | c2
  /-- 1669 -/ | c3
  /-- in guest code -/ | run
  /-- 1433 -/ | s1
  /-- 1434, suspend_should_throw -/ | s2
  /-- 1434, suspend_flg -/ | s3
  /-- 1439 -/ | s4
  /-- 1441 -/ | s5
  /-- 1449 -/ | s7
  /-- 1435 -/ | t1
  /-- 1702 -/ | t2
  deriving DecidableEq, Repr

/-- A client thread: idle, or the next step of the call it is in. `f` and `t` are the locals curr_suspend_flg and
curr_suspend_should_throw of cpu_snapshot_handler. -/
inductive Cl
  | idle
  /-- cpu_suspend: 427 -/ | a0 (ret : Bool)
  /-- 428 -/ | a1 (ret : Bool)
  /-- 413 -/ | a2
  /-- 414 -/ | a3
  /-- cpu_resume: 439 -/ | r0
  /-- 440 -/ | r1
  /-- cpu_snapshot_handler: 492 -/ | n0
  /-- 493 -/ | n1
  /-- 497-501 -/ | n2
  /-- 502-508, saving or loading -/ | direct
  /-- 512 -/ | n4
  /-- 513 -/ | n5 (f : Bool)
  /-- 514-515 -/ | n6 (f t : Bool)
  /-- 413 -/ | n7 (f t : Bool)
  /-- 414 -/ | n8 (f t : Bool)
  /-- 518 -/ | n9 (f t : Bool)
  /-- 521-526, saving or loading -/ | n10 (f t : Bool)
  /-- 527-528 -/ | n11 (f t : Bool)
  /-- 439 -/ | n12
  /-- 440 -/ | n13
  /-- 533 -/ | n15
  deriving DecidableEq, Repr

structure St where
  /-- suspend_flg -/
  flg : Bool
  /-- is_suspended -/
  sus : Bool
  /-- suspend_should_throw -/
  thr : Bool
  /-- is_saving_state -/
  saving : Bool
  /-- CPU_SUSPEND_INT pending -/
  int : Bool
  /-- cpu_thr_id is set -/
  id : Bool
  pc : CpuPc
  cl : Nat → Cl
  /-- guest instructions executed -/
  guest : Nat

inductive Op
  | suspend (ret : Bool)
  | resume
  | snapshot
  deriving DecidableEq, Repr

inductive Act
  /-- the cpu thread executes a guest instruction -/
  | guest
  /-- the cpu thread checks for events -/
  | poll
  /-- cpu_run returns for another reason (exit request, timeout) -/
  | leave
  /-- cpu_run_until was called on a halted cpu and returns because it is still halted (1680-1683): the thread id is not cleared.  The halted
  state itself is not modelled (Model/Ints has it), so this is a step the cpu thread may take at any time -/
  | leaveHalted
  /-- cpu_run is called -/
  | callRun
  /-- the next step of cpu_do_int or cpu_start -/
  | cpu
  /-- a client thread calls a function -/
  | call (i : Nat) (op : Op)
  /-- the next step of that call -/
  | adv (i : Nat)
  deriving DecidableEq, Repr

/-- The next step of the cpu thread inside cpu_do_int and cpu_start. -/
def cpuStep (s : St) : St :=
  match s.pc with
  | .c0 => { s with pc := if s.sus then .c1 else .c3 }
  | .c1 => { s with pc := if s.flg then .out else .c2 }
  | .c2 => { s with sus := false, pc := .c3 }
  | .c3 => { s with id := true, pc := .run }
  | .s1 => { s with sus := true, pc := .s2 }
  | .s2 => { s with pc := if s.thr then .s3 else .s4 }
  | .s3 => { s with pc := if s.flg then .t1 else .s4 }
  | .s4 => if s.flg then s else { s with pc := .s5 }
  | .s5 => { s with sus := false, pc := .s7 }
  | .s7 => { s with int := false, pc := .run }
  | .t1 => { s with int := false, pc := .t2 }
  | .t2 => { s with id := false, pc := .out }
  | .out => s
  | .run => s

/-- Change of one client thread. -/
def setCl (s : St) (i : Nat) (c : Cl) : St := { s with cl := fun j => if j = i then c else s.cl j }

/-- The next step of client thread `i`. -/
def clStep (s : St) (i : Nat) : St :=
  match s.cl i with
  | .idle => s
  | .a0 b => if s.saving then s else setCl s i (.a1 b)
  | .a1 b => setCl { s with thr := b } i .a2
  | .a2 => setCl { s with flg := true } i .a3
  | .a3 => setCl { s with int := true } i .idle
  | .r0 => if s.saving then s else setCl s i .r1
  | .r1 => setCl { s with flg := false } i .idle
  | .n0 => if s.saving then setCl s i .n1 else setCl { s with saving := true } i .n2
  | .n1 => if s.saving then s else setCl s i .n2
  | .n2 => if s.id then setCl s i .n4 else setCl s i .direct
  | .direct => setCl s i .n15
  | .n4 => setCl s i (.n5 s.flg)
  | .n5 f => setCl s i (.n6 f s.thr)
  | .n6 f t => if f then setCl s i (.n9 f t) else setCl { s with thr := false } i (.n7 f t)
  | .n7 f t => setCl { s with flg := true } i (.n8 f t)
  | .n8 f t => setCl { s with int := true } i (.n9 f t)
  | .n9 f t => if s.sus then setCl s i (.n10 f t) else s
  | .n10 f t => setCl s i (.n11 f t)
  | .n11 f t => if f then setCl s i .n15 else setCl { s with thr := t } i .n12
  | .n12 => if s.saving then s else setCl s i .n13
  | .n13 => setCl { s with flg := false } i .n15
  | .n15 => setCl { s with saving := false } i .idle

/-- First step of a call. -/
def entry : Op → Cl
  | .suspend b => .a0 b
  | .resume => .r0
  | .snapshot => .n0

def step (s : St) : Act → St
  | .guest => if s.pc = .run then { s with guest := s.guest + 1 } else s
  | .poll => if s.pc = .run ∧ s.int = true then { s with pc := .s1 } else s
  | .leave => if s.pc = .run then { s with pc := .t2 } else s
  | .leaveHalted => if s.pc = .run then { s with pc := .out } else s
  | .callRun => if s.pc = .out then { s with pc := .c0 } else s
  | .cpu => cpuStep s
  | .call i op => if s.cl i = .idle then setCl s i (entry op) else s
  | .adv i => clStep s i

def run (s : St) (as : List Act) : St := as.foldl step s

/-- A cpu that has just been created. -/
def init : St :=
  { flg := false, sus := false, thr := false, saving := false, int := false, id := false, pc := .out, cl := fun _ => .idle, guest := 0 }

end Verif.Threads
