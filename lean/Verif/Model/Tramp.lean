import Verif.Model.Tc
/-
trampoline_call: interface.cpp 1304-1318, core/translate.cpp 1467-1476 (cpu_suppress_trampolines), 1478-1590
(cpu_main_loop<true>) and 1705-1711 (cpu_exec_trampoline), on top of the code cache of Model/Tc.lean.

What the guest does between two decisions of the loop is given by a list of events.  Simplification: a second fault
while the first one is delivered is one event (the state changes of both deliveries are the list of the event).
-/
namespace Verif.Tc

/-- internal.hpp 52: HFLG_TRAMP, as part of the mode. -/
def TRAMP : BitVec 32 := 0x40#32

/-- What happens while the trampoline runs. -/
inductive Ev where
  /-- the running block, or a callback it calls, changes the code cache or the guest's memory and mode -/
  | act (o : Op)
  /-- the running block ends in the main loop with the linear address `v`; `link` as in `Op.run` -/
  | next (v : BitVec 32) (link : Bool)
  /-- as `next`, but fetching from `v` faults: the changes made by delivering the exception, and the address of the handler -/
  | fault (v : BitVec 32) (os : List Op) (h : BitVec 32)
  /-- the running block ends with a jump -/
  | jump (v : BitVec 32) (link : Bool)
  /-- the running block ends with a return -/
  | ret (v : BitVec 32) (link : Bool)

/-- The loop: the code cache, ret_eip, whether trampoline_call has returned, and the blocks executed so far, latest first. -/
structure Loop where
  s : St
  ret : BitVec 32
  done : Bool
  log : List Tc

/-- translate.cpp 1467-1476, cpu_suppress_trampolines. -/
def untramp (s : St) : St := { s with flags := s.flags &&& ~~~TRAMP }

/-- The condition of the loop, translate.cpp 1710: regs.eip differs from ret_eip. -/
def goesOn (L : Loop) (v : BitVec 32) : Bool := v - L.s.csBase != L.ret

/-- translate.cpp 1506-1588: search, translate, clear the flag, run. -/
def exec (d : Decoder) (L : Loop) (v : BitVec 32) (link : Bool) : Loop :=
  let r := mainLoop d L.s v link
  { L with s := untramp r.2, log := r.1 :: L.log }

/-- translate.cpp 1484: one round of the loop at the linear address `v`. -/
def round (d : Decoder) (L : Loop) (v : BitVec 32) (link : Bool) : Loop :=
  if goesOn L v then exec d L v link else { L with s := { L.s with now := v }, done := true }

/-- Ops that are not executions of blocks. -/
def Op.inner : Op → Bool
  | .run _ _ | .jump _ | .ret _ => false
  | _ => true

/-- Ops of one delivery or of the running block. -/
def acts (d : Decoder) (s : St) : List Op → St
  | [] => s
  | o :: os => acts d (if o.inner then (step d s o).2 else s) os

/-- One event; after trampoline_call has returned nothing more is part of it.  Direct jumps and predicted returns (jit.cpp 983-1056)
do not pass the condition of the loop; neither does the round after a fault (`goto retry`, translate.cpp 1503). -/
def Loop.step (d : Decoder) (L : Loop) : Ev → Loop
  | e =>
    if L.done then L
    else match e with
    | .act o => { L with s := acts d L.s [o] }
    | .next v link => round d L v link
    | .fault v os h =>
      if goesOn L v then exec d { L with s := acts d (untramp L.s) os } h false
      else { L with s := { L.s with now := v }, done := true }
    | .jump v link =>
      match jumpTo L.s v with
      | some t => { L with s := { L.s with now := v, cur := some t }, log := t :: L.log }
      | none => round d { L with s := { L.s with now := v, cur := none } } v link
    | .ret v link =>
      match rsbPop { L.s with now := v } with
      | (some (t, _), s) => { L with s := { s with cur := some t }, log := t :: L.log }
      | (none, s) => round d { L with s := { s with cur := none } } v link

def Loop.run (d : Decoder) (L : Loop) : List Ev → Loop
  | [] => L
  | e :: es => (L.step d e).run d es

/-- translate.cpp 1705-1711, cpu_exec_trampoline, called by a hook while the cpu is at `s.now`; `first` is the first event, a round of the
loop at that address. -/
def trampoline (d : Decoder) (s : St) (ret : BitVec 32) (faults : Option (List Op × BitVec 32)) : List Ev → Loop :=
  let L : Loop := ⟨{ s with flags := s.flags ||| TRAMP }, ret, false, []⟩
  match faults with
  | none => (L.step d (.next s.now false)).run d
  | some (os, h) => (L.step d (.fault s.now os h)).run d

end Verif.Tc
