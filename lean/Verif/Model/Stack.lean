import Verif.Model.GuestMem
/-
Stack accesses: the emitted ones (core/emitter/x64/jit.cpp 2248-2336 gen_stack_push, 2393-2489
gen_stack_pop, 5910-5990 ENTER, 7623-7643 LEAVE, 9107-9165 POP, 9223-9330 POPA, 9564-9640 PUSHA) and
the ones of the helpers (core/helpers.cpp 10-94 stack_push_helper, stack_pop_helper).
-/
namespace Verif.Stack
open Guest

/-- The part of the guest state a stack access reads or writes: ESP, the base and default size (D/B
bit, HFLG_SS32) of SS, whether the emitter knows the base to be zero (HFLG_SS_IS_ZERO), memory. -/
structure St where
  esp : BitVec 32
  ebp : BitVec 32
  base : BitVec 32
  ss32 : Bool
  ssZero : Bool
  mem : Mem

/-- `if (!(hflags & HFLG_SS_IS_ZERO)) ADD(EDX, ss.base)`: jit.cpp 2268 and all similar places. -/
def addr (s : St) (off : BitVec 32) : BitVec 32 := if s.ssZero then off else off + s.base

/-- ST_R16: the low half of a 32 bit register. -/
def setLow (r : BitVec 32) (v : BitVec 16) : BitVec 32 := (r &&& 0xFFFF0000#32) ||| v.setWidth 32

/-- jit.cpp 2248-2336 with use_esp: push `k` bytes (2 or 4) of `v`; `none` is a page fault, which
leaves the translated block before ESP is written. -/
def push (ok : Ok) (s : St) (k : Nat) (v : Nat) : Option St :=
  if s.ss32 then
    let e := s.esp - BitVec.ofNat 32 k
    if ok (addr s e) k true then some { s with esp := e, mem := store s.mem (addr s e) k v } else none
  else
    let b : BitVec 16 := s.esp.setWidth 16 - BitVec.ofNat 16 k
    let e : BitVec 32 := b.setWidth 32
    if ok (addr s e) k true then
      some { s with esp := setLow s.esp b, mem := store s.mem (addr s e) k v }
    else none

/-- jit.cpp 2393-2489 with num = 1: the popped value and the stack pointer register to be written
back (EBX), in the form of the new ESP. -/
def popVal (ok : Ok) (s : St) (k : Nat) : Option (Nat × BitVec 32) :=
  if s.ss32 then
    if ok (addr s s.esp) k false then some (load s.mem (addr s s.esp) k, s.esp + BitVec.ofNat 32 k)
    else none
  else
    let b : BitVec 16 := s.esp.setWidth 16
    let e : BitVec 32 := b.setWidth 32
    if ok (addr s e) k false then
      some (load s.mem (addr s e) k, setLow s.esp (b + BitVec.ofNat 16 k))
    else none

/-- jit.cpp 2393-2489 with write_esp. -/
def pop (ok : Ok) (s : St) (k : Nat) : Option (Nat × St) :=
  (popVal ok s k).map fun p => (p.1, { s with esp := p.2 })

/-- jit.cpp 9129-9148: POP to memory; the address of the destination is computed by get_rm (9131)
before the pop, `dst` is how it depends on ESP. -/
def popMem (ok : Ok) (s : St) (k : Nat) (dst : BitVec 32 → BitVec 32) : Option St :=
  let a := dst s.esp
  match popVal ok s k with
  | none => none
  | some (v, e) => if ok a k true then some { s with esp := e, mem := store s.mem a k v } else none

/-- Outcome of an instruction: completed, or faulted leaving the given state. -/
inductive Out where
  | done (s : St)
  | fault (s : St)

/-- EBP of the pop: ST_R32 or ST_R16 (jit.cpp 7636-7641). -/
def setSized (r : BitVec 32) (k : Nat) (v : Nat) : BitVec 32 :=
  if k = 4 then BitVec.ofNat 32 v else setLow r (BitVec.ofNat 16 v)

/-- jit.cpp 7623-7643: LEAVE. -/
def leave (ok : Ok) (s : St) (k : Nat) : Out :=
  let s1 := if s.ss32 then { s with esp := s.ebp } else { s with esp := setLow s.esp (s.ebp.setWidth 16) }
  match pop ok s1 k with
  | none => .fault s1
  | some (v, s2) => .done { s2 with ebp := setSized s2.ebp k v }

/-- helpers.cpp 10-52: stack_push_helper; `sp` is the caller's `addr` variable, returned updated.
The operand sizes are 2 and 4. -/
def pushH (ok : Ok) (s : St) (sp : BitVec 32) (k : Nat) (v : Nat) : Option (BitVec 32 × St) :=
  let e : BitVec 32 :=
    if s.ss32 = true ∧ k = 4 then sp - 4#32
    else ((sp.setWidth 16 : BitVec 16) - BitVec.ofNat 16 k).setWidth 32
  if ok (e + s.base) k true then some (e, { s with mem := store s.mem (e + s.base) k v }) else none

/-- helpers.cpp 54-94: stack_pop_helper.  The stack pointer is truncated to 16 bits but the sum is
computed in `int` (`addr = sp + 4`), so it is not. -/
def popH (ok : Ok) (s : St) (sp : BitVec 32) (k : Nat) : Option (Nat × BitVec 32) :=
  let e : BitVec 32 :=
    if s.ss32 = true ∧ k = 4 then sp else (sp.setWidth 16 : BitVec 16).setWidth 32
  if ok (e + s.base) k false then some (load s.mem (e + s.base) k, e + BitVec.ofNat 32 k) else none

end Verif.Stack
