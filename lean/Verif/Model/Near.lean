import Verif.Model.Stack
import Verif.Model.Flags
/-
Control transfers that do not check descriptors: Jcc, JCXZ, LOOP, near JMP, CALL and RET, and far
JMP, CALL and RET in real and virtual 8086 mode (core/emitter/x64/jit.cpp 4815-4955 CALL_,
7138-7152 JCXZ, 7162-7462 Jcc, 7464-7560 JMP, 7769-7845 LOOP, 9776-9852 RET_).

Simplifications: the block linking that follows each of them (gen_tc_linking_jmp,
gen_tc_linking_ret) only chooses which translated block runs next for the EIP written here and is
the subject of Model/Tc.lean; the flags are the lazy words of Model/Flags.lean.
-/
namespace Verif.Near
open Guest

/-- The part of the guest state these instructions read or write.  `eip` is the address of the
instruction before it, and of the next instruction after it. -/
structure St where
  stk : Stack.St
  fl : Flags.St
  ecx : BitVec 32
  eip : BitVec 32
  cs : BitVec 16
  csBase : BitVec 32

/-- How an instruction ends: completed, or with a page fault that leaves the given state. -/
inductive Out where
  | done (s : St)
  | fault (s : St)

/-- jit.cpp 7441, 7843: `instr_eip + instr_bytes`. -/
def next (s : St) (len : Nat) : BitVec 32 := s.eip + BitVec.ofNat 32 len

/-- jit.cpp 7442-7445 (JCC_start), 7468-7471 (JMP), 4862-4865 (CALL), 7826-7829 (LOOP): the target of
a relative transfer; `rel` is the sign extended immediate, `size32` the operand size. -/
def target (s : St) (len : Nat) (rel : Int) (size32 : Bool) : BitVec 32 :=
  let t := next s len + BitVec.ofInt 32 rel
  if size32 then t else t &&& 0xFFFF#32

/-- jit.cpp 7162-7436, 7449-7462: conditional jumps; the condition selects the EIP stored. -/
def jcc (s : St) (c : Flags.CC) (len : Nat) (rel : Int) (size32 : Bool) : St :=
  { s with eip := if Flags.ccTest s.fl c then target s len rel size32 else next s len }

/-- jit.cpp 7138-7152: JCXZ, JECXZ; `addr32` is the address size. -/
def jcxz (s : St) (len : Nat) (rel : Int) (size32 addr32 : Bool) : St :=
  let c : BitVec 32 := if addr32 then s.ecx else (s.ecx.setWidth 16).setWidth 32
  { s with eip := if c = 0#32 then target s len rel size32 else next s len }

/-- The three loop instructions, opcodes E2, E1 and E0. -/
inductive LoopKind where
  | loop | loope | loopne
deriving DecidableEq, Repr

/-- jit.cpp 7781-7796: the decremented counter as a 32 bit host value and the new ECX. -/
def loopCount (s : St) (addr32 : Bool) : BitVec 32 × BitVec 32 :=
  if addr32 then (s.ecx - 1#32, s.ecx - 1#32)
  else
    let b : BitVec 32 := (s.ecx.setWidth 16).setWidth 32 - 1#32
    (b, Stack.setLow s.ecx (b.setWidth 16))

/-- jit.cpp 7798-7845: LOOP, LOOPE, LOOPNE. -/
def loop (s : St) (kd : LoopKind) (len : Nat) (rel : Int) (size32 addr32 : Bool) : St :=
  let c := loopCount s addr32
  let exit : Bool :=
    c.1 == 0#32 || match kd with
      | .loop => false
      | .loope => Flags.ldZf s.fl != 0#32
      | .loopne => Flags.ldZf s.fl == 0#32
  { s with ecx := c.2, eip := if exit then next s len else target s len rel size32 }

/-- jit.cpp 7464-7476: JMP rel. -/
def jmpRel (s : St) (len : Nat) (rel : Int) (size32 : Bool) : St :=
  { s with eip := target s len rel size32 }

/-- The r/m operand of an indirect transfer: a register's value or a linear address, both computed
before anything is written. -/
inductive Rm where
  | reg (v : BitVec 32)
  | mem (a : BitVec 32)

/-- Bytes of an operand. -/
def opBytes (size32 : Bool) : Nat := if size32 then 4 else 2

/-- jit.cpp 4873-4883, 7503-7514: load the r/m operand and truncate it to the operand size. -/
def loadRm (ok : Ok) (s : St) (rm : Rm) (size32 : Bool) : Option (BitVec 32) :=
  match rm with
  | .reg v => some (if size32 then v else v &&& 0xFFFF#32)
  | .mem a =>
    if ok a (opBytes size32) false then some (BitVec.ofNat 32 (load s.stk.mem a (opBytes size32)))
    else none

/-- jit.cpp 7501-7516: JMP r/m. -/
def jmpRm (ok : Ok) (s : St) (rm : Rm) (size32 : Bool) : Out :=
  match loadRm ok s rm size32 with
  | none => .fault s
  | some v => .done { s with eip := v }

/-- jit.cpp 4858-4870: CALL rel. -/
def callRel (ok : Ok) (s : St) (len : Nat) (rel : Int) (size32 : Bool) : Out :=
  match Stack.push ok s.stk (opBytes size32) (next s len).toNat with
  | none => .fault s
  | some t => .done { s with stk := t, eip := target s len rel size32 }

/-- jit.cpp 4872-4894: CALL r/m: the operand is loaded before the push. -/
def callRm (ok : Ok) (s : St) (len : Nat) (rm : Rm) (size32 : Bool) : Out :=
  match loadRm ok s rm size32 with
  | none => .fault s
  | some v =>
    match Stack.push ok s.stk (opBytes size32) (next s len).toNat with
    | none => .fault s
    | some t => .done { s with stk := t, eip := v }

/-- jit.cpp 9791-9802, 9835-9846: the immediate of RET imm and RETF imm is added to ESP or SP,
by the size of the stack segment. -/
def addEsp (t : Stack.St) (imm : Nat) : Stack.St :=
  if t.ss32 then { t with esp := t.esp + BitVec.ofNat 32 imm }
  else { t with esp := Stack.setLow t.esp (t.esp.setWidth 16 + BitVec.ofNat 16 imm) }

/-- jit.cpp 9784-9804: RET and RET imm (no immediate: `imm = 0`). -/
def ret (ok : Ok) (s : St) (imm : Nat) (size32 : Bool) : Out :=
  match Stack.pop ok s.stk (opBytes size32) with
  | none => .fault s
  | some (v, t) => .done { s with eip := BitVec.ofNat 32 v, stk := addEsp t imm }

/-- jit.cpp 7478-7499: far JMP outside protected mode; `offset` is the immediate offset. -/
def jmpFar (s : St) (sel : BitVec 16) (offset : BitVec 32) (size32 : Bool) : St :=
  { s with cs := sel, eip := if size32 then offset else offset &&& 0xFFFF#32
           csBase := sel.setWidth 32 <<< 4 }

/-- jit.cpp 4847-4855, 4929-4943: far CALL outside protected mode.  Each push writes ESP on its own,
so the second one faults after the first has changed the state. -/
def callFar (ok : Ok) (s : St) (len : Nat) (sel : BitVec 16) (offset : BitVec 32) (size32 : Bool) : Out :=
  match Stack.push ok s.stk (opBytes size32) s.cs.toNat with
  | none => .fault s
  | some t =>
    match Stack.push ok t (opBytes size32) (next s len).toNat with
    | none => .fault { s with stk := t }
    | some u => .done { s with stk := u, cs := sel, csBase := sel.setWidth 32 <<< 4
                               eip := if size32 then offset else offset &&& 0xFFFF#32 }

/-- jit.cpp 9820-9848: far RET outside protected mode; both items are read before ESP is written. -/
def retFar (ok : Ok) (s : St) (imm : Nat) (size32 : Bool) : Out :=
  match Stack.pop ok s.stk (opBytes size32) with
  | none => .fault s
  | some (v, t) =>
    match Stack.pop ok t (opBytes size32) with
    | none => .fault s
    | some (w, u) => .done { s with eip := BitVec.ofNat 32 v, cs := BitVec.ofNat 16 w
                                    csBase := (BitVec.ofNat 16 w).setWidth 32 <<< 4
                                    stk := addEsp u imm }

end Verif.Near
