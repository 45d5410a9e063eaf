import Verif.Model.Host
import Verif.Model.Tc
/-
The code emitted at the end of a block: core/emitter/x64/jit.cpp 762-790 (gen_epilogue_main, gen_tail_call), 799-810 (gen_interrupt_check), 811-829
(gen_timeout_check), 944-1009 (gen_tc_linking_jmp), 1011-1057 (gen_rsb_push, gen_rsb_pop, gen_tc_linking_ret), and the helpers it calls:
core/helpers.cpp 278-342 (rsb_push, rsb_pop, rsb_flush).

Simplifications: host memory does not change while this code runs, except the return stack buffer, which is kept apart; rsb_ptr is six bits (it is
masked with RSB_PTR_MASK whenever it changes); the stack pointer is not modelled (gen_tail_call undoes the prologue before it jumps).
gen_check_rf_single_step decides at translation time whether the code is emitted at all, and is part of C54 and C69.
-/
namespace Verif.Emit
open Host

/-- Host memory. -/
abbrev HMem := BitVec 64 → BitVec 8
/-- Little endian reads. -/
def hm32 (m : HMem) (a : BitVec 64) : BitVec 32 := m (a + 3#64) ++ m (a + 2#64) ++ m (a + 1#64) ++ m a
def hm64 (m : HMem) (a : BitVec 64) : BitVec 64 := hm32 m (a + 4#64) ++ hm32 m a
def hm (m : HMem) (a : BitVec 64) : (z : Sz) → BitVec z.bits
  | .b => m a
  | .w => m (a + 1#64) ++ m a
  | .d => hm32 m a
  | .q => hm64 m a

/-- lib86cpu_priv.hpp 112-141, the fields of translated_code_t rsb_pop reads. -/
structure TcRec where
  csBase : BitVec 32
  flags : BitVec 32
  exit : BitVec 64

/-- lib86cpu_priv.hpp, cpu_t::rsb and rsb_ptr: the words of each entry. -/
structure Ring where
  w : BitVec 6 → BitVec 64 × BitVec 64
  ptr : BitVec 6

/-- What the code depends on besides the guest's registers: host memory, the offset of the jump table in cpu_ctx, the address of `tc->ptr_exit` of
the block itself, the blocks by address, hflags, EIP, int_pending, what cpu_timer_helper answers. -/
structure Lk where
  m : HMem
  tbl : BitVec 64
  exitAt : BitVec 64
  tcs : BitVec 64 → TcRec
  hfl : BitVec 32
  eip : BitVec 32
  pend : BitVec 32
  timer : BitVec 32

/-- helpers.cpp 278-288, rsb_push. -/
def pushW (r : Ring) (tc off : BitVec 64) (target : BitVec 32) : Ring :=
  let p := r.ptr - 1#6
  ⟨Tc.upd r.w p (0x8000000000000000#64 ||| (off <<< 32) ||| target.setWidth 64, tc), p⟩

/-- helpers.cpp 324-331, rsb_flush(cpu). -/
def flushW (r : Ring) : Ring := ⟨fun i => (0#64, (r.w i).2), 0#6⟩

/-- helpers.cpp 333-342, rsb_flush(cpu, addr). -/
def flushPageW (r : Ring) (a : BitVec 32) : Ring :=
  ⟨fun i => if ((r.w i).1.setWidth 32 : BitVec 32) &&& 0xFFFFF000#32 = a &&& 0xFFFFF000#32 then (0#64, (r.w i).2) else r.w i, r.ptr⟩

/-- helpers.cpp 290-322, rsb_pop. -/
def popW (e : Env) (x : Lk) (efl : BitVec 32) (r : Ring) : BitVec 64 × Ring :=
  let e0 := (r.w r.ptr).1
  let e1 := (r.w r.ptr).2
  let popped : Ring := ⟨Tc.upd r.w r.ptr (0#64, e1), r.ptr + 1#6⟩
  if e0 &&& 0x8000000000000000#64 = 0#64 then (0#64, flushW r)
  else if e1 = 0#64 then (0#64, popped)
  else
    let t := x.tcs e1
    if (e.seg 1 + x.eip).setWidth 64 = e0 &&& 0xFFFFFFFF#64 ∧ e.seg 1 = t.csBase ∧ Tc.modeOf x.hfl efl = t.flags then
      (t.exit + ((e0 &&& 0x7FFFFFFF00000000#64) >>> 32), popped)
    else (0#64, flushW r)

/-- The instructions: one of Model/Host.lean, or one of its own. -/
inductive L where
  | h (i : I)
  /-- LEA d, [RCX + CPU_CTX_JMP_TABLE] -/
  | leaTbl (d : Reg)
  /-- LEA d, [s + s << 1] of 64 bits -/
  | lea3 (d s : Reg)
  /-- CMP [b + x + off], s -/
  | cmpM (z : Sz) (b x : Reg) (off : BitVec 64) (s : Reg)
  /-- MOV d, [b + x + off] -/
  | ldM (z : Sz) (d b x : Reg) (off : BitVec 64)
  /-- MOV d, [b] of 64 bits -/
  | ldA (d b : Reg)
  /-- MOV d, [RCX + CPU_CTX_HFLG], CPU_CTX_INT; ADD d, [RCX + CPU_CTX_EIP] -/
  | ldHfl (d : Reg)
  | ldInt (d : Reg)
  | addEip (d : Reg)
  /-- CALL_F(cpu_timer_helper) -/
  | timer
  /-- CALL of rsb_push: RDX, R8, R9 are its arguments -/
  | push
  /-- CALL_F(rsb_pop) -/
  | pop
  /-- gen_tail_call(RAX) -/
  | tail
  /-- gen_epilogue_main<zero> -/
  | ret
  /-- BR_UNCOND(m_exit_int) -/
  | int

/-- How it ends: a jump to an address, a return to the main loop with nullptr, or m_exit_int. -/
inductive LOut where
  | next (k : Nat) (h : Host.St) (r : Ring)
  | goto (a : BitVec 64) (h : Host.St) (r : Ring)
  | back (h : Host.St) (r : Ring)
  | exitInt (h : Host.St) (r : Ring)
  | stuck

/-- One instruction. -/
def lstep (e : Env) (x : Lk) (h : Host.St) (r : Ring) : L → LOut
  | .h i => match step e h i with
    | .next k h' => .next k h' r
    | _ => .stuck
  | .leaTbl d => .next 0 (h.set d (h.r .rcx + x.tbl)) r
  | .lea3 d s => .next 0 (h.set d (h.r s + (h.r s <<< 1))) r
  | .cmpM z b i off s =>
    let v := hm x.m (h.r b + h.r i + off) z
    .next 0 (h.setF (v == rd h z s) (decide (v.toNat < (rd h z s).toNat)) (e.hf h .of) (e.hf h .sf)) r
  | .ldM z d b i off => .next 0 (wr h z d (hm x.m (h.r b + h.r i + off) z)) r
  | .ldA d b => .next 0 (h.set d (hm64 x.m (h.r b))) r
  | .ldHfl d => if h.r .rcx = e.ctx then .next 0 (wr h .d d x.hfl) r else .stuck
  | .ldInt d => if h.r .rcx = e.ctx then .next 0 (wr h .d d x.pend) r else .stuck
  | .addEip d => if h.r .rcx = e.ctx then
      let v : BitVec 32 := rd h .d d + x.eip
      .next 0 ((wr h .d d v).setF (v == 0) (e.hf h .cf) (e.hf h .of) (e.hf h .sf)) r
    else .stuck
  | .timer => if h.r .rcx = e.ctx then .next 0 (wr (clob e h) .d .rax x.timer) r else .stuck
  | .push => if h.r .rcx = e.ctx then
      .next 0 ((clob e h).set .rcx (e.hv h .rcx)) (pushW r (h.r .rdx) (h.r .r8) (rd h .d .r9))
    else .stuck
  | .pop => if h.r .rcx = e.ctx then
      .next 0 ((clob e h).set .rax (popW e x h.g.fl.eflags r).1) (popW e x h.g.fl.eflags r).2
    else .stuck
  | .tail => .goto (h.r .rax) h r
  | .ret => .back (h.set .rax 0#64) r
  | .int => .exitInt h r

/-- A sequence of instructions. -/
def lrun (e : Env) (x : Lk) : Nat → List L → Host.St → Ring → LOut
  | k, [], h, r => .next k h r
  | k + 1, _ :: l, h, r => lrun e x k l h r
  | 0, i :: l, h, r => match lstep e x h r i with
    | .next k h' r' => lrun e x k l h' r'
    | o => o

/-- jit.cpp 799-810, gen_interrupt_check. -/
def intCode : List L :=
  [.ldInt .rdx, .h (.ldEfl .rax), .h (.alu .or .d .rax (.imm 0xFFFFFDFF#64)), .h (.alu .and .d .rdx (.reg .rax)), .h (.jeq 1), .int]

/-- jit.cpp 811-829, gen_timeout_check: `l` follows if the time is not over, `n` is the distance from there to m_rsb_push_pop, if there is one. -/
def timerCode (x : Lk) (n : Option Nat) : List L :=
  [.timer, .h (.testI .d .rax 0x10#64)] ++
  match n with
  | some n => [.h (.jeq 3), .h (.mov .q .rdx (.imm x.exitAt)), .ldA .rax .rdx, .h (.jmp n)]
  | none => [.h (.jeq 1), .ret]

/-- The target of the jump, jit.cpp 957-967: known at translation time, EIP as stored, or in EBX. -/
inductive Tgt where
  | known (pc : BitVec 32)
  | eip
  | ebx

/-- jit.cpp 957-967. -/
def Tgt.code : Tgt → List L
  | .known pc => [.h (.mov .d .rbx (.imm (pc.setWidth 64)))]
  | .eip => [.h (.ldSeg .rbx 1), .h (.mov .d .r9 (.reg .rbx)), .addEip .rbx]
  | .ebx => []

/-- jit.cpp 971-976: the element of the jump table. -/
def idxCode : List L :=
  [.leaTbl .r8, .h (.mov .d .rdx (.reg .rbx)), .h (.alu .and .d .rbx (.imm 0xFFF#64)), .lea3 .rbx .rbx, .h (.sh .shl .q .rbx 3)]
/-- jit.cpp 980-989: the mode and CS base. -/
def modeCode (t : Tgt) : List L :=
  [.ldHfl .r10, .h (.alu .and .d .r10 (.imm (Tc.HFLG_CONST.setWidth 64))), .h (.ldEfl .r11), .h (.alu .and .d .r11 (.imm (Tc.EFLAGS_CONST.setWidth 64))),
    .h (.alu .or .d .r10 (.reg .r11))] ++ (match t with | .eip => [] | _ => [.h (.ldSeg .r9 1)]) ++
  [.h (.sh .shl .q .r10 32), .h (.alu .or .q .r9 (.reg .r10))]
/-- jit.cpp 990-992. -/
def pickCode : List L := [.ldM .q .rdx .r8 .rbx 16#64, .cmpM .q .r8 .rbx 4#64 .r9, .h (.cmov .e .q .rax .rdx)]
/-- jit.cpp 969-994: the pointer to jump to in RAX. -/
def lookCode (x : Lk) (t : Tgt) : List L :=
  idxCode ++ [.cmpM .d .r8 .rbx 0#64 .rdx, .h (.mov .q .rdx (.imm x.exitAt)), .ldA .rax .rdx, .h (.jne ((modeCode t).length + pickCode.length))] ++
  (modeCode t ++ pickCode)

/-- What a CALL pushes: the block (nullptr if it is not kept), the offset of the code after the CALL, the return address. -/
structure Push where
  tc : BitVec 64
  off : BitVec 64
  pc : BitVec 32

/-- jit.cpp 1011-1031, gen_rsb_push, and 1000. -/
def rsbPushCode (p : Push) : List L :=
  [.h (.stL .q 0 .rax), .h (.mov .q .rdx (.imm p.tc)), .h (.mov .d .r9 (.imm (p.pc.setWidth 64))), .h (.mov .q .r8 (.imm p.off)), .push, .h .reload,
    .h (.ldL .q .rax 0)]

/-- jit.cpp 944-1009, gen_tc_linking_jmp with its checks; `time` is CPU_TIMEOUT. -/
def linkCode (x : Lk) (time : Bool) (t : Tgt) (p : Option Push) : List L :=
  intCode ++
  ((if time then timerCode x (p.map fun _ => (t.code ++ lookCode x t).length) else []) ++
  ((t.code ++ lookCode x t) ++
  ((match p with | some p => rsbPushCode p | none => []) ++ [.tail])))

/-- jit.cpp 1033-1041, gen_rsb_pop. -/
def rsbPopCode (x : Lk) : List L :=
  [.pop, .h (.test .q .rax .rax), .h (.mov .q .r8 (.imm x.exitAt)), .ldA .rdx .r8, .h (.cmov .e .q .rax .rdx), .tail]

/-- jit.cpp 1043-1057, gen_tc_linking_ret. -/
def retLink (x : Lk) (time : Bool) : List L := intCode ++ ((if time then timerCode x (some 0) else []) ++ rsbPopCode x)

end Verif.Emit
