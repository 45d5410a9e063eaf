import Verif.Spec.Desc
import Verif.Spec.Mode
/-
The stack frame of an event or a far call, stated from the registers and memory only, and what it means that
the interrupted program goes on.
-/
namespace Verif.Seg.Spec
open Guest (load)

/-- Linear address of the `i`-th item of `w` bytes above the stack pointer: ESP or SP, by the B bit of SS. -/
def stackAddr (r : Regs) (w i : Nat) : BitVec 32 :=
  let o := r.esp + BitVec.ofNat 32 (w * i)
  r.ss.base + if stack32 r then o else (o.setWidth 16 : BitVec 16).setWidth 32

/-- The `i`-th item of `w` bytes on the stack. -/
def stackItem (s : Cpu) (w i : Nat) : Nat := load s.mem (stackAddr s.r w i) w

/-- EFLAGS as PUSHF sees them: system flags and arithmetic flags. -/
def flagsWord (r : Regs) : BitVec 32 := r.eflags ||| r.arith

/-- The system flags and the arithmetic flags are kept apart, and bit 1 is set. -/
structure FlagsWf (r : Regs) : Prop where
  one : r.eflags[1] = true
  sys : r.eflags &&& 0x8D5#32 = 0#32
  arith : r.arith &&& ~~~0x8D5#32 = 0#32

/-- The gate of vector `idx`. -/
def gateAt (s : Cpu) (idx : Nat) : BitVec 64 :=
  BitVec.ofNat 64 (load s.mem (s.r.idtBase + BitVec.ofNat 32 (idx * 8)) 8)

/-- IOPL. -/
def iopl (r : Regs) : BitVec 2 := r.eflags.extractLsb' 12 2

/-- A code segment that may be returned to through `sel`. -/
structure Returnable (s : Cpu) (sel : BitVec 16) : Prop where
  notNull : ¬ nullSel sel
  fits : TableFits s.r sel
  inTable : InTable s.r sel
  seg : isSeg (descAt s sel) = true
  code : isCode (descAt s sel) = true
  level : conforming (descAt s sel) = true → dpl (descAt s sel) ≤ rpl sel
  present : present (descAt s sel) = true

/-- A stack segment that may be returned to through `sel` at level `l`. -/
structure ReturnableStack (s : Cpu) (sel : BitVec 16) (l : BitVec 2) : Prop where
  notNull : ¬ nullSel sel
  fits : TableFits s.r sel
  inTable : InTable s.r sel
  seg : StackSeg sel (descAt s sel) l
  present : present (descAt s sel) = true

/-- The processor exceptions that push an error code. -/
def codeVector (idx : Nat) : Bool := [8, 10, 11, 12, 13, 14, 17].contains idx

/-- A handler entered through a gate from `s`: its first instruction is the gate's target, at a level that is not
less privileged; single stepping, NT, RF and VM are off; an interrupt gate (bit 40 clear) also turns IF off. -/
structure Entered (s s1 : Cpu) (g : BitVec 64) : Prop where
  mode : mode s1.r = .prot
  inner : level s1.r ≤ level s.r
  eip : s1.r.eip = gateOff g
  cs : Holds s1.r.cs (withRpl (gateSel g) (level s1.r)) (descAt s (gateSel g))
  flags : ∀ (i : Nat) (h : i < 32), s1.r.eflags[i] =
    if i = 8 ∨ i = 14 ∨ i = 16 ∨ i = 17 then false
    else if i = 9 ∧ g[40] = false then false else s.r.eflags[i]
  arith : s1.r.arith = s.r.arith
  data : s1.r.ds = s.r.ds ∧ s1.r.es = s.r.es ∧ s1.r.fs = s.r.fs ∧ s1.r.gs = s.r.gs

/-- ESP after `n` items of `w` bytes were popped; on a 16 bit stack the upper half stays. -/
def espAfter (r : Regs) (w n : Nat) : BitVec 32 :=
  if stack32 r then r.esp + BitVec.ofNat 32 (w * n)
  else r.esp.extractLsb' 16 16 ++ ((r.esp + BitVec.ofNat 32 (w * n)).setWidth 16 : BitVec 16)

/-- The frame of an event, items of `w` bytes, `c` of them being the error code: EIP, CS, EFLAGS, and on a change of
level ESP and SS. -/
structure Framed (s s1 : Cpu) (w c : Nat) : Prop where
  eip : stackItem s1 w c = s.r.eip.toNat % 256 ^ w
  cs : stackItem s1 w (c + 1) = s.r.cs.sel.toNat
  flags : stackItem s1 w (c + 2) = (flagsWord s.r).toNat % 256 ^ w
  esp : level s1.r < level s.r → stackItem s1 w (c + 3) = s.r.esp.toNat % 256 ^ w
  ss : level s1.r < level s.r → stackItem s1 w (c + 4) = s.r.ss.sel.toNat
  /-- without a change of level the frame is on the program's own stack, right below its top -/
  same : ¬ level s1.r < level s.r → s1.r.ss = s.r.ss ∧
    espAfter s1.r w (c + 3) = s.r.esp

/-- The instruction page faults on one of its accesses or completes in a state with the property. -/
def FaultOr (Q : Cpu → Prop) : Res Unit → Prop
  | .ok _ s => Q s
  | .stop .fault _ => True
  | .stop _ _ => False

/-- A handler entered in `s1` is about to return in `s2`, having popped the error code (`c` items): same level and
stack, the frame as it was, NT clear; of the system flags it may have changed TF, IF and DF, and the arithmetic flags,
the other registers and the rest of memory at will. -/
structure HandlerDone (s1 s2 : Cpu) (c : Nat) : Prop where
  agree : AgreeCore s2.r
  prot : mode s2.r = .prot
  same_level : level s2.r = level s1.r
  ss : s2.r.ss = s1.r.ss
  esp : s2.r.esp = espAfter s1.r 4 c
  flags : ∀ (i : Nat) (h : i < 32), i ≠ 8 → i ≠ 9 → i ≠ 10 → s2.r.eflags[i] = s1.r.eflags[i]
  frame : ∀ i, i < 5 → stackItem s2 4 i = stackItem s1 4 (c + i)

/-- The program interrupted in `s` goes on in `s3`: next instruction, flags, code segment and stack. The hidden part of a
segment register that IRET loads is that of the descriptor in memory. On a return to an outer 16 bit stack the upper half
of ESP is not restored. -/
structure Resumed (s s1 s2 s3 : Cpu) : Prop where
  prot : mode s3.r = .prot
  same_level : level s3.r = level s.r
  eip : s3.r.eip = s.r.eip
  eflags : s3.r.eflags = s.r.eflags
  arith : s3.r.arith = s.r.arith
  cs : Holds s3.r.cs s.r.cs.sel (descAt s2 s.r.cs.sel)
  same : ¬ level s1.r < level s.r → s3.r.ss = s.r.ss ∧ s3.r.esp = s.r.esp
  outer : level s1.r < level s.r → Holds s3.r.ss s.r.ss.sel (descAt s2 s.r.ss.sel) ∧
    ((descAt s2 s.r.ss.sel)[54] = true → s3.r.esp = s.r.esp) ∧
    (s3.r.esp.setWidth 16 : BitVec 16) = s.r.esp.setWidth 16

end Verif.Seg.Spec
