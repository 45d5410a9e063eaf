import Verif.Model.EmitBlock
import Verif.Model.Near
/-
The code emitted for the near jumps, calls and returns that end a block (core/emitter/x64/jit.cpp 4858-4896 CALL_, 7138-7476 JCXZ, Jcc, JMP,
7498-7516 JMP r/m, 7781-7845 LOOP, 9784-9804 RET_) up to the store to EIP.

Simplifications: what follows the store to EIP (gen_tc_linking_jmp, gen_tc_linking_ret) is not part of the lists; the store itself is not a host
instruction of the model: `Jump.eip` says what is stored.  In RET the store comes before the immediate is added to ESP, which cannot fault.
-/
namespace Verif.Emit
open Host

/-- Where the instruction is: its address in CS, its length, and its operand size. -/
structure Site where
  eip : BitVec 32
  len : Nat
  size32 : Bool

/-- jit.cpp 7441 and others: next_eip, ret_eip. -/
def Site.next (t : Site) : BitVec 32 := t.eip + BitVec.ofNat 32 t.len
/-- jit.cpp 7442-7445 and others: jmp_eip, loop_eip, call_eip; `rel` is the sign extended immediate. -/
def Site.target (t : Site) (rel : BitVec 64) : BitVec 32 :=
  let j := (t.next.setWidth 64 + rel).setWidth 32
  if t.size32 then j else j &&& 0xFFFF#32
/-- The operand size. -/
def Site.sz (t : Site) : Sz := if t.size32 then .d else .w

/-- The 64 bit immediate of a 32 bit value. -/
def imm32 (v : BitVec 32) : Src := .imm (v.setWidth 64)

/-- jit.cpp 7168-7171 and others: EIP by comparing EAX. -/
def pick (n j : BitVec 32) (v : BitVec 64) (c : HC) : List I :=
  [.mov .d .r9 (imm32 n), .mov .d .rbx (imm32 j), .cmp .d .rax (.imm v), .cmov c .d .r9 .rbx]
/-- jit.cpp 7257-7260 and others: EIP by a condition that is 0 or 1. -/
def pick2 (n j : BitVec 32) (r : Reg) : List I :=
  [.cmp .d r (.imm 1#64), .mov .d .r9 (imm32 n), .mov .d .rbx (imm32 j), .cmov .e .d .r9 .rbx]
/-- jit.cpp 535 (LD_CF). -/
def ldCf : List I := [.ldAux .rax, .alu .and .d .rax (.imm 0x80000000#64)]

/-- jit.cpp 7162-7436: the new EIP to R9D. -/
def jccCode (n j : BitVec 32) : Flags.CC → List I
  | .o => [.ldAux .rdx] ++ ldOf .rax .rdx ++ pick n j 0x80000000#64 .e
  | .no => [.ldAux .rdx] ++ ldOf .rax .rdx ++ pick n j 0#64 .e
  | .b => ldCf ++ pick n j 0x80000000#64 .e
  | .nb => ldCf ++ pick n j 0#64 .e
  | .z => [.ldRes .rax] ++ pick n j 0#64 .e
  | .nz => [.ldRes .rax] ++ pick n j 0#64 .ne
  | .be => ldCf ++ [.mov .d .rdx (.imm 0#64), .mov .d .rbx (.imm 1#64), .cmp .d .rax (.imm 0x80000000#64), .cmov .e .d .rdx .rbx, .ldRes .rax,
      .mov .d .r8 (.imm 0#64), .cmp .d .rax (.imm 0#64), .cmov .e .d .r8 .rbx, .alu .or .d .rdx (.reg .r8)] ++ pick2 n j .rdx
  | .nbe => ldCf ++ [.mov .d .rdx (.imm 0#64), .mov .d .rbx (.imm 1#64), .cmp .d .rax (.imm 0#64), .cmov .e .d .rdx .rbx, .ldAux .rax, .ldRes .rax,
      .mov .d .r8 (.imm 0#64), .cmp .d .rax (.imm 0#64), .cmov .ne .d .r8 .rbx, .alu .and .d .rdx (.reg .r8)] ++ pick2 n j .rdx
  | .s => [.ldRes .rax, .ldAux .rdx] ++ ldSf .rax .rdx ++ pick n j 1#64 .e
  | .ns => [.ldRes .rax, .ldAux .rdx] ++ ldSf .rax .rdx ++ pick n j 0#64 .e
  | .p => [.ldRes .rdx, .ldAux .rbx] ++ ldPf .rax .rdx .rbx ++ pick n j 0#64 .e
  | .np => [.ldRes .rdx, .ldAux .rbx] ++ ldPf .rax .rdx .rbx ++ pick n j 1#64 .e
  | .l => [.ldAux .rdx] ++ ldOf .rax .rdx ++ [.ldRes .rbx] ++ ldSf .rbx .rdx ++ [.sh .shr .d .rax 31, .alu .xor .d .rax (.reg .rbx)] ++
      pick n j 1#64 .e
  | .nl => [.ldAux .rdx] ++ ldOf .rax .rdx ++ [.ldRes .rbx] ++ ldSf .rbx .rdx ++ [.sh .shr .d .rax 31, .alu .xor .d .rax (.reg .rbx)] ++
      pick n j 0#64 .e
  | .le => [.ldRes .rax, .mov .d .r8 (.imm 0#64), .mov .d .rbx (.imm 1#64), .cmp .d .rax (.imm 0#64), .cmov .e .d .r8 .rbx, .ldAux .rdx] ++
      ldOf .rbx .rdx ++ ldSf .rax .rdx ++ [.sh .shr .d .rbx 31, .alu .xor .d .rax (.reg .rbx), .mov .d .r9 (.imm 0#64), .mov .d .rbx (.imm 1#64),
      .cmp .d .rax (.imm 1#64), .cmov .e .d .r9 .rbx, .alu .or .d .r8 (.reg .r9)] ++ pick2 n j .r8
  | .nle => [.ldRes .rax, .mov .d .r8 (.imm 0#64), .mov .d .rbx (.imm 1#64), .cmp .d .rax (.imm 0#64), .cmov .ne .d .r8 .rbx, .ldAux .rdx] ++
      ldOf .rbx .rdx ++ ldSf .rax .rdx ++ [.sh .shr .d .rbx 31, .alu .xor .d .rax (.reg .rbx), .mov .d .r9 (.imm 0#64), .mov .d .rbx (.imm 1#64),
      .cmp .d .rax (.imm 0#64), .cmov .e .d .r9 .rbx, .alu .and .d .r8 (.reg .r9)] ++ pick2 n j .r8

/-- ECX. -/
def ecx : GReg := ⟨1, false⟩

/-- jit.cpp 7143-7151: JCXZ, JECXZ; `a32` is the address size. -/
def jcxzCode (a32 : Bool) (n j : BitVec 32) : List I :=
  [if a32 then .ldG .d .rax ecx else .ldGx false .d .w .rax ecx, .cmp .d .rax (.imm 0#64), .mov .d .r9 (imm32 n), .mov .d .rbx (imm32 j),
   .cmov .e .d .r9 .rbx]

/-- jit.cpp 7783-7820: LOOP, LOOPE, LOOPNE, up to the two stores; a jump to `next` skips one more. -/
def loopTest : Near.LoopKind → List I
  | .loop => [.jeq 1]
  | .loope => [.jeq 4, .ldRes .rdx, .test .d .rdx .rdx, .jne 1]
  | .loopne => [.jeq 4, .ldRes .rdx, .test .d .rdx .rdx, .jeq 1]
def loopCode (k : Near.LoopKind) (a32 : Bool) : List I :=
  [if a32 then .ldG .d .rbx ecx else .ldGx false .d .w .rbx ecx, .alu .sub .d .rbx (.imm 1#64), .stG (if a32 then .d else .w) ecx .rbx,
   .test .d .rbx .rbx] ++ loopTest k

/-- jit.cpp 7512-7514, 4888-4890: with 16 bit operands only AX counts. -/
def zext16 (z : Sz) : List I := if z = .w then [.movzx .w .rax .rax] else []

/-- jit.cpp 7501-7514: JMP r/m to EAX. -/
def jmpRmCode (z : Sz) (rm : Rm) : List I := ldRm z rm ++ zext16 z

/-- jit.cpp 4875-4890: CALL r/m; asmjit takes the size of the load 4887 from EAX. -/
def callRmCode (s : Ss) (z : Sz) (ret : BitVec 32) (rm : Rm) : List I :=
  ldRm z rm ++ [.stL .d 0 .rax] ++ pushCode s z (some (ret.setWidth 64)) ++ [.ldL .d .rax 0] ++ zext16 z

/-- jit.cpp 9790-9800: the immediate of RET added to ESP or SP. -/
def addEspCode (s : Ss) (v : BitVec 64) : List I :=
  [.ldG (spSz s.ss32) .rax esp, .alu .add (spSz s.ss32) .rax (.imm v), .stG (spSz s.ss32) esp .rax]

/-- jit.cpp 9790-9800: none without an immediate. -/
def retImm (s : Ss) : Option (BitVec 64) → List I
  | some v => addEspCode s v
  | none => []

/-- jit.cpp 9785-9804: RET, RET imm. -/
def retCode (s : Ss) (z : Sz) (imm : Option (BitVec 64)) : List I :=
  popCode s z true ++ ((if z = .w then [.movzx .w .r8 .r8] else []) ++ retImm s imm)

/-- The instructions. -/
inductive Jump where
  | jcc (c : Flags.CC) (rel : BitVec 64)
  | jcxz (a32 : Bool) (rel : BitVec 64)
  | loop (k : Near.LoopKind) (a32 : Bool) (rel : BitVec 64)
  | jmp (rel : BitVec 64)
  | jmpRm (o : Operand)
  | call (s : Ss) (rel : BitVec 64)
  | callRm (s : Ss) (o : Operand)
  | ret (s : Ss) (imm : Option (BitVec 64))

/-- Their code, given the r/m operand. -/
def Jump.code (t : Site) (rm : Rm) : Jump → List I
  | .jcc c rel => jccCode t.next (t.target rel) c
  | .jcxz a32 rel => jcxzCode a32 t.next (t.target rel)
  | .loop k a32 _ => loopCode k a32
  | .jmp _ => []
  | .jmpRm _ => jmpRmCode t.sz rm
  | .call s _ => pushCode s t.sz (some (t.next.setWidth 64))
  | .callRm s _ => callRmCode s t.sz t.next rm
  | .ret s imm => retCode s t.sz imm

/-- What is stored to EIP after it (jit.cpp 7453, 7472, 7515, 7832, 7836, 4868, 4891, 9789); `k` is the number of instructions the code still skips. -/
def Jump.eip (t : Site) (k : Nat) : Jump → Option Src
  | .jcc _ _ => if k = 0 then some (.reg .r9) else none
  | .jcxz _ _ => if k = 0 then some (.reg .r9) else none
  | .loop _ _ rel => if k = 0 then some (imm32 (t.target rel)) else if k = 1 then some (imm32 t.next) else none
  | .jmp rel => if k = 0 then some (imm32 (t.target rel)) else none
  | .jmpRm _ => if k = 0 then some (.reg .rax) else none
  | .call _ rel => if k = 0 then some (imm32 (t.target rel)) else none
  | .callRm _ _ => if k = 0 then some (.reg .rax) else none
  | .ret _ _ => if k = 0 then some (.reg .r8) else none

/-- The operand. -/
def Jump.operand : Jump → Option Operand
  | .jmpRm o | .callRm _ o => some o
  | _ => none

/-- How the code of a jump ends: with the state and EIP, or in the handler of a fault. -/
inductive JOut where
  | next (eip : BitVec 32) (h : St)
  | fault (g : G)
  | stuck

/-- After the run. -/
def JOut.of (t : Site) (j : Jump) : Out → JOut
  | .next k h => match j.eip t k with
    | some s => .next (s.val h .d) h
    | none => .stuck
  | .fault g => .fault g
  | .stuck => .stuck

/-- The code of a jump running. -/
def execJump (e : Env) (h : St) (t : Site) (j : Jump) : JOut :=
  match j.operand with
  | some (.reg r) => .of t j (run e 0 (j.code t (.reg r)) h)
  | some (.mem m) => .of t j (runWith e m 0 (j.code t (.mem ⟨0#32, 0#64, 0#64, fun _ => false⟩)) h)
  | none => .of t j (run e 0 (j.code t (.reg ecx)) h)

/-- core/translate.cpp 1264: the block ends before the jump that follows `l` is reached. -/
def cut (one : Bool) : BitVec 32 → List (Insn × Nat) → Bool
  | _, [] => false
  | pc, (_, n) :: l => one || crosses pc n || cut one (pc + BitVec.ofNat 32 n) l

/-- How a block with a jump at its end ends: `jumps` with the new EIP. -/
inductive JBOut where
  | jumps (eip : BitVec 32) (h : St)
  | ends (eip : BitVec 32) (h : St)
  | fault (eip : BitVec 32) (g : G)
  | int (eip : BitVec 32) (h : St)
  | stuck

/-- The end of the block: the jump's address is EIP. -/
def JBOut.of (es : Nat → Env) (k : Nat) (c : Bool) (len : Nat) (size32 : Bool) (j : Jump) : BOut → JBOut
  | .ends eip h => if c then .ends eip h else
    match execJump (es k) h ⟨eip, len, size32⟩ j with
    | .next eip' h' => .jumps eip' h'
    | .fault g => .fault eip g
    | .stuck => .stuck
  | .fault eip g => .fault eip g
  | .int eip h => .int eip h
  | .stuck => .stuck

/-- core/translate.cpp 1241-1350: the block at `pc`, of the instructions `l` and the jump `j` of `len` bytes that ends it, entered with EIP there. -/
def runBasic (es : Nat → Env) (pend : Nat → BitVec 32) (base : BitVec 32) (one : Bool) (pc : BitVec 32) (l : List (Insn × Nat)) (len : Nat)
    (size32 : Bool) (j : Jump) (h : St) : JBOut :=
  .of es l.length (cut one pc l) len size32 j (runBlock es pend 0 (layout base one pc l) (pc - base) h)

end Verif.Emit
