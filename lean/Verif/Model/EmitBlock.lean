import Verif.Model.EmitEa
import Verif.Model.EmitMore
import Verif.Model.EmitShift
import Verif.Model.EmitMov
import Verif.Model.EmitStr
import Verif.Model.EmitFlag
/-
A translated block: core/translate.cpp 1229-1351 (cpu_translate) emits the code of one instruction after the other, after each the update
of EIP and the interrupt check, core/emitter/x64/jit.cpp 792-810.

Simplifications: the instructions are those whose emitted code is modelled and that do not end the block; an interrupt check leaves the block
(m_exit_int, jit.cpp 850-863), what happens then is Model/Ints.lean; decoding is done.
-/
namespace Verif.Emit
open Host

/-- The instructions with an r/m operand (core/translate.cpp 1338-1341 calls the function that emits their code). -/
inductive MemInsn where
  | alu (o : Op) (z : Sz) (f : Form)
  | incDec (sum : Bool) (z : Sz)
  | neg (z : Sz)
  | not (z : Sz)
  | xadd (z : Sz) (src : GReg)
  | xchg (z : Sz) (src : GReg)
  | cmpxchg (z : Sz) (src : GReg)
  | cmpxchg8b
  | mul (z : Sz)
  | imul1 (z : Sz)
  | imul2 (z : Sz) (dst : GReg)
  | imul3 (z : Sz) (dst : GReg) (v : BitVec 64)
  | movx (signed : Bool) (zd zs : Sz) (dst : GReg)
  | bscan (reverse : Bool) (z : Sz) (dst : GReg)
  | setcc (c : Flags.CC)
  | cmovcc (c : Flags.CC) (z : Sz) (dst : GReg)
  | bound (z : Sz) (dst : GReg)
  | shift (k : ShKind) (z : Sz) (n : ShCnt)
  | movRmR (z : Sz) (src : GReg)
  | movRRm (z : Sz) (dst : GReg)
  | movToMoffs (z : Sz)
  | movImm (z : Sz) (v : BitVec 64)
  | movRmSel (s : Fin 6)
  | movSelRm (z : Sz)
  | lea (z : Sz) (dst : GReg)
  | push (s : Ss) (z : Sz)
  | pop (s : Ss) (z : Sz)
  | bit (k : Fin 4) (z : Sz) (n : BitSrc)
  | div (signed : Bool) (z : Sz) (eip : BitVec 64)

/-- Their code with an operand at `a`: core/emitter/x64/jit.cpp, the functions cited at each. -/
def MemInsn.code (a : Ea) : MemInsn → List I
  | .alu o z f => emit o z (.mem a) f
  | .incDec sum z => Emit.incDec sum z (.mem a)
  | .neg z => Emit.neg z (.mem a)
  | .not z => Emit.not z (.mem a)
  | .xadd z src => Emit.xadd z src (.mem a)
  | .xchg z src => Emit.xchg z src (.mem a)
  | .cmpxchg z src => Emit.cmpxchg z src (.mem a)
  | .cmpxchg8b => Emit.cmpxchg8b a
  | .mul z => Emit.mul z (.mem a)
  | .imul1 z => Emit.imul1 z (.mem a)
  | .imul2 z dst => Emit.imul2 z dst (.mem a)
  | .imul3 z dst v => Emit.imul3 z dst (.mem a) v
  | .movx s zd zs dst => Emit.movx s zd zs dst (.mem a)
  | .bscan rv z dst => Emit.bscan rv z dst (.mem a)
  | .setcc c => Emit.setcc c (.mem a)
  | .cmovcc c z dst => Emit.cmovcc c z dst (.mem a)
  | .bound z dst => Emit.bound z dst a
  | .shift k z n => shiftCode k z (.mem a) n
  | .movRmR z src => Emit.movRmR z src (.mem a)
  | .movRRm z dst => Emit.movRRm z dst (.mem a)
  | .movToMoffs z => Emit.movToMoffs z a
  | .movImm z v => Emit.movImm z v (.mem a)
  | .movRmSel s => Emit.movRmSel s (.mem a)
  | .movSelRm z => Emit.movSelRm z (.mem a)
  | .lea z dst => Emit.lea z dst a
  | .push s z => pushInsn s z (.mem a)
  | .pop s z => popInsn s z (.mem a)
  | .bit k z n => Emit.bit k z n (.mem a)
  | .div sg z eip => Emit.div sg z eip (.mem a)

/-- Their code with the r/m operand in a register; CMPXCHG8B, BOUND, LEA and the direct MOV have no such form. -/
def MemInsn.codeReg (r : GReg) : MemInsn → List I
  | .alu o z f => emit o z (.reg r) f
  | .incDec sum z => Emit.incDec sum z (.reg r)
  | .neg z => Emit.neg z (.reg r)
  | .not z => Emit.not z (.reg r)
  | .xadd z src => Emit.xadd z src (.reg r)
  | .xchg z src => Emit.xchg z src (.reg r)
  | .cmpxchg z src => Emit.cmpxchg z src (.reg r)
  | .cmpxchg8b => []
  | .mul z => Emit.mul z (.reg r)
  | .imul1 z => Emit.imul1 z (.reg r)
  | .imul2 z dst => Emit.imul2 z dst (.reg r)
  | .imul3 z dst v => Emit.imul3 z dst (.reg r) v
  | .movx s zd zs dst => Emit.movx s zd zs dst (.reg r)
  | .bscan rv z dst => Emit.bscan rv z dst (.reg r)
  | .setcc c => Emit.setcc c (.reg r)
  | .cmovcc c z dst => Emit.cmovcc c z dst (.reg r)
  | .bound _ _ => []
  | .shift k z n => shiftCode k z (.reg r) n
  | .movRmR z src => Emit.movRmR z src (.reg r)
  | .movRRm z dst => Emit.movRRm z dst (.reg r)
  | .movToMoffs _ => []
  | .movImm z v => Emit.movImm z v (.reg r)
  | .movRmSel s => Emit.movRmSel s (.reg r)
  | .movSelRm z => Emit.movSelRm z (.reg r)
  | .lea _ _ => []
  | .push s z => pushInsn s z (.reg r)
  | .pop s z => popInsn s z (.reg r)
  | .bit k z n => Emit.bit k z n (.reg r)
  | .div sg z eip => Emit.div sg z eip (.reg r)

/-- The r/m operand of an instruction as the decoder gives it. -/
inductive Operand where
  | reg (r : GReg)
  | mem (m : MemOp)

/-- The instructions of a block. -/
inductive Insn where
  | rm (i : MemInsn) (o : Operand)
  | cbw | cwde | cwd | cdq
  | bswap (r : Fin 8)
  | clc | stc | cmc | cld | std
  | xchgAcc (z : Sz) (r : GReg)
  | pushImm (s : Ss) (z : Sz) (v : BitVec 64)
  | pushSel (s : Ss) (z : Sz) (i : Fin 6)
  | leave (s : Ss) (z : Sz)
  | pusha (s : Ss) (z : Sz)
  | popa (s : Ss) (z : Sz)
  | str (x : StrInsn)
  | lahf | sahf | aaa | aas
  | aad (v : BitVec 8)
  | aam (v : BitVec 8)
  | daaDas (sum : Bool)
  | pushf (s : Ss) (z : Sz) (vme : Bool)

/-- The code of the instructions without an r/m operand. -/
def Insn.plain : Insn → List I
  | .rm _ _ => []
  | .cbw => Emit.cbw
  | .cwde => Emit.cwde
  | .cwd => Emit.cwd
  | .cdq => Emit.cdq
  | .bswap r => Emit.bswap ⟨r, false⟩
  | .clc => Emit.clc
  | .stc => Emit.stc
  | .cmc => Emit.cmc
  | .cld => Emit.cld
  | .std => Emit.std
  | .xchgAcc z r => Emit.xchgAcc z r
  | .pushImm s z v => pushInsn s z (.imm v)
  | .pushSel s z i => pushInsn s z (.sel i)
  | .leave s z => Emit.leave s z
  | .pusha s z => Emit.pusha s z
  | .popa s z => Emit.popa s z
  | .str _ => []
  | .lahf => Emit.lahf
  | .sahf => Emit.sahf
  | .aaa => Emit.aaa
  | .aas => Emit.aas
  | .aad v => Emit.aad v
  | .aam v => Emit.aam v
  | .daaDas sum => Emit.daaDas sum
  | .pushf s z vme => Emit.pushf s z vme

/-- How the code of an instruction ends: at the code of the next, or in the handler of an exception. -/
inductive Done where
  | next (h : St)
  | fault (g : G)
  | stuck

/-- The end of a run; the code of BOUND (jit.cpp 4721) raises #BR, that of DIV and IDIV (5884-5886, 6744-6746) #DE unless it jumps
over that. -/
def Done.ofRun : Out → Done
  | .next 0 h => .next h
  | .next (_ + 1) _ => .stuck
  | .fault g => .fault g
  | .stuck => .stuck
def Done.ofBound : Out → Done
  | .next 0 h => .fault h.g
  | .next 1 h => .next h
  | .next (_ + 2) _ => .stuck
  | .fault g => .fault g
  | .stuck => .stuck
def Done.of : MemInsn → Out → Done
  | .bound _ _ | .div _ _ _ => Done.ofBound
  | _ => Done.ofRun

/-- The code of one instruction running; core/translate.cpp 1338-1341.  In the lists of Model/Emit*.lean, `.ea` stands for the operand's code.
The loop of a string instruction is given as many turns as its count can ask for. -/
def exec (e : Env) (h : St) : Insn → Done
  | .rm i (.reg r) => Done.of i (run e 0 (i.codeReg r) h)
  | .rm i (.mem m) => Done.of i (runWith e m 0 (i.code ⟨0#32, 0#64, 0#64, fun _ => false⟩) h)
  | .str x => Done.ofRun (strExec e x (2 ^ 32) h)
  | i => Done.ofRun (run e 0 i.plain h)

/-- An instruction of a block: what update_eip stores after it, and whether an interrupt check follows. -/
structure Item where
  insn : Insn
  next : BitVec 32
  check : Bool

/-- core/translate.cpp 1264: the block ends here because the instruction crosses into the next page or ends this one. -/
def crosses (pc : BitVec 32) (len : Nat) : Bool :=
  decide (pc &&& 0xFFFFF000#32 ≠ (pc + BitVec.ofNat 32 len - 1#32) &&& 0xFFFFF000#32) ||
  decide (pc &&& 0xFFFFF000#32 ≠ (pc + BitVec.ofNat 32 len) &&& 0xFFFFF000#32)

/-- core/translate.cpp 1241-1350: the loop over the decoded instructions and their lengths from `pc` on; `base` is the base of CS, `one` is
DISAS_FLG_ONE_INSTR. -/
def layout (base : BitVec 32) (one : Bool) : BitVec 32 → List (Insn × Nat) → List Item
  | _, [] => []
  | pc, (i, n) :: l =>
    if one || crosses pc n then [⟨i, pc + BitVec.ofNat 32 n - base, false⟩]
    else ⟨i, pc + BitVec.ofNat 32 n - base, true⟩ :: layout base one (pc + BitVec.ofNat 32 n) l

/-- jit.cpp 801-806: gen_interrupt_check; `p` is int_pending.  The second component is the state after it. -/
def intCheck (p : BitVec 32) (h : St) : Bool × St :=
  let a := h.g.fl.eflags ||| ~~~0x200#32
  let d := p &&& a
  (decide (d ≠ 0#32), { h with
    r := fun x => if x = .rax then a.setWidth 64 else if x = .rdx then d.setWidth 64 else h.r x
    zf := decide (d = 0#32), cf := false, of := false, sf := d.msb })

/-- How a block ends: after its last instruction (where the code that ends the block follows), in the handler of an exception, or at m_exit_int; with
EIP. -/
inductive BOut where
  | ends (eip : BitVec 32) (h : St)
  | fault (eip : BitVec 32) (g : G)
  | int (eip : BitVec 32) (h : St)
  | stuck

/-- The block running from its `n`-th instruction on, `eip` in cpu_ctx: the accesses allowed may change between instructions (`es`), and so may the
pending interrupts (`pend n` is int_pending when the check after the `n`-th instruction reads it). -/
def runBlock (es : Nat → Env) (pend : Nat → BitVec 32) : Nat → List Item → BitVec 32 → St → BOut
  | _, [], eip, h => .ends eip h
  | n, it :: l, eip, h =>
    match exec (es n) h it.insn with
    | .next h' =>
      if it.check then
        if (intCheck (pend n) h').1 then .int it.next (intCheck (pend n) h').2
        else runBlock es pend (n + 1) l it.next (intCheck (pend n) h').2
      else runBlock es pend (n + 1) l it.next h'
    | .fault g => .fault eip g
    | .stuck => .stuck

end Verif.Emit
