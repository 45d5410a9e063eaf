import Verif.Model.EmitMov
import Verif.Model.StringOps
/-
The code emitted for the string instructions, with and without a repeat prefix: core/emitter/x64/jit.cpp 2203-2246 (rep_start, rep), 5352-5448 (CMPS),
7708-7765 (LODS), 8497-8577 (MOVS), 10048-10121 (SCAS), 10474-10550 (STOS).

The label `end` is the end of the list; a jump to `start` is a jump to one instruction past the end, after which the list runs again.
-/
namespace Verif.Emit
open Host

/-- A string instruction as decoded: which, element size, address size, source segment (DS or the prefix), whether the source segment and ES have
base zero in hflags, and the prefix. -/
structure StrInsn where
  i : StringOps.Instr
  z : Sz
  a32 : Bool
  seg : Fin 6
  srcFlat : Bool
  dstFlat : Bool
  rep : Option StringOps.Rep

/-- ESI, EDI. -/
def esi : GReg := ⟨6, false⟩
def edi : GReg := ⟨7, false⟩

/-- jit.cpp 8505-8510 and similar: MOVZX of the 16 bit register, or LD_R32. -/
def ldIdx (a32 : Bool) (d : Reg) (r : GReg) : I := if a32 then .ldG .d d r else .ldGx false .d .w d r
/-- jit.cpp 8544-8551 and similar: ST_R16 or ST_R32. -/
def stIdx (a32 : Bool) (r : GReg) (s : Reg) : I := .stG (if a32 then .d else .w) r s
/-- jit.cpp 8512-8514 and similar: the base of the segment is added unless it is known to be zero. -/
def addBase (flat : Bool) (s : Fin 6) : List I := if flat then [] else [.addSeg .rdx s]

/-- The element: jit.cpp 8505-8534 (MOVS), 5361-5398 (CMPS), 7716-7730 (LODS), 10055-10075 (SCAS), 10482-10518 (STOS). -/
def elemCode (x : StrInsn) : List I :=
  match x.i with
  | .movs => [ldIdx x.a32 .rdx esi, .stL .d 0 .rdx] ++ addBase x.srcFlat x.seg ++ [.ldMem x.z, ldIdx x.a32 .rdx edi, .mov .d .rbx (.reg .rdx)] ++
      addBase x.dstFlat 0 ++ [.mov x.z .r8 (.reg .rax), .stMem x.z, .ldL .d .rax 0]
  | .stos => [ldIdx x.a32 .rdx edi, .mov .d .rbx (.reg .rdx)] ++ addBase x.dstFlat 0 ++ [.ldG x.z .r8 acc, .stMem x.z]
  | .lods => [ldIdx x.a32 .rdx esi, .mov .d .rbx (.reg .rdx)] ++ addBase x.srcFlat x.seg ++ [.ldMem x.z, .stG x.z acc .rax]
  | .cmps => [ldIdx x.a32 .rdx edi, .stL .d 0 .rdx] ++ addBase x.dstFlat 0 ++ [.ldMem x.z, .mov x.z .rbx (.reg .rax), ldIdx x.a32 .rdx esi,
      .stL .d 1 .rdx] ++ addBase x.srcFlat x.seg ++ [.ldMem x.z, .mov x.z .r8 (.reg .rax), .alu .sub x.z .r8 (.reg .rbx)] ++
      setFlagsSub x.z (.reg .rax) true (.reg .rbx) ++ [.ldL .d .rdx 0, .ldL .d .rax 1]
  | .scas => [ldIdx x.a32 .rdx edi, .mov .d .rbx (.reg .rdx)] ++ addBase x.dstFlat 0 ++ [.ldMem x.z, .mov x.z .rdx (.reg .rax), .ldG x.z .rax acc,
      .mov x.z .r8 (.reg .rax), .alu .sub x.z .r8 (.reg .rdx)] ++ setFlagsSub x.z (.reg .rax) true (.reg .rdx)

/-- The host register DF is tested in: jit.cpp 8532 (MOVS), 5399 (CMPS), 7732 and others. -/
def dfReg : StringOps.Instr → Reg
  | .movs => .rdx
  | .cmps => .rbx
  | _ => .rax
/-- The host registers that hold the indices: jit.cpp 8538-8551 (MOVS), 5405-5416 (CMPS), 7738-7744 and others. -/
def idxRegs : StringOps.Instr → List (GReg × Reg)
  | .movs => [(edi, .rbx), (esi, .rax)]
  | .cmps => [(edi, .rdx), (esi, .rax)]
  | .lods => [(esi, .rbx)]
  | .stos => [(edi, .rbx)]
  | .scas => [(edi, .rbx)]

/-- jit.cpp 8538-8551, 8559-8570 and similar: the indices moved by the size of the element. -/
def moveCode (x : StrInsn) (o : Alu) : List I :=
  (idxRegs x.i).map (fun p => .alu o .d p.2 (.imm (BitVec.ofNat 64 x.z.bytes))) ++ (idxRegs x.i).map fun p => stIdx x.a32 p.1 p.2

/-- jit.cpp 2236-2245: the ZF test and the jump to `start`; `n` instructions follow up to `end`. -/
def repJump (n : Nat) : StringOps.Rep → List I
  | .rep => [.jeq (n + 1), .jmp (n + 1)]
  | .repz => [.jeq (n + 4), .ldRes .rax, .test .d .rax .rax, .jne (n + 1), .jmp (n + 1)]
  | .repnz => [.jeq (n + 4), .ldRes .rax, .test .d .rax .rax, .jeq (n + 1), .jmp (n + 1)]
/-- jit.cpp 2221-2246: rep. -/
def repCode (a32 : Bool) (n : Nat) (r : StringOps.Rep) : List I :=
  [ldIdx a32 .rax ⟨1, false⟩, .alu .sub (if a32 then .d else .w) .rax (.imm 1#64), stIdx a32 ⟨1, false⟩ .rax, .test .d .rax .rax] ++ repJump n r

/-- jit.cpp 8552-8557 and similar: after the element, moving forward. -/
def fwdEnd (x : StrInsn) (n : Nat) : List I := match x.rep with
  | some r => repCode x.a32 n r
  | none => [.jmp n]
/-- jit.cpp 8571-8573 and similar: moving backward. -/
def bwdEnd (x : StrInsn) : List I := match x.rep with
  | some r => repCode x.a32 0 r
  | none => []
def bwd (x : StrInsn) : List I := moveCode x .sub ++ bwdEnd x
def fwd (x : StrInsn) : List I := moveCode x .add ++ fwdEnd x (bwd x).length

/-- The code from `start` to `end`. -/
def strTurn (x : StrInsn) : List I :=
  elemCode x ++ ([.ldEfl (dfReg x.i), .alu .and .d (dfReg x.i) (.imm 0x400#64), .test .d (dfReg x.i) (dfReg x.i), .jne (fwd x).length] ++
    (fwd x ++ bwd x))

/-- jit.cpp 2206-2216: rep_start; a jump past the end of this list is one to `end`. -/
def repStart (x : StrInsn) : List I := match x.rep with
  | some _ => [ldIdx x.a32 .rax ⟨1, false⟩, .test .d .rax .rax, .jeq 1]
  | none => []

/-- The code from `start` on, entered at most `n` times. -/
def again (e : Env) (l : List I) : Nat → St → Out
  | 0, _ => .stuck
  | n + 1, h => match run e 0 l h with
    | .next 0 h' => .next 0 h'
    | .next (_ + 1) h' => again e l n h'
    | .fault g => .fault g
    | .stuck => .stuck

/-- The code of a string instruction running. -/
def strExec (e : Env) (x : StrInsn) (n : Nat) (h : St) : Out :=
  match run e 0 (repStart x) h with
  | .next 0 h' => again e (strTurn x) n h'
  | .next (_ + 1) h' => .next 0 h'
  | .fault g => .fault g
  | .stuck => .stuck

end Verif.Emit
