import Verif.Model.EmitMore
/-
The code emitted for MOV, LEA, PUSH, POP, LEAVE, PUSHA and POPA (core/emitter/x64/jit.cpp, the lines cited below), on the machine of
Model/Host.lean.  SS is segment register 2, ESP register 4, EBP register 5.
-/
namespace Verif.Emit
open Host

/-- jit.cpp 8042-8060: MOV r/m, r (88, 89). -/
def movRmR (z : Sz) (src : GReg) : Rm → List I
  | .reg r => [.ldG z .r8 src, .stG z r .r8]
  | .mem a => [.ldG z .r8 src, .ea a, .stMem z]

/-- jit.cpp 8062-8081: MOV r, r/m (8A, 8B); with a direct address also 8147-8155 (A0, A1). -/
def movRRm (z : Sz) (dst : GReg) : Rm → List I
  | .reg r => [.ldG z .rax r, .stG z dst .rax]
  | .mem a => [.ea a, .ldMem z, .stG z dst .rax]

/-- jit.cpp 8157-8168: MOV moffs, accumulator (A2, A3). -/
def movToMoffs (z : Sz) (a : Ea) : List I := [.ea a, .ldG z .r8 acc, .stMem z]

/-- jit.cpp 8170-8221: MOV r/m, imm (B0-BF, C6, C7). -/
def movImm (z : Sz) (v : BitVec 64) : Rm → List I
  | .reg r => [.stGi z r v]
  | .mem a => [.ea a, .mov z .r8 (.imm v), .stMem z]

/-- jit.cpp 8083-8095: MOV r/m, Sreg (8C). -/
def movRmSel (s : Fin 6) : Rm → List I
  | .reg r => [.ldSel true .r8 s, .stG .d r .r8]
  | .mem a => [.ldSel true .r8 s, .ea a, .stMem .w]

/-- jit.cpp 8097-8108: MOV Sreg, r/m (8E) up to the call of the helper, the selector in DX; `z` is the operand size. -/
def movSelRm (z : Sz) : Rm → List I
  | .reg r => [.ldG .w .rax r, .mov .w .rdx (.reg .rax)]
  | .mem a => [.ea a, .ldMem z, .mov .w .rdx (.reg .rax)]

/-- jit.cpp 7608-7621: LEA. -/
def lea (z : Sz) (dst : GReg) (a : Ea) : List I := [.ea a, .stG z dst .rdx]

/-- ESP and EBP. -/
def esp : GReg := ⟨4, false⟩
def ebp : GReg := ⟨5, false⟩

/-- The size of the stack pointer. -/
def spSz (ss32 : Bool) : Sz := if ss32 then .d else .w

/-- What the emitter knows of the stack segment: HFLG_SS32 and HFLG_SS_IS_ZERO. -/
structure Ss where
  ss32 : Bool
  flat : Bool

/-- jit.cpp 2263-2266, 2283-2286 and all similar places: the address of the item at (E)BX to EDX. -/
def itemAddr (s : Ss) : List I :=
  (if s.ss32 then [.mov .d .rdx (.reg .rbx)] else [.movzx .w .rdx .rbx]) ++ if s.flat then [] else [.addSeg .rdx 2]

/-- jit.cpp 2268-2270: an immediate to R8. -/
def immCode : Option (BitVec 64) → List I
  | some v => [.mov .q .r8 (.imm v)]
  | none => []

/-- jit.cpp 2262-2271: gen_stack_push without ESP: the pointer in (E)BX, the value an immediate or in R8. -/
def pushAt (s : Ss) (z : Sz) (v : Option (BitVec 64)) : List I :=
  [.alu .sub (spSz s.ss32) .rbx (.imm (BitVec.ofNat 64 z.bytes))] ++ (itemAddr s ++
  (immCode v ++ [.stMem z]))

/-- jit.cpp 2248-2336: gen_stack_push. -/
def pushCode (s : Ss) (z : Sz) (v : Option (BitVec 64)) : List I :=
  [.ldG (spSz s.ss32) .rbx esp] ++ (pushAt s z v ++ [.stG (spSz s.ss32) esp .rbx])

/-- jit.cpp 2403-2417 and the other cases: one item at (E)BX to AX or EAX. -/
def popAt (s : Ss) (z : Sz) : List I := itemAddr s ++ [.ldMem z]

/-- jit.cpp 2393-2489: gen_stack_pop<1>; `w` is write_esp. -/
def popCode (s : Ss) (z : Sz) (w : Bool) : List I :=
  [.ldG (spSz s.ss32) .rbx esp] ++ (popAt s z ++
  ([.mov z .r8 (.reg .rax), .alu .add (spSz s.ss32) .rbx (.imm (BitVec.ofNat 64 z.bytes))] ++
  if w then [.stG (spSz s.ss32) esp .rbx] else []))

/-- The operands of PUSH. -/
inductive PushOp where
  | reg (r : GReg)
  | mem (a : Ea)
  | imm (v : BitVec 64)
  | sel (s : Fin 6)

/-- jit.cpp 9479-9561: PUSH; an immediate is sign extended by the emitter (9508-9514). -/
def pushInsn (s : Ss) (z : Sz) : PushOp → List I
  | .reg r => [.ldG z .r8 r] ++ pushCode s z none
  | .mem a => [.ea a, .ldMem z, .mov z .r8 (.reg .rax)] ++ pushCode s z none
  | .imm v => pushCode s z (some v)
  | .sel i => [.ldSel (z = .d) .r8 i] ++ pushCode s z none

/-- jit.cpp 9107-9148: POP to a register or to memory. -/
def popInsn (s : Ss) (z : Sz) : Rm → List I
  | .reg r => popCode s z true ++ [.stG z r .r8]
  | .mem a => [.ea a, .stL .d 0 .rdx] ++ (popCode s z false ++ [.ldL .d .rdx 0, .stMem z, .stG (spSz s.ss32) esp .rbx])

/-- jit.cpp 7623-7643: LEAVE. -/
def leave (s : Ss) (z : Sz) : List I :=
  [.ldG (spSz s.ss32) .rax ebp, .stG (spSz s.ss32) esp .rax] ++ (popCode s z true ++ [.stG z ebp .r8])

/-- jit.cpp 9570-9577 and the other cases: the loop of PUSHA over the operands. -/
def pushaItems (s : Ss) (z : Sz) : List (Fin 8) → List I
  | [] => []
  | i :: l => ([.alu .sub (spSz s.ss32) .rbx (.imm (BitVec.ofNat 64 z.bytes))] ++ (itemAddr s ++
      [.ldG z .r8 ⟨i, false⟩, .stMem z])) ++ pushaItems s z l

/-- jit.cpp 9564-9632: PUSHA. -/
def pusha (s : Ss) (z : Sz) : List I :=
  [.ldG (spSz s.ss32) .rbx esp] ++ (pushaItems s z [0, 1, 2, 3, 4, 5, 6, 7] ++ [.stG (spSz s.ss32) esp .rbx])

/-- jit.cpp 9229-9248 and the other cases: the loops of POPA; the slot of ESP is skipped. -/
def popaItems (s : Ss) (z : Sz) : List (Fin 8) → List I
  | [] => []
  | i :: l => ((if i = 4 then [] else popAt s z ++ [.stG z ⟨i, false⟩ .rax]) ++
      [.alu .add (spSz s.ss32) .rbx (.imm (BitVec.ofNat 64 z.bytes))]) ++ popaItems s z l

/-- jit.cpp 9223-9320: POPA. -/
def popa (s : Ss) (z : Sz) : List I :=
  [.ldG (spSz s.ss32) .rbx esp] ++ (popaItems s z [7, 6, 5, 4, 3, 2, 1, 0] ++ [.stG (spSz s.ss32) esp .rbx])

end Verif.Emit
