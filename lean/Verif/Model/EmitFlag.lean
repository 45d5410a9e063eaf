import Verif.Model.EmitMov
/-
The code emitted for LAHF, SAHF, the bit tests, PUSHF and POPF, DIV, IDIV and the decimal adjustments: core/emitter/x64/jit.cpp, the
lines cited below.
-/
namespace Verif.Emit
open Host

/-- AH. -/
def ah : GReg := ⟨0, true⟩

/-- jit.cpp 7572-7605: LAHF. -/
def lahf : List I :=
  [.ldRes .rdx, .ldFl8 true 1 .rax, .movzx .b .rbx .rdx, .alu .xor .q .rbx (.reg .rax), .movPar .rax, .ldPar2 .r8 .rbx .rax,
   .alu .xor .d .rax (.reg .rax), .alu .xor .d .r8 (.imm 1#64), .mov .d .rbx (.imm 0x10#64), .test .d .rdx .rdx, .ldAux .rdx,
   .cmov .e .d .rax .rbx, .mov .d .rbx (.reg .rdx), .alu .or .d .r8 (.reg .rax), .sh .shl .d .rbx 7, .ldFl8 false 3 .rax,
   .alu .xor .d .rax (.reg .rbx), .sh .shl .d .r8 2, .alu .and .d .rax (.imm 0x80#64), .mov .d .rbx (.reg .rdx), .alu .and .d .rbx (.imm 8#64),
   .sh .shr .d .rdx 31, .alu .or .d .r8 (.imm 2#64), .alu .add .d .rbx (.reg .rbx), .alu .or .d .rax (.reg .r8), .alu .or .d .rax (.reg .rbx),
   .alu .or .d .rax (.reg .rdx), .stG .b ah .rax]

/-- jit.cpp 9882-9914: SAHF. -/
def sahf : List I :=
  [.ldGx false .d .b .r8 ah, .mov .d .rdx (.reg .r8), .mov .d .rbx (.reg .r8), .alu .and .d .rdx (.imm 1#64), .alu .and .d .rbx (.imm 0x10#64),
   .sh .shl .d .rdx 30, .leaS .rax .r8 2, .not .d .rax, .alu .and .d .rax (.imm 0x100#64), .stRes (.reg .rax), .ldAux .r9] ++ ldOf .rax .r9 ++
  [.sh .shr .d .rax 1, .alu .xor .d .rdx (.reg .rax), .mov .d .rax (.reg .r8), .sh .shr .d .rax 6, .alu .or .d .rbx (.reg .rax),
   .mov .d .rax (.reg .r8), .sh .shl .d .rax 6, .not .d .rax, .sh .shr .d .rbx 1, .alu .or .d .rdx (.reg .rbx), .sh .shl .d .r8 31,
   .alu .and .d .rax (.imm 0x100#64), .alu .or .d .rdx (.reg .rax), .alu .or .d .rdx (.reg .r8), .stAux (.reg .rdx)]

/-- The bit number of a bit test: a register or an immediate (opcode 0FBA). -/
inductive BitSrc where
  | reg (r : GReg)
  | imm (v : BitVec 64)

/-- jit.cpp 3726-3729, 3746-3749: the register with the bit number to (E)BX. -/
def bitLd (z : Sz) : BitSrc → List I
  | .reg r => [.ldG z .rbx r]
  | .imm _ => []
def bitSrc : BitSrc → Src
  | .reg _ => .reg .rbx
  | .imm v => .imm v

/-- jit.cpp 3757-3759: the lazy flags. -/
def bitFlags : List I := [.movzx .b .rbx .rbx, .sh .shl .d .rbx 31, .stAux (.reg .rbx)]

/-- jit.cpp 3682-3760: bit; `k` is 0 for BT, 1 for BTC, 2 for BTR, 3 for BTS. -/
def bit (k : Fin 4) (z : Sz) (n : BitSrc) : Rm → List I
  | .reg r => [.ldG z .rax r] ++ bitLd z n ++ [.bt k z .rax (bitSrc n), .setcc .c .rbx] ++ (if k = 0 then [] else [.stG z r .rax]) ++ bitFlags
  | .mem a => [.ea a, .mov .d .rbx (.reg .rdx), .ldMem z, .mov .d .rdx (.reg .rbx), .stL z 0 .rax] ++ bitLd z n ++
      [.btL k z 0 (bitSrc n), .setcc .c .rbx] ++ (if k = 0 then [] else [.ldL z .r8 0, .stMem z]) ++ bitFlags

/-- jit.cpp 9655-9690: the arithmetic flags to EAX. -/
def pushfFlags : List I :=
  [.ldAux .r8, .ldRes .rdx, .ldFl8 true 1 .rax, .movzx .b .rbx .rdx, .alu .xor .q .rbx (.reg .rax), .movPar .rax, .ldPar2 .r9 .rbx .rax,
   .alu .xor .d .rax (.reg .rax), .alu .xor .d .r9 (.imm 1#64), .mov .d .rbx (.imm 0x10#64), .test .d .rdx .rdx, .mov .d .rdx (.reg .r8),
   .cmov .e .d .rax .rbx, .mov .d .rbx (.reg .r8), .alu .or .d .r9 (.reg .rax), .sh .shr .d .rbx 1, .alu .xor .d .rbx (.reg .r8),
   .sh .shl .d .rdx 7, .mov .d .rax (.reg .r8), .sh .shl .d .r9 2, .sh .shr .d .rax 12, .alu .and .d .rbx (.imm 0x40000000#64),
   .alu .or .d .rax (.reg .rbx), .alu .and .d .r8 (.imm 8#64), .ldFl8 false 3 .rbx, .alu .add .d .r8 (.reg .r8), .sh .shr .d .rax 19,
   .alu .xor .d .rdx (.reg .rbx), .alu .or .d .rax (.reg .r9), .alu .and .d .rdx (.imm 0x80#64), .alu .or .d .rax (.reg .rdx),
   .alu .or .d .rax (.reg .r8)]

/-- jit.cpp 9692-9711: the other flags; `vme` is vm86_handling.  LD_R16 of EFLAGS is a load of 32 bits of which the low half is used. -/
def pushfRest (z : Sz) (vme : Bool) : List I :=
  if z = .w then
    (if vme then [.ldEfl .r8, .mov .d .rdx (.reg .r8), .alu .and .d .r8 (.imm 0x80000#64), .alu .and .d .rdx (.imm 0xFFFFCDFF#64),
      .sh .shr .d .r8 10, .alu .or .d .r8 (.imm 0x3000#64), .alu .or .d .r8 (.reg .rdx)] else [.ldEfl .r8]) ++ [.alu .or .w .r8 (.reg .rax)]
  else [.ldEfl .r8, .alu .or .d .r8 (.reg .rax), .alu .and .d .r8 (.imm 0xFCFFFF#64)]

/-- jit.cpp 9639-9712: PUSHF, where it does not raise #GP. -/
def pushf (s : Ss) (z : Sz) (vme : Bool) : List I := pushfFlags ++ (pushfRest z vme ++ pushCode s z none)

/-- jit.cpp 9417-9447: the flags from the value in EBX; the bits of EFLAGS outside of `mask` stay. -/
def popfEnd (mask : BitVec 32) : List I :=
  [.mov .d .rdx (.reg .rbx), .ldEfl .rax, .alu .and .d .rax (.imm ((~~~mask).setWidth 64)), .alu .and .d .rdx (.imm (mask.setWidth 64)),
   .alu .or .d .rax (.reg .rdx), .alu .or .d .rax (.imm 2#64), .stEfl .rax,
   .mov .d .r9 (.reg .rbx), .leaS .rax .rbx 2, .not .d .rax, .alu .and .d .rax (.imm 0x100#64), .stRes (.reg .rax),
   .mov .d .rdx (.reg .rbx), .sh .shl .d .rdx 11, .mov .d .rax (.reg .rbx), .alu .xor .d .rdx (.reg .rbx), .sh .shl .d .rax 12,
   .alu .and .d .rdx (.imm 0x800#64), .sh .shr .d .rbx 6, .alu .or .d .rdx (.reg .rax), .alu .and .d .rbx (.imm 2#64), .mov .d .rax (.reg .r9),
   .sh .shl .d .rdx 19, .sh .shl .d .r9 6, .alu .and .d .rax (.imm 0x10#64), .alu .or .d .rbx (.reg .rax), .not .d .r9, .sh .shr .d .rbx 1,
   .alu .and .d .r9 (.imm 0x100#64), .alu .or .d .rdx (.reg .rbx), .alu .or .d .rdx (.reg .r9), .stAux (.reg .rdx)]

/-- jit.cpp 9343-9353, 9396-9415: POPF outside virtual 8086 mode and in it with IOPL 3; `mask` is the emitter's. -/
def popf (s : Ss) (z : Sz) (mask : BitVec 32) : List I :=
  popCode s z true ++ ((if z = .d then [.mov .d .rbx (.reg .r8)] else [.movzx .w .rbx .r8]) ++ popfEnd mask)

/-- jit.cpp 9356-9372: POPF in virtual 8086 mode with the mode extensions, up to `exp`, where #GP is raised; `ok` is one instruction further. -/
def popfVmeCheck (s : Ss) : List I :=
  popCode s .w false ++ [.ldEfl .rax, .movzx .w .rdx .r8, .mov .d .r9 (.reg .rax), .alu .or .d .rax (.reg .rdx),
    .alu .and .d .rax (.imm 0x100200#64), .cmp .d .rax (.imm 0x100200#64), .jeq 3, .testI .d .rdx 0x100#64, .jne 1, .jmp 1]
/-- jit.cpp 9373-9387: from `ok` on; the mask is TF, DF and NT. -/
def popfVmeEnd (s : Ss) : List I :=
  [.stG (spSz s.ss32) esp .rbx, .mov .d .rbx (.reg .rdx), .alu .and .d .r9 (.imm 0xFFF7FFFF#64), .alu .and .d .rdx (.imm 0x200#64),
   .sh .shl .d .rdx 10, .alu .or .d .rdx (.reg .r9), .stEfl .rdx] ++ popfEnd 0x4500#32

/-- The two parts one after the other. -/
def popfVme (e : Env) (s : Ss) (h : St) : Out :=
  match run e 0 (popfVmeCheck s) h with
  | .next 0 h' => .fault h'.g
  | .next 1 h' => run e 0 (popfVmeEnd s) h'
  | .next (_ + 2) _ => .stuck
  | .fault g => .fault g
  | .stuck => .stuck

/-- jit.cpp 5815-5886 (DIV) and 6676-6746 (IDIV): where it falls off the end #DE is raised, one instruction further is `ok`.  `eip` is of no
consequence; the address of the helper in RAX is left out. -/
def div (signed : Bool) (z : Sz) (eip : BitVec 64) (rm : Rm) : List I :=
  (match rm with
   | .reg r => [.ldG z .rdx r]
   | .mem a => [.ea a, .ldMem z, .mov z .rdx (.reg .rax)]) ++
  [.mov .d .r8 (.imm eip), .callDiv signed z, .reload, .test .d .rax .rax, .jeq 1]

/-- jit.cpp 4220-4244: AAA. -/
def aaa : List I :=
  [.ldG .w .rax acc, .mov .w .rdx (.reg .rax), .alu .and .w .rdx (.imm 0xF#64), .cmp .b .rdx (.imm 9#64), .ja 4, .ldAux .rbx,
   .alu .and .d .rbx (.imm 8#64), .cmp .d .rbx (.imm 0#64), .jeq 6,
   .alu .add .w .rax (.imm 0x106#64), .mov .w .rdx (.reg .rax), .alu .and .b .rdx (.imm 0xF#64), .stG .w acc .rax, .stAux (.imm 0x80000008#64), .jmp 1,
   .stAux (.imm 0#64),
   .stG .b acc .rdx]

/-- jit.cpp 4282-4315: AAS; DEC is written as SUB of one, which differs in CF only. -/
def aas : List I :=
  [.ldG .w .rbx acc, .mov .w .rax (.reg .rbx), .alu .and .w .rax (.imm 0xF#64), .cmp .b .rax (.imm 9#64), .ja 4, .ldAux .rdx,
   .alu .and .d .rdx (.imm 8#64), .cmp .d .rdx (.imm 0#64), .jeq 14,
   .mov .d .rax (.imm 0xFFFA#64), .mov .d .rdx (.imm 0xFF#64), .alu .add .w .rbx (.reg .rax), .movzx .w .rax .rbx, .alu .and .w .rbx (.reg .rdx),
   .sh .shr .w .rax 8, .alu .sub .b .rax (.imm 1#64), .movzx .b .rax .rax, .sh .shl .w .rax 8, .alu .or .w .rax (.reg .rbx), .stG .w acc .rax,
   .alu .and .b .rax (.imm 0xF#64), .stAux (.imm 0x80000008#64), .jmp 1,
   .stAux (.imm 0#64),
   .stG .b acc .rax]

/-- jit.cpp 4246-4260: AAD. -/
def aad (v : BitVec 8) : List I :=
  [.ldG .b .rbx acc, .ldG .b .rdx ah, .mov .d .rax (.imm (v.setWidth 64)), .movzx .b .rdx .rdx, .imul .d .rdx (.reg .rdx) (.reg .rax),
   .alu .add .b .rdx (.reg .rbx), .stG .b acc .rdx, .stGi .b ah 0#64, .movsx .b .rdx .rdx, .stRes (.reg .rdx), .stAux (.imm 0#64)]

/-- jit.cpp 4262-4280: AAM with an immediate that is not zero; with zero #DE is raised. -/
def aam (v : BitVec 8) : List I :=
  [.ldGx false .d .b .rax acc, .alu .xor .d .rdx (.reg .rdx), .mov .d .rbx (.imm (v.setWidth 64)), .div .rbx, .stG .b acc .rdx, .stG .b ah .rax,
   .movsx .b .rdx .rdx, .stRes (.reg .rdx), .stAux (.imm 0#64)]

/-- jit.cpp 5638-5669 and 5701-5732: the first adjustment of DAA and DAS. -/
def daFirst (sum : Bool) : List I :=
  [.ldG .b .r10 acc, .ldAux .r11, .alu .and .d .r11 (.imm 0x80000000#64), .mov .b .r8 (.reg .r10), .alu .and .b .r8 (.imm 0xF#64),
   .cmp .b .r8 (.imm 9#64), .ja 4, .ldAux .rdx, .alu .and .d .rdx (.imm 8#64), .cmp .d .rdx (.imm 0#64),
   .jeq (if sum then 22 else 23)] ++
  ([.mov .q .rdx (.reg .rcx), .mov .b .rcx (.reg .r10), .mov .b .r8 (.reg .r10), .alu (if sum then .add else .sub) .b .r8 (.imm 6#64),
    .stGB .rdx .b acc .r8, .mov .b .rax (.reg .rcx)] ++
   (if sum then sumVecSmall .b (.imm 6#64) 24 else subVecSmall .b (.imm 6#64) 24) ++
   [.reload, .alu .and .d .rax (.imm 0x80000000#64), .alu .or .d .rax (.reg .r11), .alu .or .d .rax (.imm 8#64), .stAux (.reg .rax), .jmp 1]) ++
  [.stAux (.imm 0#64)]

/-- jit.cpp 5671-5692 and 5734-5747: the second adjustment, and the result word. -/
def daSecond (sum : Bool) : List I :=
  [.cmp .b .r10 (.imm 0x99#64), .ja 2, .cmp .d .r11 (.imm 0#64), .jeq (if sum then 7 else 6)] ++
  [.ldG .b .r10 acc, .alu (if sum then .add else .sub) .b .r10 (.imm 0x60#64), .stG .b acc .r10, .ldAux .rdx,
   .alu .or .d .rdx (.imm 0x80000000#64), .stAux (.reg .rdx)] ++
  (if sum then [.jmp 3, .ldAux .rdx, .alu .and .d .rdx (.imm 0x7FFFFFFF#64), .stAux (.reg .rdx)] else []) ++
  [.ldGx true .d .b .r10 acc, .stRes (.reg .r10)]

/-- jit.cpp 5631-5692: DAA, 5694-5747: DAS. -/
def daaDas (sum : Bool) : List I := daFirst sum ++ daSecond sum

end Verif.Emit
