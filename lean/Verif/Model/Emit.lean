import Verif.Model.Host
/-
The code emitted for the two-operand integer instructions, for INC, DEC, NEG and NOT and for the
exchanging instructions, register by register (core/emitter/x64/jit.cpp 1276-1580 operand templates, 1582-1842 flag sequences, and the
instruction functions cited below).
-/
namespace Verif.Emit
open Host

/-- jit.cpp 1582-1608: gen_sum_vec16_8; `n` is 16 or 24. -/
def sumVecSmall (z : Sz) (b : Src) (n : Nat) : List I :=
  [.alu .and z .rcx b, .alu .or z .rax b, .not z .r8, .alu .and z .rax (.reg .r8),
   .alu .or z .rcx (.reg .rax), .movzx z .rax .rcx, .mov .d .r9 (.reg .rax), .sh .shl .d .rax n,
   .alu .or .d .rax (.reg .r9), .alu .and .d .rax (.imm 0xC0000008#64)]

/-- jit.cpp 1610-1625: gen_sum_vec32. -/
def sumVec32 (b : Src) : List I :=
  [.not .d .r8, .alu .or .d .rax b, .alu .and .d .rcx b, .alu .and .d .rax (.reg .r8),
   .alu .or .d .rax (.reg .rcx), .alu .and .d .rax (.imm 0xC0000008#64)]

/-- jit.cpp 1627-1664: gen_sub_vec16_8. -/
def subVecSmall (z : Sz) (b : Src) (n : Nat) : List I :=
  [.not z .rcx, .alu .and z .rcx b, .alu .xor z .rax b, .not z .rax, .alu .and z .rax (.reg .r8),
   .alu .or z .rcx (.reg .rax), .movzx z .rax .rcx, .mov .d .r9 (.reg .rax), .sh .shl .d .rax n,
   .alu .or .d .rax (.reg .r9), .alu .and .d .rax (.imm 0xC0000008#64)]

/-- jit.cpp 1666-1683: gen_sub_vec32. -/
def subVec32 (b : Src) : List I :=
  [.not .d .rcx, .alu .xor .d .rax b, .alu .and .d .rcx b, .not .d .rax, .alu .and .d .rax (.reg .r8),
   .alu .or .d .rax (.reg .rcx), .alu .and .d .rax (.imm 0xC0000008#64)]

/-- jit.cpp 1698-1732: the first part of set_flags_sum and set_flags_sub: store the result word, copy
the first operand to CL/CX/ECX and AL/AX/EAX.  The sum or difference is in R8. -/
def flagsPre (z : Sz) (a : Src) (isEax : Bool) : List I :=
  (if z = .d then [] else [.movsx z .r8 .r8]) ++
  [.stRes (.reg .r8), .mov z .rcx a] ++
  (if isEax then [] else [.mov z .rax (.reg .rcx)])

/-- jit.cpp 1685-1737: set_flags_sum. -/
def setFlagsSum (z : Sz) (a : Src) (isEax : Bool) (b : Src) : List I :=
  flagsPre z a isEax ++
  (match z with
   | .b => sumVecSmall .b b 24
   | .w => sumVecSmall .w b 16
   | _ => sumVec32 b) ++
  [.reload, .stAux (.reg .rax)]

/-- jit.cpp 1739-1793: set_flags_sub. -/
def setFlagsSub (z : Sz) (a : Src) (isEax : Bool) (b : Src) : List I :=
  flagsPre z a isEax ++
  (match z with
   | .b => subVecSmall .b b 24
   | .w => subVecSmall .w b 16
   | _ => subVec32 b) ++
  [.reload, .stAux (.reg .rax)]

/-- Either of the two. -/
def setFlagsArith (sum : Bool) : Sz → Src → Bool → Src → List I :=
  if sum then setFlagsSum else setFlagsSub

/-- jit.cpp 1795-1812: set_flags with a register result; `aux` is the auxiliary word. -/
def setFlags (z : Sz) (res : Reg) (aux : Src) : List I :=
  (if z = .d then [.stRes (.reg res)] else [.movsx z .rax res, .stRes (.reg .rax)]) ++ [.stAux aux]

/-- jit.cpp 1276-1321: r_to_rm with a register destination. -/
def rToRmReg (op : Reg → Src → List I) (z : Sz) (wd : Bool) (dst src : GReg) : List I :=
  [.ldG z .rdx src, .ldG z .rax dst] ++ op .rax (.reg .rdx) ++
  (if wd then [.stG z dst .rax] else []) ++ setFlags z .rax (.imm 0#64)

/-- jit.cpp 1276-1321: r_to_rm with a memory destination. -/
def rToRmMem (op : Reg → Src → List I) (z : Sz) (wd : Bool) (a : Ea) (src : GReg) : List I :=
  [.ea a] ++
  if wd then
    [.mov .d .rbx (.reg .rdx), .ldMem z, .ldG z .rdx src] ++ op .rax (.reg .rdx) ++
    [.mov .d .rdx (.reg .rbx), .mov z .r8 (.reg .rax), .mov z .rbx (.reg .rax), .stMem z] ++
    setFlags z .rbx (.imm 0#64)
  else
    [.ldMem z, .ldG z .rdx src] ++ op .rax (.reg .rdx) ++ setFlags z .rax (.imm 0#64)

/-- jit.cpp 1323-1376: r_to_rm_flags with a register destination. -/
def rToRmFlagsReg (op : Reg → Src → List I) (sum : Bool) (z : Sz) (wd : Bool) (dst src : GReg) : List I :=
  [.ldG z .rax dst, .ldG z .rbx src, .mov z .r8 (.reg .rax)] ++ op .r8 (.reg .rbx) ++
  (if wd then [.stG z dst .r8] else []) ++ setFlagsArith sum z (.reg .rax) true (.reg .rbx)

/-- jit.cpp 1323-1376: r_to_rm_flags with a memory destination. -/
def rToRmFlagsMem (op : Reg → Src → List I) (sum : Bool) (z : Sz) (wd : Bool) (a : Ea) (src : GReg) :
    List I :=
  [.ea a] ++
  (if wd then
    [.mov .d .rbx (.reg .rdx), .ldMem z, .mov .d .rdx (.reg .rbx), .ldG z .rbx src,
     .mov z .r8 (.reg .rax)] ++ op .r8 (.reg .rbx) ++
    [.stL z 0 .rax, .stL z 1 .r8, .stMem z, .ldL z .rax 0, .ldL z .r8 1]
  else
    [.ldMem z, .ldG z .rbx src, .mov z .r8 (.reg .rax)] ++ op .r8 (.reg .rbx)) ++
  setFlagsArith sum z (.reg .rax) true (.reg .rbx)

/-- jit.cpp 1378-1404: rm_to_r with a register source. -/
def rmToRReg (op : Reg → Src → List I) (z : Sz) (wd : Bool) (dst src : GReg) : List I :=
  [.ldG z .rbx dst, .ldG z .rax src] ++ op .rbx (.reg .rax) ++
  (if wd then [.stG z dst .rbx] else []) ++ setFlags z .rbx (.imm 0#64)

/-- jit.cpp 1378-1404: rm_to_r with a memory source. -/
def rmToRMem (op : Reg → Src → List I) (z : Sz) (wd : Bool) (dst : GReg) (a : Ea) : List I :=
  [.ldG z .rbx dst, .ea a, .ldMem z] ++ op .rbx (.reg .rax) ++
  (if wd then [.stG z dst .rbx] else []) ++ setFlags z .rbx (.imm 0#64)

/-- jit.cpp 1406-1451: rm_to_r_flags with a register source. -/
def rmToRFlagsReg (op : Reg → Src → List I) (sum : Bool) (z : Sz) (wd : Bool) (dst src : GReg) : List I :=
  [.ldG z .rax dst, .ldG z .rbx src, .mov z .r8 (.reg .rax)] ++ op .r8 (.reg .rbx) ++
  (if wd then [.stG z dst .r8] else []) ++ setFlagsArith sum z (.reg .rax) true (.reg .rbx)

/-- jit.cpp 1406-1451: rm_to_r_flags with a memory source. -/
def rmToRFlagsMem (op : Reg → Src → List I) (sum : Bool) (z : Sz) (wd : Bool) (dst : GReg) (a : Ea) :
    List I :=
  [.ea a, .ldMem z, .mov z .rdx (.reg .rax), .ldG z .rbx dst, .mov z .r8 (.reg .rbx)] ++
  op .r8 (.reg .rdx) ++ (if wd then [.stG z dst .r8] else []) ++
  setFlagsArith sum z (.reg .rbx) false (.reg .rdx)

/-- jit.cpp 1453-1464 (imm_to_eax) and 1490-1503 (imm_to_rm with a register). -/
def immToReg (op : Reg → Src → List I) (z : Sz) (wd : Bool) (dst : GReg) (v : BitVec 64) : List I :=
  [.ldG z .rax dst] ++ op .rax (.imm v) ++
  (if wd then [.stG z dst .rax] else []) ++ setFlags z .rax (.imm 0#64)

/-- jit.cpp 1466-1485 (imm_to_eax_flags) and 1533-1552 (imm_to_rm_flags with a register). -/
def immToRegFlags (op : Reg → Src → List I) (sum : Bool) (z : Sz) (wd : Bool) (dst : GReg) (v : BitVec 64) :
    List I :=
  [.ldG z .rax dst, .mov z .r8 (.reg .rax)] ++ op .r8 (.imm v) ++
  (if wd then [.stG z dst .r8] else []) ++ setFlagsArith sum z (.reg .rax) true (.imm v)

/-- jit.cpp 1504-1526: imm_to_rm with a memory destination. -/
def immToMem (op : Reg → Src → List I) (z : Sz) (wd : Bool) (a : Ea) (v : BitVec 64) : List I :=
  [.ea a] ++
  if wd then
    [.mov .d .rbx (.reg .rdx), .ldMem z] ++ op .rax (.imm v) ++
    [.mov .d .rdx (.reg .rbx), .mov z .r8 (.reg .rax), .mov z .rbx (.reg .rax), .stMem z] ++
    setFlags z .rbx (.imm 0#64)
  else
    [.ldMem z] ++ op .rax (.imm v) ++ setFlags z .rax (.imm 0#64)

/-- jit.cpp 1553-1580: imm_to_rm_flags with a memory destination. -/
def immToMemFlags (op : Reg → Src → List I) (sum : Bool) (z : Sz) (wd : Bool) (a : Ea) (v : BitVec 64) :
    List I :=
  [.ea a] ++
  (if wd then
    [.mov .d .rbx (.reg .rdx), .ldMem z, .mov .d .rdx (.reg .rbx), .stL z 0 .rax, .mov z .rbx (.reg .rax)] ++
    op .rbx (.imm v) ++
    [.mov z .r8 (.reg .rbx), .stMem z, .ldL z .rax 0, .mov z .r8 (.reg .rbx)]
  else
    [.ldMem z, .mov z .rbx (.reg .rax)] ++ op .rbx (.imm v) ++ [.mov z .r8 (.reg .rbx)]) ++
  setFlagsArith sum z (.reg .rax) true (.imm v)

/-- The nine two-operand instructions. -/
inductive Op where
  | add | adc | sub | sbb | cmp | and | or | xor | test
deriving DecidableEq, Repr

/-- jit.cpp 4317-4614 (ADC, ADD_, AND_), 5269-5351 (CMP_), 8895-8980 (OR_), 9923-10030 (SBB),
10560-10645 (SUB_), 10659-10707 (TEST_), 10931-11012 (XOR_): the operation given to the templates,
`d` being the host register to change and `s` the source. -/
def Op.code (z : Sz) : Op → Reg → Src → List I
  | .add, d, s => [.alu .add z d s]
  | .adc, d, s => [.ldAux .r9, .alu .and .d .r9 (.imm 0x80000000#64), .sh .shr .d .r9 31, .alu .add z d s,
                   .alu .add z d (.reg .r9)]
  | .sub, d, s => [.alu .sub z d s]
  | .cmp, d, s => [.alu .sub z d s]
  | .sbb, d, s => [.ldAux .r9, .alu .and .d .r9 (.imm 0x80000000#64), .sh .shr .d .r9 31, .alu .add z .r9 s,
                   .alu .sub z d (.reg .r9)]
  | .and, d, s => [.alu .and z d s]
  | .test, d, s => [.alu .and z d s]
  | .or, d, s => [.alu .or z d s]
  | .xor, d, s => [.alu .xor z d s]

/-- Which flag sequence the instruction uses: `none` is set_flags (logic), `some true` set_flags_sum,
`some false` set_flags_sub. -/
def Op.kind : Op → Option Bool
  | .add => some true | .adc => some true
  | .sub => some false | .sbb => some false | .cmp => some false
  | _ => none

/-- The write_dst argument of the templates. -/
def Op.writes : Op → Bool
  | .cmp => false | .test => false | _ => true

/-- The operand forms: r/m is a register or memory; the other operand a register or an immediate. -/
inductive Form where
  | rmR (src : GReg)
  | rRm (dst : GReg)
  | rmImm (v : BitVec 64)

/-- The r/m operand. -/
inductive Rm where
  | reg (r : GReg)
  | mem (a : Ea)

/-- The code emitted for an instruction of operand size `z`. -/
def emit (o : Op) (z : Sz) (rm : Rm) (f : Form) : List I :=
  match o.kind, rm, f with
  | none, .reg r, .rmR s => rToRmReg (o.code z) z o.writes r s
  | none, .mem a, .rmR s => rToRmMem (o.code z) z o.writes a s
  | none, .reg r, .rRm d => rmToRReg (o.code z) z o.writes d r
  | none, .mem a, .rRm d => rmToRMem (o.code z) z o.writes d a
  | none, .reg r, .rmImm v => immToReg (o.code z) z o.writes r v
  | none, .mem a, .rmImm v => immToMem (o.code z) z o.writes a v
  | some k, .reg r, .rmR s => rToRmFlagsReg (o.code z) k z o.writes r s
  | some k, .mem a, .rmR s => rToRmFlagsMem (o.code z) k z o.writes a s
  | some k, .reg r, .rRm d => rmToRFlagsReg (o.code z) k z o.writes d r
  | some k, .mem a, .rRm d => rmToRFlagsMem (o.code z) k z o.writes d a
  | some k, .reg r, .rmImm v => immToRegFlags (o.code z) k z o.writes r v
  | some k, .mem a, .rmImm v => immToMemFlags (o.code z) k z o.writes a v

/-- The accumulator, AL, AX or EAX. -/
def acc : GReg := ⟨0, false⟩

/-- jit.cpp 1814-1820: ld_of. -/
def ldOf (d a : Reg) : List I := [.lea2 d a, .alu .xor .d d (.reg a), .alu .and .d d (.imm 0x80000000#64)]

/-- jit.cpp 1822-1828: ld_sf. -/
def ldSf (res aux : Reg) : List I :=
  [.sh .shr .d res 31, .alu .and .d aux (.imm 1#64), .alu .xor .d res (.reg aux)]

/-- jit.cpp 5790-5803 (DEC_), 6963-6974 (INC_): keep CF, set the other flags.  The operand is in RBX,
the result in R8. -/
def incDecFlags (sum : Bool) (z : Sz) : List I :=
  [.ldAux .r11, .alu .and .d .r11 (.imm 0x80000000#64)] ++
  setFlagsArith sum z (.reg .rbx) false (.imm 1#64) ++
  ([.ldAux .rax] ++ ldOf .rdx .rax ++
   [.alu .xor .d .rdx (.reg .r11), .sh .shr .d .rdx 1, .alu .or .d .rdx (.reg .r11),
    .alu .and .d .rax (.imm 0x3FFFFFFF#64), .alu .or .d .rdx (.reg .rax), .stAux (.reg .rdx)])

/-- jit.cpp 5750-5803 (DEC_, `sum` false), 6927-6975 (INC_). -/
def incDec (sum : Bool) (z : Sz) : Rm → List I
  | .reg r => [.ldG z .rbx r, .mov z .r8 (.reg .rbx), .alu (if sum then .add else .sub) z .r8 (.imm 1#64),
      .stG z r .r8] ++ incDecFlags sum z
  | .mem a => [.ea a, .mov .d .rbx (.reg .rdx), .ldMem z, .mov .d .rdx (.reg .rbx), .mov z .r8 (.reg .rax),
      .mov z .rbx (.reg .rax), .alu (if sum then .add else .sub) z .r8 (.imm 1#64), .stL z 0 .r8, .stMem z,
      .ldL z .r8 0] ++ incDecFlags sum z

/-- jit.cpp 8805-8845: NEG_. -/
def neg (z : Sz) : Rm → List I
  | .reg r => [.ldG z .rbx r, .mov z .r8 (.reg .rbx), .neg z .r8, .stG z r .r8] ++
      setFlagsSub z (.imm 0#64) false (.reg .rbx)
  | .mem a => [.ea a, .mov .d .rbx (.reg .rdx), .ldMem z, .mov .d .rdx (.reg .rbx), .mov z .rbx (.reg .rax),
      .neg z .rax, .mov z .r8 (.reg .rax), .stL z 0 .rax, .stMem z, .ldL z .r8 0] ++
      setFlagsSub z (.imm 0#64) false (.reg .rbx)

/-- jit.cpp 8855-8893: NOT_. -/
def not (z : Sz) : Rm → List I
  | .reg r => [.ldG z .rax r, .not z .rax, .stG z r .rax]
  | .mem a => [.ea a, .mov .d .rbx (.reg .rdx), .ldMem z, .mov .d .rdx (.reg .rbx), .not z .rax,
      .mov z .r8 (.reg .rax), .stMem z]

/-- jit.cpp 10805-10850: XADD. -/
def xadd (z : Sz) (src : GReg) : Rm → List I
  | .reg r => [.ldG z .rbx src, .ldG z .rax r, .stG z src .rax, .mov z .r8 (.reg .rax), .alu .add z .r8 (.reg .rbx),
      .stG z r .r8] ++ setFlagsSum z (.reg .rax) true (.reg .rbx)
  | .mem a => [.ldG z .rbx src, .ea a, .stL .d 0 .rdx, .ldMem z, .mov z .r8 (.reg .rax), .alu .add z .r8 (.reg .rbx),
      .ldL .d .rdx 0, .stL z 0 .rax, .stL z 1 .r8, .stMem z, .ldL z .rax 0, .ldL z .r8 1, .stG z src .rax] ++
      setFlagsSum z (.reg .rax) true (.reg .rbx)

/-- jit.cpp 10852-10888: XCHG_ with a ModR/M operand (86, 87). -/
def xchg (z : Sz) (src : GReg) : Rm → List I
  | .reg r => [.ldG z .rbx src, .ldG z .rax r, .stG z src .rax, .stG z r .rbx]
  | .mem a => [.ldG z .rbx src, .ea a, .stL .d 0 .rdx, .ldMem z, .mov z .r8 (.reg .rbx), .ldL .d .rdx 0,
      .stG z src .rax, .stMem z]

/-- jit.cpp 10890-10908: XCHG_ with the accumulator (90-97). -/
def xchgAcc (z : Sz) (dst : GReg) : List I :=
  [.ldG z .rax dst, .ldG z .rdx acc, .stG z acc .rax, .stG z dst .rdx]

/-- jit.cpp 5462-5523: CMPXCHG. -/
def cmpxchg (z : Sz) (src : GReg) : Rm → List I
  | .reg r => [.ldG z .rbx acc, .ldG z .rax r, .mov z .r8 (.reg .rax), .alu .sub z .r8 (.reg .rbx), .jeq 2,
      .stG z acc .rax, .jmp 2, .ldG z .rdx src, .stG z r .rdx] ++ setFlagsSub z (.reg .rax) true (.reg .rbx)
  | .mem a => [.ldG z .rbx acc, .ea a, .stL .d 0 .rdx, .ldMem z, .ldL .d .rdx 0, .mov z .r10 (.reg .rax),
      .alu .sub z .r10 (.reg .rbx), .stL z 0 .rax, .stL z 1 .r10, .jeq 2, .stG z acc .rax, .jmp 2,
      .ldG z .r8 src, .stMem z, .ldL z .rax 0, .ldL z .r8 1] ++ setFlagsSub z (.reg .rax) true (.reg .rbx)

/-- jit.cpp 5526-5577: CMPXCHG8B, `a` the linear address. -/
def cmpxchg8b (a : Ea) : List I :=
  [.ea a, .stL .d 0 .rdx, .ldMem .q, .ldG .d .rdx ⟨2, false⟩, .ldG .d .rbx ⟨0, false⟩, .sh .shl .q .rdx 32,
   .alu .or .q .rdx (.reg .rbx), .cmp .q .rax (.reg .rdx), .ldL .d .rdx 0, .jeq 10,
   .mov .q .rbx (.reg .rax), .mov .q .r8 (.reg .rax), .stMem .q, .stG .d ⟨0, false⟩ .rbx, .sh .shr .q .rbx 32,
   .stG .d ⟨2, false⟩ .rbx, .ldRes .rdx, .alu .or .d .rdx (.imm 0x100#64), .stRes (.reg .rdx), .jmp 20,
   .ldG .d .r8 ⟨1, false⟩, .ldG .d .rbx ⟨3, false⟩, .sh .shl .q .r8 32, .alu .or .q .r8 (.reg .rbx), .stMem .q,
   .ldRes .r8, .ldAux .r9, .mov .d .rax (.reg .r8), .mov .d .rdx (.reg .r9), .sh .shl .d .rax 8,
   .alu .xor .d .rax (.reg .rdx), .alu .and .d .rdx (.imm 0xFFFF00FE#64), .alu .and .d .rax (.imm 0xFF00#64),
   .alu .or .d .rax (.reg .rdx)] ++ ldSf .r8 .r9 ++
  [.alu .or .d .rax (.reg .r8), .stRes (.imm 0#64), .stAux (.reg .rax)]

end Verif.Emit
