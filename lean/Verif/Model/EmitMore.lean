import Verif.Model.Emit
/-
The code emitted for multiplications, conversions, bit scans, conditional sets and moves, flag instructions, XLAT and BOUND
(core/emitter/x64/jit.cpp, the functions cited below), on the machine of Model/Host.lean.
-/
namespace Verif.Emit
open Host

/-- EDX. -/
def edx : GReg := ⟨2, false⟩

/-- get_rm for a source operand: its value to AL, AX or EAX (jit.cpp 1258-1274). -/
def ldRm (z : Sz) : Rm → List I
  | .reg r => [.ldG z .rax r]
  | .mem a => [.ea a, .ldMem z]

/-- jit.cpp 6880-6888 (IMUL), 8777-8785 (MUL_): CF and OF of the host to the guest's flags. -/
def mulFlags : List I :=
  [.setcc .c .rbx, .setcc .o .rdx, .movzx .b .rbx .rbx, .movzx .b .rdx .rdx, .alu .xor .d .rdx (.reg .rbx),
   .alu .add .d .rbx (.reg .rbx), .alu .or .d .rbx (.reg .rdx), .sh .shl .d .rbx 30, .stAux (.reg .rbx)]

/-- jit.cpp 8709-8786: MUL_ (F6 /4, F7 /4). -/
def mul (z : Sz) (rm : Rm) : List I :=
  (match rm with
   | .reg r => [.ldG z .rbx r, .ldG z .rax acc]
   | .mem a => [.ea a, .ldMem z, .ldG z .rbx acc]) ++
  [.mul1 false z .rbx] ++
  (if z = .b then [.stG .w acc .rax] else [.stG z acc .rax, .stG z edx .rdx]) ++ mulFlags

/-- jit.cpp 6751-6822 and 6880-6888: IMUL with one operand (F6 /5, F7 /5). -/
def imul1 (z : Sz) (rm : Rm) : List I :=
  (match rm with
   | .reg r => [.ldG z .rbx r, .ldG z .rax acc]
   | .mem a => [.ea a, .ldMem z, .ldG z .rbx acc, .xchg z .rax .rbx]) ++
  [.mul1 true z .rbx] ++
  (if z = .b then [.stG .w acc .rax] else [.stG z acc .rax, .stG z edx .rdx]) ++ mulFlags

/-- jit.cpp 6824-6845 and 6880-6888: IMUL with two operands (0F AF). -/
def imul2 (z : Sz) (dst : GReg) (rm : Rm) : List I :=
  ldRm z rm ++ [.ldG z .rbx dst, .imul z .rbx (.reg .rbx) (.reg .rax), .stG z dst .rbx] ++ mulFlags

/-- jit.cpp 6847-6888: IMUL with an immediate (69, 6B); `v` is the immediate, extended by the emitter. -/
def imul3 (z : Sz) (dst : GReg) (rm : Rm) (v : BitVec 64) : List I :=
  ldRm z rm ++ [.imul z .rbx (.reg .rax) (.imm v), .stG z dst .rbx] ++ mulFlags

/-- jit.cpp 4960-4964: CBW. -/
def cbw : List I := [.ldGx true .d .b .rdx acc, .stG .w acc .rdx]
/-- jit.cpp 5625-5629: CWDE. -/
def cwde : List I := [.ldGx true .d .w .rdx acc, .stG .d acc .rdx]
/-- jit.cpp 5617-5622: CWD. -/
def cwd : List I := [.ldGx true .d .w .rdx acc, .sh .shr .d .rdx 16, .stG .w edx .rdx]
/-- jit.cpp 4967-4972: CDQ. -/
def cdq : List I := [.ldGx true .q .d .rdx acc, .sh .shr .q .rdx 32, .stG .d edx .rdx]

/-- jit.cpp 8637-8667 (MOVSX_), 8676-8706 (MOVZX_): `zs` is the size of the source. -/
def movx (signed : Bool) (zd zs : Sz) (dst : GReg) (rm : Rm) : List I :=
  ldRm zs rm ++ [.movx signed zd zs .rbx .rax, .stG zd dst .rbx]

/-- jit.cpp 4782-4788: BSWAP_. -/
def bswap (r : GReg) : List I := [.ldG .d .rax r, .bswap .rax, .stG .d r .rax]

/-- jit.cpp 4726-4779: BSF_, BSR_. -/
def bscan (reverse : Bool) (z : Sz) (dst : GReg) (rm : Rm) : List I :=
  ldRm z rm ++ [.bs reverse z .r8 .rax, .setcc .ne .rbx, .stG z dst .r8, .movzx .b .rbx .rbx, .stRes (.reg .rbx)]

/-- jit.cpp 1830-1839: ld_pf. -/
def ldPf (d res aux : Reg) : List I :=
  [.mov .d d (.reg res), .mov .d .r8 (.reg aux), .sh .shr .q .r8 8, .leaPar res, .alu .xor .q .r8 (.reg d),
   .movzx .b d .r8, .ldPar d res]

/-- jit.cpp 5062-5240 (CMOVcc) and 10122-10302 (SETcc): the condition to R8B. -/
def condCode : Flags.CC → List I
  | .b => [.ldAux .rax, .alu .and .d .rax (.imm 0x80000000#64), .cmp .d .rax (.imm 0x80000000#64), .setcc .e .r8]
  | .be => [.ldAux .rax, .alu .and .d .rax (.imm 0x80000000#64), .cmp .d .rax (.imm 0x80000000#64), .setcc .e .rdx,
      .ldRes .rax, .cmp .d .rax (.imm 0#64), .setcc .e .r8, .alu .or .b .rdx (.reg .r8), .cmp .b .rdx (.imm 1#64), .setcc .e .r8]
  | .l => [.ldAux .rdx] ++ ldOf .rax .rdx ++ [.ldRes .rbx] ++ ldSf .rbx .rdx ++
      [.sh .shr .d .rax 31, .alu .xor .d .rax (.reg .rbx), .cmp .d .rax (.imm 1#64), .setcc .e .r8]
  | .le => [.ldRes .rax, .cmp .d .rax (.imm 0#64), .setcc .e .r8, .ldAux .rdx] ++ ldOf .rbx .rdx ++ ldSf .rax .rdx ++
      [.sh .shr .d .rbx 31, .alu .xor .d .rax (.reg .rbx), .cmp .d .rax (.imm 1#64), .setcc .e .r9, .alu .or .b .r8 (.reg .r9),
       .cmp .b .r8 (.imm 1#64), .setcc .e .r8]
  | .nb => [.ldAux .rax, .alu .and .d .rax (.imm 0x80000000#64), .cmp .d .rax (.imm 0#64), .setcc .e .r8]
  | .nbe => [.ldAux .rax, .alu .and .d .rax (.imm 0x80000000#64), .cmp .d .rax (.imm 0#64), .setcc .e .rdx,
      .ldRes .rax, .cmp .d .rax (.imm 0#64), .setcc .ne .r8, .alu .and .b .rdx (.reg .r8), .cmp .b .rdx (.imm 1#64), .setcc .e .r8]
  | .nl => [.ldAux .rdx] ++ ldOf .rax .rdx ++ [.ldRes .rbx] ++ ldSf .rbx .rdx ++
      [.sh .shr .d .rax 31, .alu .xor .d .rax (.reg .rbx), .cmp .d .rax (.imm 0#64), .setcc .e .r8]
  | .nle => [.ldRes .rax, .cmp .d .rax (.imm 0#64), .setcc .ne .r8, .ldAux .rdx] ++ ldOf .rbx .rdx ++ ldSf .rax .rdx ++
      [.sh .shr .d .rbx 31, .alu .xor .d .rax (.reg .rbx), .cmp .d .rax (.imm 0#64), .setcc .e .r9, .alu .and .b .r8 (.reg .r9),
       .cmp .b .r8 (.imm 1#64), .setcc .e .r8]
  | .no => [.ldAux .rdx] ++ ldOf .rax .rdx ++ [.cmp .d .rax (.imm 0#64), .setcc .e .r8]
  | .np => [.ldRes .rdx, .ldAux .rbx] ++ ldPf .rax .rdx .rbx ++ [.cmp .d .rax (.imm 1#64), .setcc .e .r8]
  | .ns => [.ldRes .rax, .ldAux .rdx] ++ ldSf .rax .rdx ++ [.cmp .d .rax (.imm 0#64), .setcc .e .r8]
  | .nz => [.ldRes .rax, .cmp .d .rax (.imm 0#64), .setcc .ne .r8]
  | .o => [.ldAux .rdx] ++ ldOf .rax .rdx ++ [.cmp .d .rax (.imm 0x80000000#64), .setcc .e .r8]
  | .p => [.ldRes .rdx, .ldAux .rbx] ++ ldPf .rax .rdx .rbx ++ [.cmp .d .rax (.imm 0#64), .setcc .e .r8]
  | .s => [.ldRes .rax, .ldAux .rdx] ++ ldSf .rax .rdx ++ [.cmp .d .rax (.imm 1#64), .setcc .e .r8]
  | .z => [.ldRes .rax, .cmp .d .rax (.imm 0#64), .setcc .e .r8]

/-- jit.cpp 10309-10320: SETCC. -/
def setcc (c : Flags.CC) (rm : Rm) : List I :=
  condCode c ++ (match rm with
   | .reg r => [.stG .b r .r8]
   | .mem a => [.ea a, .stMem .b])

/-- jit.cpp 5243-5267: CMOVCC. -/
def cmovcc (c : Flags.CC) (z : Sz) (dst : GReg) (rm : Rm) : List I :=
  condCode c ++ [.movzx .b .rbx .r8] ++ ldRm z rm ++
  [.test .d .rbx .rbx, .ldG z .rdx dst, .cmov .ne z .rdx .rax, .stG z dst .rdx]

/-- jit.cpp 4975-4985: CLC_. -/
def clc : List I := [.ldAux .rax] ++ ldOf .rdx .rax ++ [.alu .and .d .rax (.imm 0x3FFFFFFF#64), .sh .shr .d .rdx 1,
  .alu .or .d .rax (.reg .rdx), .stAux (.reg .rax)]
/-- jit.cpp 10398-10409: STC_. -/
def stc : List I := [.ldAux .rdx] ++ ldOf .rax .rdx ++ [.alu .and .d .rdx (.imm 0x3FFFFFFF#64), .sh .shr .d .rax 1,
  .alu .xor .d .rax (.imm 0xC0000000#64), .alu .or .d .rax (.reg .rdx), .stAux (.reg .rax)]
/-- jit.cpp 5045-5060: CMC. -/
def cmc : List I := [.ldAux .rax, .mov .d .rdx (.reg .rax), .not .d .rdx, .alu .and .d .rdx (.imm 0x80000000#64)] ++ ldOf .rbx .rax ++
  [.alu .and .d .rax (.imm 0x3FFFFFFF#64), .alu .xor .d .rbx (.reg .rdx), .sh .shr .d .rbx 1, .alu .or .d .rdx (.reg .rbx),
   .alu .or .d .rax (.reg .rdx), .stAux (.reg .rax)]
/-- jit.cpp 4987-4995 (CLD), 10411-10419 (STD). -/
def cld : List I := [.ldEfl .rdx, .alu .and .d .rdx (.imm 0xFFFFFBFF#64), .stEfl .rdx]
def std : List I := [.ldEfl .rdx, .alu .or .d .rdx (.imm 0x400#64), .stEfl .rdx]

/-- jit.cpp 10917-10926: the address of XLAT; `base` is the base of the segment, none if it is known to be zero. -/
def xlatEa (addr16 : Bool) (base : Option (BitVec 32)) : List I :=
  (if addr16 then [.ldGx false .d .w .rdx ⟨3, false⟩] else [.ldG .d .rdx ⟨3, false⟩]) ++
  [.ldGx false .d .b .rbx acc, .alu .add .d .rdx (.reg .rbx)] ++
  (match base with | some b => [.alu .add .d .rdx (.imm (b.setWidth 64))] | none => [])

/-- jit.cpp 10914-10929: XLAT. -/
def xlat (addr16 : Bool) (base : Option (BitVec 32)) : List I := xlatEa addr16 base ++ [.ldMem .b, .stG .b acc .rax]

/-- jit.cpp 4697-4720: BOUND, up to the branch: falls through to the exception, or skips it (here: one instruction). -/
def bound (z : Sz) (dst : GReg) (a : Ea) : List I :=
  [.ldG z .rbx dst, .ea a, .stL .d 0 .rdx, .ldMem z, .ldL .d .rdx 0, .stL z 0 .rax,
   .alu .add .d .rdx (.imm (BitVec.ofNat 64 z.bytes)), .ldMem z, .ldL z .rdx 0, .cmp z .rbx (.reg .rdx), .setcc .l .r8,
   .mov .b .rdx (.reg .r8), .cmp z .rbx (.reg .rax), .setcc .g .r8, .alu .or .b .rdx (.reg .r8), .cmp .b .rdx (.imm 0#64), .jeq 1]

end Verif.Emit
