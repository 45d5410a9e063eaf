import Verif.Model.Emit
/-
The code emitted for shifts and rotates (core/emitter/x64/jit.cpp 2833-3007 shift, 3009-3166 double_shift,
3168-3413 rotate), register by register.  The twelve variants (three templates, immediate or CL, register or
memory) share the definitions below; each cites the lines of one variant.
-/
namespace Verif.Emit
open Host

/-- The instruction: template and index, and the source register of SHLD and SHRD. -/
inductive ShKind where
  | sh (o : Flags.ShOp)
  | rot (o : Flags.RotOp)
  | dsh (left : Bool) (src : GReg)

/-- The host's instruction of the same name. -/
def ShKind.host : ShKind → ShF
  | .sh o => .sh o
  | .rot o => .rot o
  | .dsh l _ => .dsh l

/-- Whether CF is an operand, jit.cpp 3212: RCL and RCR. -/
def ShKind.usesCf : ShKind → Bool
  | .rot .rcl => true
  | .rot .rcr => true
  | _ => false

/-- The count: CL, or an immediate (one for D0 and D1). -/
inductive ShCnt where
  | cl
  | imm (v : BitVec 8)

/-- jit.cpp 3213-3222: the guest's CF into the host's.  LD_CF(EDX), TEST, BR_EQ, STC, BR_UNCOND, CLC. -/
def cfIn : List I :=
  [.ldAux .rdx, .alu .and .d .rdx (.imm 0x80000000#64), .test .d .rdx .rdx, .jeq 2, .setc true, .jmp 1, .setc false]

/-- jit.cpp 2889-2896 (`t` is EDX), 2923-2930 (EAX): CF and OF of the host as the auxiliary word, in EBX. -/
def cfOfAux (t : Reg) : List I :=
  [.setcc .c .rbx, .setcc .o t, .movzx .b .rbx .rbx, .movzx .b t t, .alu .xor .d t (.reg .rbx),
   .alu .add .d .rbx (.reg .rbx), .alu .or .d .rbx (.reg t), .sh .shl .d .rbx 0x1E]

/-- jit.cpp 2898 (set_flags), 3249-3252 (rotates change CF and OF only). -/
def shFlags (z : Sz) : ShKind → List I
  | .rot _ => [.ldAux .rax, .alu .and .d .rax (.imm 0x3FFFFFFF#64), .alu .or .d .rax (.reg .rbx), .stAux (.reg .rax)]
  | _ => setFlags z .rax (.reg .rbx)

/-- jit.cpp 2875, 2947, 3043-3044, 3113-3115, 3210-3222, 3312-3323: operands of a register destination. -/
def shPreReg (k : ShKind) (z : Sz) (cl : Bool) (r : GReg) : List I :=
  [.ldG z .rax r] ++
  (match k with
   | .dsh _ src => [.ldG z .rbx src]
   | k => if k.usesCf then cfIn else []) ++
  (if cl then [.mov .b .rcx (.reg .r9)] else [])

/-- jit.cpp 2888-2898, 2959-2971: after the host's instruction. -/
def shPostReg (k : ShKind) (z : Sz) (cl : Bool) (r : GReg) : List I :=
  (if cl then [.reload] else []) ++ cfOfAux .rdx ++ [.stG z r .rax] ++ shFlags z k

/-- jit.cpp 2903-2904, 2977-2979, 3068-3071, 3141-3145, 3259-3272, 3356-3370: operands of a memory destination. -/
def shPreMem (k : ShKind) (z : Sz) (cl : Bool) (a : Ea) : List I :=
  [.ea a, .mov .d .rbx (.reg .rdx)] ++ (if cl then [.stL .b 0 .r9] else []) ++ [.ldMem z] ++
  (match k with
   | .dsh _ src => [.mov .d .rdx (.reg .rbx), .ldG z .rbx src]
   | k => if k.usesCf then cfIn else []) ++
  (if cl then [.ldL .b .rcx 0] else [])

/-- jit.cpp 2917-2920, 3082-3084, 3288-3290: the result to R8 and, except in rotates, to a local variable; the address to
EDX (in double_shift it is there already). -/
def shSave (z : Sz) : ShKind → List I
  | .rot _ => [.mov z .r8 (.reg .rax), .mov .d .rdx (.reg .rbx)]
  | .sh _ => [.stL z 0 .rax, .mov z .r8 (.reg .rax), .mov .d .rdx (.reg .rbx)]
  | .dsh _ _ => [.stL z 0 .rax, .mov z .r8 (.reg .rax)]

/-- jit.cpp 2932, 3094: the result from the local variable. -/
def shBack (z : Sz) : ShKind → List I
  | .rot _ => []
  | _ => [.ldL z .rax 0]

/-- jit.cpp 2917-2933, 2990-3005, 3082-3097, 3155-3162, 3288-3305, 3392-3410: after the host's instruction. -/
def shPostMem (k : ShKind) (z : Sz) (cl : Bool) : List I :=
  shSave z k ++ (if cl then [.reload] else []) ++ cfOfAux .rax ++ [.stMem z] ++ shBack z k ++ shFlags z k

/-- The variants for a count known not to be zero; `c` is the immediate. -/
def shBody (k : ShKind) (z : Sz) (c : Option Nat) : Rm → List I
  | .reg r => shPreReg k z c.isNone r ++ ([.shop k.host z .rax .rbx c] ++ shPostReg k z c.isNone r)
  | .mem a => shPreMem k z c.isNone a ++ ([.shop k.host z .rax .rbx c] ++ shPostMem k z c.isNone)

/-- jit.cpp 2840-3007: the whole instruction.  With an immediate, nothing is emitted for a count of zero (2870);
with CL, the code tests it (2840-2841, 2940-2941). -/
def shiftCode (k : ShKind) (z : Sz) (rm : Rm) : ShCnt → List I
  | .imm v => if Flags.shCount v = 0 then [] else shBody k z (some (Flags.shCount v)) rm
  | .cl => [.ldG .b .r9 ⟨1, false⟩, .alu .and .b .r9 (.imm 0x1F#64), .cmp .b .r9 (.imm 0#64),
      .jeq (shBody k z none rm).length] ++ shBody k z none rm

end Verif.Emit
