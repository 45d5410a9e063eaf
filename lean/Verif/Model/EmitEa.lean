import Verif.Model.Emit
import Verif.Model.EffAddr
/-
The code emitted for memory operands: core/emitter/x64/jit.cpp 1058-1175 (get_operand), and the machine that runs it wherever the lists
of Model/Emit*.lean have `.ea`.
-/
namespace Verif.Emit
open Host

/-- A memory operand as the decoder describes it: direct (moffs) or by ModRM. -/
inductive Mode where
  | moffs (d : BitVec 64)
  | modrm (o : EffAddr.Operand)

/-- What get_operand sees: the address size, the operand, its segment register, the bit of hflags that says that the segment's base is zero,
and the template argument add_seg_base (false for LEA). -/
structure MemOp where
  a32 : Bool
  mode : Mode
  seg : Fin 6
  flat : Bool
  addBase : Bool

/-- A 32 bit (or the low 16 bits of a) guest register by its number. -/
def whole (i : Fin 8) : GReg := ⟨i, false⟩

/-- jit.cpp 1084-1089: LD_R32 or XOR. -/
def base32Code : Option (Fin 8) → List I
  | some b => [.ldG .d .r10 (whole b)]
  | none => [.alu .xor .d .r10 (.reg .r10)]

/-- jit.cpp 1091-1095. -/
def index32Code : Option (Fin 8 × Nat) → List I
  | some (i, n) => [.ldG .d .r11 (whole i), .lea .r10 .r10 (some (.r11, n)) 0#32]
  | none => []

/-- jit.cpp 1097-1123. -/
def disp32Code (m : MemOp) (mod1 : Bool) : Option (BitVec 64) → List I
  | some d =>
    if !m.addBase || m.flat then [.lea .rdx .r10 none (EffAddr.disp32 mod1 d)]
    else [.ldSeg .rdx m.seg, .lea .rdx .rdx (some (.r10, 0)) (EffAddr.disp32 mod1 d)]
  | none => [.mov .d .rdx (.reg .r10)] ++ if m.addBase && !m.flat then [.addSeg .rdx m.seg] else []

/-- jit.cpp 1125-1130: MOVZX or XOR. -/
def base16Code : Option (Fin 8) → List I
  | some b => [.ldGx false .d .w .r10 (whole b)]
  | none => [.alu .xor .d .r10 (.reg .r10)]

/-- jit.cpp 1132-1137: LD_R16, SHL, ADD. -/
def index16Code : Option (Fin 8 × Nat) → List I
  | some (i, n) => [.ldG .w .r11 (whole i), .shop (.sh .shl) .w .r11 .r11 (some n), .alu .add .w .r10 (.reg .r11)]
  | none => []

/-- jit.cpp 1139-1170. -/
def disp16Code (m : MemOp) (mod1 : Bool) : Option (BitVec 64) → List I
  | some d =>
    if !m.addBase || m.flat then [.alu .add .w .r10 (.imm ((EffAddr.disp16 mod1 d).setWidth 64)), .movzx .w .rdx .r10]
    else [.ldSeg .rdx m.seg, .alu .add .w .r10 (.imm ((EffAddr.disp16 mod1 d).setWidth 64)), .alu .add .d .rdx (.reg .r10)]
  | none =>
    if !m.addBase || m.flat then [.movzx .w .rdx .r10]
    else [.ldSeg .rdx m.seg, .alu .add .d .rdx (.reg .r10)]

/-- jit.cpp 1064-1171. -/
def eaCode (m : MemOp) : List I :=
  match m.mode with
  | .moffs d =>
    [.mov .d .rdx (.imm (if m.a32 then d else d &&& 0xFFFF#64))] ++ if m.addBase && !m.flat then [.addSeg .rdx m.seg] else []
  | .modrm o =>
    if m.a32 then base32Code o.base ++ (index32Code o.index ++ disp32Code m o.mod1 o.disp)
    else base16Code o.base ++ (index16Code o.index ++ disp16Code m o.mod1 o.disp)

/-- One instruction, or the code of the operand's address. -/
def stepWith (e : Env) (m : MemOp) (h : St) : I → Out
  | .ea _ => match run e 0 (eaCode m) h with
    | .next _ h' => .next 0 h'
    | o => o
  | i => step e h i

/-- `run` with the code of the operand's address in the place of `.ea`. -/
def runWith (e : Env) (m : MemOp) : Nat → List I → St → Out
  | k, [], h => .next k h
  | k + 1, _ :: l, h => runWith e m k l h
  | 0, i :: l, h => match stepWith e m h i with
    | .next k h' => runWith e m k l h'
    | .fault g => .fault g
    | .stuck => .stuck

end Verif.Emit
