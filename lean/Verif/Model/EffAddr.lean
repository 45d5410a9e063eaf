/-
Effective addresses: core/emitter/x64/jit.cpp 1058-1185 (get_operand, memory operands).

Input: the operand as the decoder library (Zydis, third party) describes it. Output: the value the
emitted code leaves in EDX. Host LEA/ADD on 32 (16) bit registers compute modulo 2^32 (2^16).
-/
namespace Verif.EffAddr

/-- A ModRM memory operand: base register (if any), index register and scale exponent (if any),
displacement (if any; `disp.value` of the decoder, a sign extended 64 bit value) and whether the
ModRM mod field is 1 (8 bit displacement). -/
structure Operand where
  base : Option (Fin 8)
  index : Option (Fin 8 × Nat)
  disp : Option (BitVec 64)
  mod1 : Bool

/-- jit.cpp 1084-1089: LD_R32 of the base register or XOR. -/
def base32 (r : Fin 8 → BitVec 32) : Option (Fin 8) → BitVec 32
  | some b => r b
  | none => 0#32

/-- jit.cpp 1091-1095: `LEA R10D, [R10D + R11D << scale]`. -/
def index32 (r : Fin 8 → BitVec 32) (x : BitVec 32) : Option (Fin 8 × Nat) → BitVec 32
  | some (i, sc) => x + (r i <<< sc)
  | none => x

/-- jit.cpp 1099-1103, 1108-1112: the displacement of LEA: sign extended from 8 bits when mod is 1,
else the low 32 bits. -/
def disp32 (mod1 : Bool) (d : BitVec 64) : BitVec 32 :=
  if mod1 then (d.setWidth 8).signExtend 32 else d.setWidth 32

/-- jit.cpp 1083-1123: 32 bit addressing. `addBase` is the template argument add_seg_base, `isZero` the
hflags bit of the segment, `segBase` the cached base of the segment register. -/
def ea32 (addBase isZero : Bool) (segBase : BitVec 32) (r : Fin 8 → BitVec 32) (o : Operand) : BitVec 32 :=
  let x := index32 r (base32 r o.base) o.index
  match o.disp with
  | some d => if addBase == false || isZero then x + disp32 o.mod1 d else segBase + x + disp32 o.mod1 d
  | none => if addBase && !isZero then x + segBase else x

/-- jit.cpp 1125-1130: MOVZX of the 16 bit base register or XOR. -/
def base16 (r : Fin 8 → BitVec 32) : Option (Fin 8) → BitVec 16
  | some b => (r b).setWidth 16
  | none => 0#16

/-- jit.cpp 1132-1137: LD_R16, SHL, ADD on 16 bit registers. -/
def index16 (r : Fin 8 → BitVec 32) (x : BitVec 16) : Option (Fin 8 × Nat) → BitVec 16
  | some (i, sc) => x + ((r i).setWidth 16 <<< sc)
  | none => x

/-- jit.cpp 1141-1146, 1151-1156: the displacement added to R10W. -/
def disp16 (mod1 : Bool) (d : BitVec 64) : BitVec 16 :=
  if mod1 then (d.setWidth 8).signExtend 16 else d.setWidth 16

/-- jit.cpp 1124-1170: 16 bit addressing; the upper half of R10D is zero throughout. -/
def ea16 (addBase isZero : Bool) (segBase : BitVec 32) (r : Fin 8 → BitVec 32) (o : Operand) : BitVec 32 :=
  let x := index16 r (base16 r o.base) o.index
  match o.disp with
  | some d =>
    let y := x + disp16 o.mod1 d
    if addBase == false || isZero then y.setWidth 32 else segBase + y.setWidth 32
  | none => if addBase == false || isZero then x.setWidth 32 else segBase + x.setWidth 32

/-- jit.cpp 1068-1078: the direct address (moffs) form. -/
def moffs (a32 addBase isZero : Bool) (segBase : BitVec 32) (d : BitVec 64) : BitVec 32 :=
  let off : BitVec 32 := if a32 then d.setWidth 32 else (d &&& 0xFFFF#64).setWidth 32
  if addBase && !isZero then off + segBase else off

/-- jit.cpp 1081-1171: the address of a ModRM operand, by the address size. -/
def ea (a32 addBase isZero : Bool) (segBase : BitVec 32) (r : Fin 8 → BitVec 32) (o : Operand) : BitVec 32 :=
  if a32 then ea32 addBase isZero segBase r o else ea16 addBase isZero segBase r o

end Verif.EffAddr
