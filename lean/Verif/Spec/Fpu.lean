import Verif.Model.Fpu
/-
Specification of the FPU register stack: eight places ST(0) .. ST(7), each empty or holding a value, and what each instruction
does to them (SDM vol. 1, 8.1.2 and the instruction pages).
-/
namespace Verif.Fpu.Spec

/-- ST(i) for i < 8. -/
abbrev Regs := Nat → Option (BitVec 80)

def push (v : Option (BitVec 80)) (R : Regs) : Regs
  | 0 => v
  | i + 1 => if i < 7 then R i else none
def pop (R : Regs) : Regs := fun i => if i < 7 then R (i + 1) else none
def popTimes : Nat → Regs → Regs
  | 0, R => R
  | n + 1, R => popTimes n (pop R)
def put (R : Regs) (i : Nat) (v : Option (BitVec 80)) : Regs := fun j => if j = i then v else R j
def popIf (b : Bool) (R : Regs) : Regs := if b then pop R else R

/-- The registers an instruction encodes exist. -/
def Encodable : Op → Prop
  | .ldReg i | .stReg i _ | .arithReg i _ _ _ _ | .fcom (some i) _ _ | .fxch i => i < 8
  | .setStatus _ | .setTags _ => False
  | _ => True

/-- The registers that must not be empty. -/
def needs : Op → List Nat
  | .ldReg i => [i]
  | .stReg _ _ | .stMem _ _ | .arithSt0 _ _ _ | .fchs _ | .fcom none _ _ | .fsincos _ _ _ => [0]
  | .arithReg i _ _ _ _ | .fcom (some i) _ _ | .fxch i => [0, i]
  | .fpatan _ _ => [0, 1]
  | _ => []

/-- The instruction needs a free place. -/
def grows : Op → Bool
  | .ldConst _ | .ldMem _ _ | .ldReg _ | .fsincos _ _ _ => true
  | _ => false

/-- The exceptions the computation raised (bits 0-5) among those the instruction can raise. -/
def raised : Op → BitVec 16
  | .ldMem _ sw => sw &&& 1#16
  | .stMem sw _ | .arithReg _ _ _ _ sw | .arithSt0 _ sw _ | .fcom _ _ sw | .fpatan _ sw | .fsincos _ _ sw => sw &&& 0x3F#16
  | _ => 0#16

/-- FSIN, FCOS and FSINCOS report (C2, bit 10) that the operand is out of range. -/
def outOfRange : Op → Bool
  | .arithSt0 _ sw true | .fsincos _ _ sw => sw.getLsbD 10
  | _ => false

/-- What the instruction does to the stack. -/
def effect (op : Op) (R : Regs) : Regs :=
  if outOfRange op then R else
  match op with
  | .ldConst v | .ldMem v _ => push (some v) R
  | .ldReg i => push (R i) R
  | .stReg i p => popIf p (put R i (R 0))
  | .stMem _ p => popIf p R
  | .arithReg i toI p v _ => popIf p (put R (if toI then i else 0) (some v))
  | .arithSt0 v _ _ | .fchs v => put R 0 (some v)
  | .fcom _ n _ => popTimes n R
  | .fpatan v _ => pop (put R 1 (some v))
  | .fsincos s c _ => push (some c) (put R 0 (some s))
  | .fxch i => put (put R 0 (R i)) i (R 0)
  | .fninit | .emms => fun _ => none
  | .fnclex | .fldcw _ | .setStatus _ | .setTags _ => R

/-- The tag of a value: 1 for zero, 2 for infinities, not-a-numbers, denormals and unsupported formats, 0 otherwise (SDM vol. 1, 8.1.7).
The exponent is bits 64-78, the significand with its integer bit (63) is bits 0-63. -/
def tag (v : BitVec 80) : Nat :=
  let exponent := v.toNat / 2 ^ 64 % 2 ^ 15
  let significand := v.toNat % 2 ^ 64
  if exponent = 0 ∧ significand = 0 then 1
  else if exponent = 0 ∨ exponent = 2 ^ 15 - 1 ∨ significand < 2 ^ 63 then 2
  else 0

end Verif.Fpu.Spec
