import Verif.Spec.Fpu
/-
Specification of the masked response to a stack fault of the FPU (SDM vol. 1, 8.5.1.1 and the instruction pages): the instruction completes
with the indefinite value for its result, and FXCH for the empty register.
-/
namespace Verif.Fpu.Spec

/-- The real indefinite value: negative, largest exponent, significand 11000...0. -/
def indefinite : BitVec 80 := 0xFFFFC000000000000000#80

/-- An operand is missing. -/
def Underflow (R : Regs) (op : Op) : Prop := ∃ i ∈ needs op, R i = none
/-- There is no place for the result. -/
def Overflow (R : Regs) (op : Op) : Prop := grows op = true ∧ R 7 ≠ none

/-- The stack after the masked response. -/
def maskedEffect (op : Op) (R : Regs) : Regs :=
  match op with
  | .ldConst _ | .ldMem _ _ | .ldReg _ => push (some indefinite) R
  | .stReg i p => popIf p (put R i (some indefinite))
  | .stMem _ p => popIf p R
  | .arithReg i toI p _ _ => popIf p (put R (if toI then i else 0) (some indefinite))
  | .arithSt0 _ _ _ | .fchs _ => put R 0 (some indefinite)
  | .fcom _ n _ => popTimes n R
  | .fpatan _ _ => pop (put R 1 (some indefinite))
  | .fsincos _ _ _ => push (some indefinite) (put R 0 (some indefinite))
  | .fxch i => put (put R 0 (some ((R i).getD indefinite))) i (some ((R 0).getD indefinite))
  | _ => R

/-- The responses the emulator gets right: not FLD of an empty register, not arithmetic with a destination other than ST(0) or with a pop,
and FXCH only if both registers are empty. -/
def Handled (R : Regs) : Op → Prop
  | .ldReg _ => R 7 ≠ none
  | .arithReg i toI p _ _ => p = false ∧ (toI = true → i = 0)
  | .fxch i => R 0 = none ∧ R i = none
  | _ => True

end Verif.Fpu.Spec
