import Verif.Model.EmitShift
import Verif.Spec.Emit
import Verif.Spec.Shift
/-
Specification of the shift and rotate instructions on operands: the count, the accesses, the result and the
flags.  Nothing here mentions host registers or the emitted code.
-/
namespace Verif.Emit.Spec
open Host Guest Flags.Spec

/-- The count operand. -/
def count (g : G) : ShCnt → Nat
  | .cl => (rdG g .b ⟨1, false⟩).toNat % 32
  | .imm v => v.toNat % 32

/-- The second operand of SHLD and SHRD (unused by the others). -/
def shSrc (g : G) (z : Sz) : ShKind → BitVec z.bits
  | .dsh _ src => rdG g z src
  | _ => 0

/-- ZF, SF and PF of a result. -/
def ResultFlags {n : Nat} (r : BitVec n) (f : Flags) : Prop :=
  f.zf = decide (r = 0#n) ∧ f.sf = r.msb ∧ f.pf = parityEven r

/-- What the instruction does to the value `x` and the flags `f`, for a count `c` of 1 to 31: the new value is `r`, the new
flags `f'`.  SHLD and SHRD are undefined for a count above the operand's size; OF for a count other than one; AF always for
shifts. -/
def Shifted {n : Nat} (x y : BitVec n) (c : Nat) (f : Flags) (r : BitVec n) (f' : Flags) : ShKind → Prop
  | .sh .shl => Shl x c r ∧ ResultFlags r f' ∧ (c < n → f'.cf = x.getLsbD (n - c)) ∧ (c = 1 → f'.of = (x.msb != r.msb))
  | .sh .shr => Shr x c r ∧ ResultFlags r f' ∧ (c < n → f'.cf = x.getLsbD (c - 1)) ∧ (c = 1 → f'.of = (x.msb != r.msb))
  | .sh .sar => Sar x c r ∧ ResultFlags r f' ∧ f'.cf = decide (x.toInt / 2 ^ (c - 1) % 2 = 1) ∧ (c = 1 → f'.of = false)
  | .rot .rcl => RotL (BitVec.cons f.cf x) c (BitVec.cons f'.cf r) ∧
      ∃ o, f' = { f with cf := f'.cf, of := o } ∧ (c = 1 → o = (r.msb ^^ f'.cf))
  | .rot .rcr => RotR (BitVec.cons f.cf x) c (BitVec.cons f'.cf r) ∧
      ∃ o, f' = { f with cf := f'.cf, of := o } ∧ (c = 1 → o = (x.msb ^^ f.cf))
  | .rot .rol => RotL x c r ∧ ∃ o, f' = { f with cf := r.getLsbD 0, of := o } ∧ (c = 1 → o = (r.msb ^^ r.getLsbD 0))
  | .rot .ror => RotR x c r ∧ ∃ o, f' = { f with cf := r.msb, of := o } ∧ (c = 1 → o = (r.msb ^^ r.getLsbD (n - 2)))
  | .dsh left _ => c ≤ n → (if left then Shld x y c r else Shrd x y c r) ∧ ResultFlags r f' ∧
      f'.cf = x.getLsbD (if left then n - c else c - 1) ∧ (c = 1 → f'.of = (x.msb != r.msb))

end Verif.Emit.Spec
