import Verif.Props.EffAddr
import Verif.Model.EmitBlock
/-
Specification for memory operands: the linear address an operand stands for, by the SDM.
-/
namespace Verif.Emit.Spec
open Host

/-- The linear address of an operand: the offset modulo the address size, plus the segment's base (which LEA leaves out), modulo 2^32. -/
def Address (e : Env) (g : G) (m : MemOp) (a : BitVec 32) : Prop :=
  let base : Nat := if m.addBase then (e.seg m.seg).toNat else 0
  match m.mode with
  | .moffs d => (a.toNat : Int) = EffAddr.linear m.a32 base 0 0 0 d.toInt
  | .modrm o => (a.toNat : Int) = EffAddr.linear m.a32 base (EffAddr.regVal g.gpr o.base) (EffAddr.idxVal g.gpr o.index).1
      (EffAddr.idxVal g.gpr o.index).2 (EffAddr.dispVal o.disp)

/-- An operand as the decoder gives it: an eight bit displacement is sign extended, a scale is 1, 2, 4 or 8, LEA has no direct operand, and the bit that says that the
segment's base is zero is right. -/
def Proper (e : Env) (m : MemOp) : Prop :=
  (m.flat = true → e.seg m.seg = 0#32) ∧
  match m.mode with
  | .moffs _ => m.addBase = true
  | .modrm o => EffAddr.Decoded o ∧ ∀ i n, o.index = some (i, n) → n ≤ 3

end Verif.Emit.Spec
