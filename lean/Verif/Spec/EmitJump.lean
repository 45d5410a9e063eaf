import Verif.Spec.EmitBlock
import Verif.Model.EmitJump
/-
Specification of the near jumps, calls and returns, by the SDM, in integers: where they go, and what they do to the guest.
-/
namespace Verif.Emit.Spec
open Host Guest
open Flags

/-- The address after the instruction. -/
def follows (t : Site) : BitVec 32 := BitVec.ofNat 32 (t.eip.toNat + t.len)
/-- The target of a relative jump, truncated to the operand size. -/
def goes (t : Site) (rel : BitVec 64) : BitVec 32 :=
  BitVec.ofInt 32 ((t.eip.toNat + t.len + rel.toInt) % (if t.size32 then 2 ^ 32 else 2 ^ 16))
/-- The operand size. -/
def opSize (t : Site) : Sz := if t.size32 then .d else .w

/-- The count register: CX or ECX by the address size. -/
def counter (a32 : Bool) (g : G) : Nat := (g.gpr 1).toNat % (if a32 then 2 ^ 32 else 2 ^ 16)

/-- Which of LOOP, LOOPE, LOOPNE may go on with the zero flag `zf`. -/
def loopCond : Near.LoopKind → Bool → Bool
  | .loop, _ => true
  | .loope, zf => zf
  | .loopne, zf => !zf

/-- `g'` is `g` with the count one less, modulo its size; the rest of ECX stays. -/
structure Counted (a32 : Bool) (g g' : G) : Prop where
  low : counter a32 g' = (counter a32 g + (if a32 then 2 ^ 32 else 2 ^ 16) - 1) % (if a32 then 2 ^ 32 else 2 ^ 16)
  high : a32 = false → (g'.gpr 1).toNat / 2 ^ 16 = (g.gpr 1).toNat / 2 ^ 16
  regs : ∀ i, i ≠ 1 → g'.gpr i = g.gpr i
  flags : g'.fl = g.fl
  mem : g'.mem = g.mem

/-- The accesses a jump makes are allowed. -/
def JRuns (e : Env) (g : G) (t : Site) : Jump → Prop
  | .jmpRm o => ∃ p, At e g o p ∧ p.ok e (opSize t) false = true
  | .call s _ => e.ok (slot e (down s g (opSize t).bytes)) (opSize t).bytes true = true
  | .callRm s o => (∃ p, At e g o p ∧ p.ok e (opSize t) false = true) ∧
      e.ok (slot e (down s g (opSize t).bytes)) (opSize t).bytes true = true
  | .ret s _ => e.ok (slot e (spOff s g)) (opSize t).bytes false = true
  | _ => True

/-- `g'` is `g` with the address after the instruction pushed. -/
def Pushed (e : Env) (t : Site) (s : Ss) (g g' : G) : Prop :=
  SpAt s g g' (down s g (opSize t).bytes)
    (store g.mem (slot e (down s g (opSize t).bytes)) (opSize t).bytes ((follows t).setWidth (opSize t).bits).toNat)

/-- What a jump does: from `g` to `g'`, with EIP `eip` after it. -/
def JGives (e : Env) (g : G) (t : Site) (g' : G) (eip : BitVec 32) : Jump → Prop
  | .jcc c rel => g' = g ∧ eip = if c.spec.holds (flags g.fl) then goes t rel else follows t
  | .jcxz a32 rel => g' = g ∧ eip = if counter a32 g = 0 then goes t rel else follows t
  | .loop k a32 rel => Counted a32 g g' ∧
      eip = if counter a32 g' ≠ 0 ∧ loopCond k (flags g.fl).zf = true then goes t rel else follows t
  | .jmp rel => g' = g ∧ eip = goes t rel
  | .jmpRm o => g' = g ∧ ∃ p, At e g o p ∧ eip.toNat = (p.get g (opSize t)).toNat
  | .call s rel => Pushed e t s g g' ∧ eip = goes t rel
  | .callRm s o => Pushed e t s g g' ∧ ∃ p, At e g o p ∧ eip.toNat = (p.get g (opSize t)).toNat
  | .ret s imm => SpAt s g g' (up s g ((opSize t).bytes + (imm.getD 0#64).toNat)) g.mem ∧
      eip.toNat = load g.mem (slot e (spOff s g)) (opSize t).bytes

/-- A jump the model's emitter can be given. -/
def ProperOpd (e : Env) : Operand → Prop
  | .reg _ => True
  | .mem m => Proper e m
def JLegal (e : Env) : Jump → Prop
  | .jmpRm o => ProperOpd e o
  | .call s _ => FlatOk e s
  | .callRm s o => FlatOk e s ∧ ProperOpd e o
  | .ret s _ => FlatOk e s
  | _ => True

end Verif.Emit.Spec
