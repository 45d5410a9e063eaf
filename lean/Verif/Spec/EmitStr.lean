import Verif.Model.EmitStr
import Verif.Spec.StringOps
/-
Specification of the string instructions on the guest state: Spec/StringOps.lean says what an element and the repetitions do to the registers and
memory they use; the other registers stay.
-/
namespace Verif.Emit.Spec
open Host

/-- The part of the guest state a string instruction uses: DF is bit 10 of EFLAGS. -/
def sview (e : Env) (x : StrInsn) (g : G) : StringOps.St :=
  { mem := g.mem, esi := g.gpr 6, edi := g.gpr 7, ecx := g.gpr 1, eax := g.gpr 0, df := g.fl.eflags.getLsbD 10,
    src := e.seg x.seg, dst := e.seg 0, fl := g.fl }

/-- Its encoding. -/
def senc (x : StrInsn) : StringOps.Enc := ⟨x.i, x.z.bytes, x.a32⟩

/-- EDX, EBX, ESP and EBP stay. -/
def OthersStay (g g' : G) : Prop := ∀ i : Fin 8, i = 2 ∨ i = 3 ∨ i = 4 ∨ i = 5 → g'.gpr i = g.gpr i

/-- What the emitter assumes about the bases is right, and the operand is a byte, word or doubleword. -/
def StrOk (e : Env) (x : StrInsn) : Prop := x.z ≠ .q ∧ (x.srcFlat = true → e.seg x.seg = 0#32) ∧ (x.dstFlat = true → e.seg 0 = 0#32)

/-- The accesses of the next element are allowed. -/
def May (ok : Guest.Ok) (c : StringOps.Enc) (s : StringOps.St) : Prop := ∀ p ∈ StringOps.Spec.touches c s, ok p.1 c.k p.2 = true

/-- `n` repetitions lead from `s` to `t`, all accesses of which are allowed, each but the last leaving a zero flag with which the prefix repeats. -/
inductive Reps (ok : Guest.Ok) (c : StringOps.Enc) (r : StringOps.Rep) : Nat → StringOps.St → StringOps.St → Prop
  | zero (s : StringOps.St) : Reps ok c r 0 s s
  | one {s t : StringOps.St} : May ok c s → StringOps.Spec.Turn c s t → Reps ok c r 1 s t
  | more {n : Nat} {s t u : StringOps.St} : May ok c s → StringOps.Spec.Turn c s t →
      StringOps.Spec.repeats r (Flags.flags t.fl).zf = true → Reps ok c r (n + 1) t u → Reps ok c r (n + 2) s u

/-- The number in the count register. -/
def countOf (x : StrInsn) (g : G) : Nat := (g.gpr 1).toNat % StringOps.Spec.size x.a32

/-- The instruction completes: one element, or with a prefix as many repetitions as the count register says, or fewer if the zero flag ends them. -/
def StrDone (e : Env) (x : StrInsn) (g g' : G) : Prop :=
  OthersStay g g' ∧ match x.rep with
  | none => May e.ok (senc x) (sview e x g) ∧ StringOps.Spec.Elem (senc x) (sview e x g) (sview e x g')
  | some r => ∃ n, Reps e.ok (senc x) r n (sview e x g) (sview e x g') ∧ n ≤ countOf x g ∧
      (n = countOf x g ∨ 0 < n ∧ StringOps.Spec.repeats r (Flags.flags g'.fl).zf = false)

/-- It faults: the next element may not be accessed, all repetitions before it are complete, and the count register tells those that remain. -/
def StrFault (e : Env) (x : StrInsn) (g g' : G) : Prop :=
  OthersStay g g' ∧ ¬ May e.ok (senc x) (sview e x g') ∧ match x.rep with
  | none => g' = g
  | some r => ∃ n, Reps e.ok (senc x) r n (sview e x g) (sview e x g') ∧ n < countOf x g ∧ countOf x g' = countOf x g - n ∧
      (0 < n → StringOps.Spec.repeats r (Flags.flags g'.fl).zf = true)

end Verif.Emit.Spec
