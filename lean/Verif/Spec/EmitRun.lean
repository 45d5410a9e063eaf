import Verif.Spec.EmitJump
import Verif.Model.EmitRun
/-
Specification of whole executions: the instructions of the program one at a time, EIP and all.  No blocks, cache, translation or host code.
-/
namespace Verif.Emit.Spec
open Host Guest
open Flags

/-- `n` instructions of the program lead from one EIP and guest state to another; `P` is what is known of the accesses allowed meanwhile. -/
inductive Steps (P : Env → Prop) (p : Prog) (base : BitVec 32) : Nat → BitVec 32 → G → BitVec 32 → G → Prop
  | none {eip g} : Steps P p base 0 eip g eip g
  | insn {k eip g eip' g' e i n g1} : P e → p (base + eip) = some (.insn i n) → Runs e g i → Gives e g g1 i →
      Steps P p base k (eip + BitVec.ofNat 32 n) g1 eip' g' → Steps P p base (k + 1) eip g eip' g'
  | jump {k eip g eip' g' e j n s eip1 g1} : P e → p (base + eip) = some (.jump j n s) → JRuns e g ⟨eip, n, s⟩ j → JGives e g ⟨eip, n, s⟩ g1 eip1 j →
      Steps P p base k eip1 g1 eip' g' → Steps P p base (k + 1) eip g eip' g'

/-- The instruction at `eip` faults in `g` and leaves `g'`. -/
def Stops (P : Env → Prop) (p : Prog) (base eip : BitVec 32) (g g' : G) : Prop :=
  (∃ e i n, P e ∧ p (base + eip) = some (.insn i n) ∧ Faults e g g' i) ∨
  (∃ e j n s, P e ∧ p (base + eip) = some (.jump j n s) ∧ ¬ JRuns e g ⟨eip, n, s⟩ j ∧ g' = g)

/-- The instructions have lengths the architecture allows. -/
def Sized (p : Prog) : Prop := ∀ a o, p a = some o → 1 ≤ o.len ∧ o.len ≤ 15

/-- The instructions are ones the emitter can be given (see Legal), under every environment that `P` admits. -/
structure Fit (P : Env → Prop) (ctx : BitVec 64) (p : Prog) : Prop where
  ctx : ∀ e, P e → e.ctx = ctx
  insn : ∀ e, P e → ∀ a i n, p a = some (.insn i n) → Legal e i
  jump : ∀ e, P e → ∀ a j n s, p a = some (.jump j n s) → JLegal e j
  sized : Sized p

/-- The guest's view of the end of an execution from `eip0` and `g0` under the turns `ts`. -/
def Shows (P : Env → Prop) (p : Prog) (base : BitVec 32) (ts : List Turn) (eip0 : BitVec 32) (g0 : G) : KOut → Prop
  | .on eip h => ∃ n, ts.length ≤ n ∧ Steps P p base n eip0 g0 eip h.g
  | .fault eip g => ∃ n g1, Steps P p base n eip0 g0 eip g1 ∧ Stops P p base eip g1 g
  | .int eip h => ∃ n, 1 ≤ n ∧ Steps P p base n eip0 g0 eip h.g ∧ ∃ t ∈ ts, ∃ w, (w = t.last ∨ ∃ i, w = t.pend i) ∧ Wanted w h.g
  | .undecoded eip h => (∃ n, Steps P p base n eip0 g0 eip h.g) ∧ p (base + eip) = none
  | .stuck => False

end Verif.Emit.Spec
