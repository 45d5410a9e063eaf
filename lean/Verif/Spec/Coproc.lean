import Verif.Model.Coproc
import Verif.Spec.Priv
/-
Availability of x87, MMX and SSE (SDM vol. 3, tables 2-2, 12-1 and 13-1), from CR0 and CR4.
-/
namespace Verif.Coproc.Spec
open Seg Seg.Spec

/-- CR0.EM is bit 2, CR0.TS bit 3, CR0.MP bit 1, CR4.OSFXSR bit 9.  #UD is 6, #NM is 7; #UD has priority. -/
def unavailable (r : Regs) : Cop → Option Nat
  | .x87 => if r.cr0[2] || r.cr0[3] then some 7 else none
  | .fwait => if r.cr0[1] && r.cr0[3] then some 7 else none
  | .emms | .mmx => if r.cr0[2] then some 6 else if r.cr0[3] then some 7 else none
  | .sse => if r.cr0[2] || !r.cr4[9] then some 6 else if r.cr0[3] then some 7 else none

/-- A program that runs: every instruction completes, and `P` holds before each of them. -/
inductive Runs {X : Type} (acc : Acc) (P : Priv.St → Instr X → Prop) : Priv.St → X → List (Instr X) → Priv.St → X → Prop where
  | nil (s : Priv.St) (x : X) : Runs acc P s x [] s x
  | cons {s t u : Priv.St} {x y z : X} {i : Instr X} {is : List (Instr X)} (h : P s i) (e : step acc i s x = some (t, y))
      (r : Runs acc P t y is u z) : Runs acc P s x (i :: is) u z

/-- An instruction of a program (not an event or a call of the client). -/
def Executed {X : Type} : Instr X → Prop
  | .base i => Priv.Spec.Executed i
  | _ => True

/-- What the translator asks of the processor while it emits code is the same. -/
structure SameMode (r r' : Regs) : Prop where
  mode : mode r' = mode r
  level : level r' = level r
  code32 : code32 r' = code32 r
  stack32 : stack32 r' = stack32 r
  iopl : iopl r' = iopl r
  tf : r'.eflags[8] = r.eflags[8]
  rf : r'.eflags[16] = r.eflags[16]
  pe : r'.cr0[0] = r.cr0[0]
  mp : r'.cr0[1] = r.cr0[1]
  em : r'.cr0[2] = r.cr0[2]
  ts : r'.cr0[3] = r.cr0[3]
  ne : r'.cr0[5] = r.cr0[5]
  vme : r'.cr4[0] = r.cr4[0]
  pvi : r'.cr4[1] = r.cr4[1]
  osfxsr : r'.cr4[9] = r.cr4[9]
  osxmm : r'.cr4[10] = r.cr4[10]
  flat : ∀ i, 21 ≤ i → i ≤ 26 → r'.hflags.getLsbD i = r.hflags.getLsbD i

end Verif.Coproc.Spec
