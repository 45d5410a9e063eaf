/-
Reference for C112: INT3, INT n and INTO (Intel SDM vol. 2, INT n; vol. 3, 6.5 and 6.12).
-/
import Verif.Model.SoftInt
import Verif.Spec.DoubleFault
import Verif.Spec.Vm86Event
import Verif.Spec.Gate

namespace Verif.Seg.Spec
open Verif.Seg

/-- The vector of the instruction. -/
def vector : SoftInt → Nat
  | .int3 => 3
  | .intn n => n.toNat
  | .into => 4

/-- INTO interrupts only after an overflow. -/
def Taken (s : Cpu) : SoftInt → Prop
  | .into => s.r.arith[11] = true
  | _ => True

/-- The cpu at the instruction that follows: the state an interrupt instruction is to be resumed in. -/
def after (s : Cpu) (len : BitVec 32) : Cpu := ⟨{ s.r with eip := s.r.eip + len }, s.mem⟩

/-- The exception `v` with error code `c` is raised and handled, with the program in state `s`. -/
def Excepts (acc : Acc) (pf : Cpu → BitVec 16 × BitVec 32) (v : Nat) (c : BitVec 16) (s : Cpu) (o : Outcome) : Prop :=
  Handled acc pf ⟨.exn, v, c, 0#32⟩ s o

end Verif.Seg.Spec
