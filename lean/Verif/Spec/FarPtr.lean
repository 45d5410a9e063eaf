/-
Reference for C113: a far pointer in memory, offset first, and what loading it means.
-/
import Verif.Model.FarPtr
import Verif.Spec.RealSeg
import Verif.Spec.Frame

namespace Verif.Seg.Spec
open Verif.Seg Verif.Guest

/-- General register `n`. -/
def PtrSt.reg (x : PtrSt) (n : Nat) : BitVec 32 := if n = 4 then x.cpu.r.esp else x.gpr n

/-- The selector of the far pointer at `lin` with an offset of `w` bytes. -/
def ptrSel (s : Cpu) (w : Nat) (lin : BitVec 32) : BitVec 16 := BitVec.ofNat 16 (load s.mem (lin + BitVec.ofNat 32 w) 2)

/-- Register `dst` got the offset: all of it, or its low half. -/
structure OffsetIn (x y : PtrSt) (w dst : Nat) (lin : BitVec 32) : Prop where
  low : (PtrSt.reg y dst).toNat % 256 ^ w = load x.cpu.mem lin w
  high : w = 2 → (PtrSt.reg y dst).toNat / 65536 = (PtrSt.reg x dst).toNat / 65536

end Verif.Seg.Spec
