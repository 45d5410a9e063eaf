import Verif.Spec.Desc
/-
The accessed bit of a segment descriptor (SDM vol. 3, 3.4.5.1): the processor sets bit 40 of a code or data descriptor when it loads the segment
into a segment register.
-/
namespace Verif.Seg.Spec
open Guest (load store)

/-- The accessed bit. -/
def accessed (d : BitVec 64) : Bool := d[40]

/-- Memory after the descriptor `d` at `a` has been marked as accessed; a system descriptor has no such bit, and a descriptor that has it is not
written. -/
def mark (m : Guest.Mem) (a : BitVec 32) (d : BitVec 64) : Guest.Mem :=
  if isSeg d = true ∧ accessed d = false then store m a 8 (d ||| 0x10000000000#64).toNat else m

end Verif.Seg.Spec
