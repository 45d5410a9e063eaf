/-
Specification of host pointers to guest memory.
-/
import Verif.Spec.BlockVirt

namespace Verif.Block.Spec
open Verif.AS Verif.Block

/-- Pointer arithmetic. -/
def plus : Cell → Nat → Cell
  | .ram i, k => .ram (i + k)
  | .rom p i, k => .rom p (i + k)

/-- The virtual address is mapped, to physical address `p` in region `r`. -/
def InRegion (s : Space) (pg : Addr → Option (Addr × Bool)) (a : Addr) (r : Region) : Prop :=
  ∃ p f, pg a = some (p, f) ∧ s.search p.toNat = some r

/-- Every ram region lies in the ram buffer. -/
def RamFits (s : Space) (ramSize : Nat) : Prop :=
  ∀ n ∈ s.nodes, n.reg.type = .ram → n.reg.stop - n.reg.buffOff < ramSize

end Verif.Block.Spec
