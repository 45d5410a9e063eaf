/-
Address translation as seen by the virtual block functions.
-/
import Verif.Spec.Block

namespace Verif.Block.Spec
open Verif.Block

/-- `tr` translates as the fixed map `pg` says as long as the translation tables, the cells in `T`, satisfy `I`: it keeps `I`, and
changes only cells in `T` (accessed and dirty bits).  `pg` maps pages to pages; its flag says that the page may hold translated code. -/
structure Translates (tr : Mem → Addr → Option (Addr × Bool) × Mem) (I : Mem → Prop) (T : Cell → Prop) (pg : Addr → Option (Addr × Bool)) : Prop where
  same : ∀ m a, I m → (tr m a).1 = pg a
  keeps : ∀ m a, I m → I (tr m a).2
  only : ∀ m a c, ¬ T c → (tr m a).2 c = m c
  tables : ∀ m m' : Mem, (∀ c, T c → m c = m' c) → I m → I m'
  offset : ∀ a p f, pg a = some (p, f) → p.toNat % 4096 = a.toNat % 4096
  paged : ∀ a p f k, pg a = some (p, f) → a.toNat % 4096 + k < 4096 → pg (a + BitVec.ofNat 32 k) = some (p + BitVec.ofNat 32 k, f)

/-- A translation for reads, without the flag. -/
def noFlag (tr : Mem → Addr → Option Addr × Mem) : Mem → Addr → Option (Addr × Bool) × Mem :=
  fun m a => ((tr m a).1.map (·, false), (tr m a).2)

/-- The virtual address `a` is backed by cell `c`. -/
def VBackedBy (s : Verif.AS.Space) (pg : Addr → Option (Addr × Bool)) (a : Addr) (c : Cell) : Prop :=
  ∃ p f, pg a = some (p, f) ∧ BackedBy s p c

end Verif.Block.Spec
