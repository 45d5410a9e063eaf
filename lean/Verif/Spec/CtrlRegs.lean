import Verif.Model.Seg
/-
Control registers (Intel SDM vol. 3, 2.5), stated from bit positions only.
-/
namespace Verif.Seg.Spec

/-- A combination of CR0 bits the processor accepts: paging needs protection, not-write-through needs
cache-disable. -/
def ValidCr0 (n : BitVec 32) : Prop := (n[31] = true → n[0] = true) ∧ (n[29] = true → n[30] = true)

/-- The value CR0 has after a write: PE MP EM TS NE WP AM NW CD PG as written, ET always 1, reserved
bits 0. -/
def cr0Bit (n : BitVec 32) (i : Nat) : Bool :=
  if i = 4 then true
  else if i ∈ [0, 1, 2, 3, 5, 16, 18, 29, 30, 31] then n.getLsbD i else false

/-- CR4 bits of the cpu: VME PVI TSD DE PSE PAE MCE PGE PCE OSFXSR OSXMMEXCPT are bits 0 to 10. -/
def ValidCr4 (n : BitVec 32) : Prop := ∀ i, 11 ≤ i → n.getLsbD i = false

/-- A change of CR0 after which cached translations are not valid any more: paging is turned on or
off, or supervisor write protection changes while paging is on. -/
def Cr0Stale (old new : BitVec 32) : Prop :=
  old[31] ≠ new[31] ∨ (old[16] ≠ new[16] ∧ new[31] = true)

/-- The same for CR4: large pages or global pages are turned on or off. -/
def Cr4Stale (old new : BitVec 32) : Prop := old[4] ≠ new[4] ∨ old[7] ≠ new[7]

/-- All registers are the same, except CR0, CR2, CR3, CR4 and the mode bits. -/
def SameButCr (r r' : Regs) : Prop :=
  r' = { r with cr0 := r'.cr0, cr2 := r'.cr2, cr3 := r'.cr3, cr4 := r'.cr4, hflags := r'.hflags }

end Verif.Seg.Spec
