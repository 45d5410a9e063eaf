import Verif.Spec.Emit
/-
Specification of the instructions of Model/EmitMore.lean: products as integers, bit scans by the bits of the source, BOUND by
signed order.
-/
namespace Verif.Emit.Spec
open Host Guest Flags.Spec

/-- The mathematical product of two operands. -/
def prod {n : Nat} (signed : Bool) (a b : BitVec n) : Int :=
  if signed then a.toInt * b.toInt else (a.toNat : Int) * (b.toNat : Int)

/-- The product can be represented in `n` bits. -/
def fits (signed : Bool) (n : Nat) (p : Int) : Prop :=
  if signed then -(2 : Int) ^ (n - 1) ≤ p ∧ p < (2 : Int) ^ (n - 1) else p < (2 : Int) ^ n

/-- CF and OF after a multiplication: set iff the product does not fit.  SF, ZF, AF, PF are undefined. -/
def MulFlags (signed : Bool) (n : Nat) (p : Int) (f : Flags) : Prop :=
  (f.cf = true ↔ ¬ fits signed n p) ∧ f.of = f.cf

/-- AX, or DX:AX, or EDX:EAX get the product `p`. -/
def setWide (g : G) (z : Sz) (p : Int) : G :=
  if z = .b then wrG g .w ⟨0, false⟩ (BitVec.ofInt 16 p)
  else wrG (wrG g z ⟨0, false⟩ (BitVec.ofInt z.bits p)) z ⟨2, false⟩ (BitVec.ofInt z.bits (p / 2 ^ z.bits))

/-- `i` is the number of the least (`reverse = false`) or greatest set bit of `x`. -/
def IsScan {n : Nat} (reverse : Bool) (x : BitVec n) (i : Nat) : Prop :=
  x.getLsbD i = true ∧ ∀ j, x.getLsbD j = true → if reverse then j ≤ i else i ≤ j

/-- The value `v` of an operand of size `zs` extended to `zd`. -/
def extend (signed : Bool) (zd : Sz) {n : Nat} (v : BitVec n) : BitVec zd.bits :=
  if signed then BitVec.ofInt zd.bits v.toInt else BitVec.ofNat zd.bits v.toNat

/-- The address XLAT reads: the segment's base plus the offset, which has the address size. -/
def xlatAddr (addr16 : Bool) (base : Option (BitVec 32)) (g : G) : BitVec 32 :=
  base.getD 0 + BitVec.ofNat 32 (if addr16 then ((rdG g .w ⟨3, false⟩).toNat + (rdG g .b ⟨0, false⟩).toNat) % 65536
    else (g.gpr 3).toNat + (rdG g .b ⟨0, false⟩).toNat)

end Verif.Emit.Spec
