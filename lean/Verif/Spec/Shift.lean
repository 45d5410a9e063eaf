/-
Specification of x86 shifts and rotates, independent of the code: what the result and the carry
are for a count `k` that has already been reduced to 1..31, bit by bit or as integers.
-/
namespace Verif.Flags.Spec

/-- `SHL x, k` multiplies by 2^k modulo 2^n. -/
def Shl {n : Nat} (x : BitVec n) (k : Nat) (r : BitVec n) : Prop :=
  r.toNat = x.toNat * 2 ^ k % 2 ^ n

/-- `SHR x, k` divides the unsigned number by 2^k. -/
def Shr {n : Nat} (x : BitVec n) (k : Nat) (r : BitVec n) : Prop :=
  r.toNat = x.toNat / 2 ^ k

/-- `SAR x, k` divides the signed number by 2^k, rounding towards minus infinity. -/
def Sar {n : Nat} (x : BitVec n) (k : Nat) (r : BitVec n) : Prop :=
  r.toInt = x.toInt / 2 ^ k

/-- Rotating left by `k`: bit `i` goes to position `i + k` modulo the size. -/
def RotL {n : Nat} (x : BitVec n) (k : Nat) (r : BitVec n) : Prop :=
  ∀ i, i < n → r.getLsbD ((i + k) % n) = x.getLsbD i

/-- Rotating right by `k`: the bit at position `i + k` modulo the size comes to position `i`. -/
def RotR {n : Nat} (x : BitVec n) (k : Nat) (r : BitVec n) : Prop :=
  ∀ i, i < n → r.getLsbD i = x.getLsbD ((i + k) % n)

/-- Bit `i` of the concatenation `hi:lo` of two `n` bit numbers. -/
def catBit {n : Nat} (hi lo : BitVec n) (i : Nat) : Bool :=
  if i < n then lo.getLsbD i else hi.getLsbD (i - n)

/-- `SHLD dst, src, k`: the upper half of `dst:src` shifted left by `k`. -/
def Shld {n : Nat} (dst src : BitVec n) (k : Nat) (r : BitVec n) : Prop :=
  ∀ i, i < n → r.getLsbD i = catBit dst src (n + i - k)

/-- `SHRD dst, src, k`: the lower half of `src:dst` shifted right by `k`. -/
def Shrd {n : Nat} (dst src : BitVec n) (k : Nat) (r : BitVec n) : Prop :=
  ∀ i, i < n → r.getLsbD i = catBit src dst (i + k)

end Verif.Flags.Spec
