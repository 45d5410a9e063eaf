/-
Specification of the bit test instructions, independent of the code: a bit string starts at a byte
address; bit `o` (any integer) of it is bit `o mod 8` of the byte `o div 8` bytes further on.
-/
namespace Verif.BitTest.Spec

/-- BT, BTC, BTR, BTS. -/
inductive Op where | bt | btc | btr | bts
deriving DecidableEq, Repr

/-- What the instruction makes of the bit. -/
def newBit : Op → Bool → Bool
  | .bt, b => b
  | .btc, b => !b
  | .btr, _ => false
  | .bts, _ => true

/-- The byte that holds bit `o` of the bit string at `a`. -/
def byteOf (a : BitVec 32) (o : Int) : BitVec 32 := a + BitVec.ofInt 32 (o / 8)

/-- Bit `o` of the bit string at `a`. -/
def bitOf (m : BitVec 32 → BitVec 8) (a : BitVec 32) (o : Int) : Bool :=
  (m (byteOf a o)).getLsbD (o % 8).toNat

/-- `m'` is `m` with bit `o` of the bit string at `a` replaced by `b`. -/
def Updated (m m' : BitVec 32 → BitVec 8) (a : BitVec 32) (o : Int) (b : Bool) : Prop :=
  ∀ x j, j < 8 → (m' x).getLsbD j = if x = byteOf a o ∧ (j : Int) = o % 8 then b else (m x).getLsbD j

end Verif.BitTest.Spec
