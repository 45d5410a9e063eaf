/-
Specification of the x86 arithmetic flags, independent of the code: what CF, PF, AF, ZF, SF
and OF are after an addition, a subtraction and a logic operation, stated with unbounded
naturals and integers, and where each flag sits in EFLAGS.
-/
namespace Verif.Flags.Spec

/-- The six arithmetic flags. -/
structure Flags where
  cf : Bool
  pf : Bool
  af : Bool
  zf : Bool
  sf : Bool
  of : Bool
deriving DecidableEq, Repr

/-- Where the architecture keeps them in EFLAGS (bits 0, 2, 4, 6, 7, 11). -/
def ofEflags (e : BitVec 32) : Flags :=
  { cf := e.getLsbD 0, pf := e.getLsbD 2, af := e.getLsbD 4,
    zf := e.getLsbD 6, sf := e.getLsbD 7, of := e.getLsbD 11 }

/-- PF: the low byte of the result has an even number of bits set. -/
def parityEven {n : Nat} (r : BitVec n) : Bool :=
  ((List.range 8).filter (fun i => r.getLsbD i)).length % 2 == 0

/-- Flags of `a + b + c` at width `n`, `c` being the carry in: CF says that the unsigned sum does
not fit, AF that the sum of the low nibbles does not fit, OF that the signed sum does not fit. -/
def addFlags {n : Nat} (a b : BitVec n) (c : Bool) : Flags :=
  let r := a + b + (BitVec.ofBool c).setWidth n
  { cf := decide (2 ^ n ≤ a.toNat + b.toNat + c.toNat)
    pf := parityEven r
    af := decide (16 ≤ a.toNat % 16 + b.toNat % 16 + c.toNat)
    zf := decide (r = 0#n)
    sf := r.msb
    of := decide (¬ (- 2 ^ (n - 1) ≤ a.toInt + b.toInt + c.toNat ∧
                     a.toInt + b.toInt + c.toNat < 2 ^ (n - 1))) }

/-- Flags of `a - b - c` at width `n`, `c` being the borrow in: CF says that the unsigned difference
is negative, AF the same of the low nibbles, OF that the signed difference does not fit. -/
def subFlags {n : Nat} (a b : BitVec n) (c : Bool) : Flags :=
  let r := a - b - (BitVec.ofBool c).setWidth n
  { cf := decide (a.toNat < b.toNat + c.toNat)
    pf := parityEven r
    af := decide (a.toNat % 16 < b.toNat % 16 + c.toNat)
    zf := decide (r = 0#n)
    sf := r.msb
    of := decide (¬ (- 2 ^ (n - 1) ≤ a.toInt - b.toInt - c.toNat ∧
                     a.toInt - b.toInt - c.toNat < 2 ^ (n - 1))) }

/-- Flags of a logic operation with result `r`: CF and OF are cleared; AF is undefined. -/
def LogicFlags {n : Nat} (r : BitVec n) (f : Flags) : Prop :=
  f.cf = false ∧ f.of = false ∧ f.pf = parityEven r ∧ f.zf = decide (r = 0#n) ∧ f.sf = r.msb

/-- The sixteen condition codes of Jcc, SETcc and CMOVcc, in encoding order. -/
inductive Cond where
  | o | no | b | nb | z | nz | be | nbe | s | ns | p | np | l | nl | le | nle
deriving DecidableEq, Repr

/-- When each condition holds (SDM vol. 1, appendix B). -/
def Cond.holds : Cond → Flags → Bool
  | .o, f => f.of
  | .no, f => !f.of
  | .b, f => f.cf
  | .nb, f => !f.cf
  | .z, f => f.zf
  | .nz, f => !f.zf
  | .be, f => f.cf || f.zf
  | .nbe, f => !(f.cf || f.zf)
  | .s, f => f.sf
  | .ns, f => !f.sf
  | .p, f => f.pf
  | .np, f => !f.pf
  | .l, f => f.sf != f.of
  | .nl, f => f.sf == f.of
  | .le, f => f.zf || (f.sf != f.of)
  | .nle, f => !(f.zf || (f.sf != f.of))

end Verif.Flags.Spec
