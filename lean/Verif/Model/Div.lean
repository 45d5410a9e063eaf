/-
DIV and IDIV: core/instructions.cpp 1345-1459 (divd_helper ... idivb_helper).
C++ integer division of the most negative value by -1 is undefined behaviour (a hardware trap on x86
hosts) and is an outcome of its own.
-/
namespace Verif.Div

/-- How the helper ends: the new EAX and EDX, a divide error with the registers unchanged, or
undefined behaviour of the host program. -/
inductive Res where
  | ok (eax edx : BitVec 32)
  | de
  | ub
deriving DecidableEq

/-- C++ signed division and remainder: truncating; `none` is undefined. The divisor is not zero. -/
def cdiv {w : Nat} (a b : BitVec w) : Option (BitVec w × BitVec w) :=
  if a = BitVec.intMin w ∧ b = -1#w then none else some (a.sdiv b, a.srem b)

/-- instructions.cpp 1346-1361: divd_helper. -/
def divd (eax edx d : BitVec 32) : Res :=
  let D : BitVec 64 := eax.setWidth 64 ||| (edx.setWidth 64 <<< 32)
  if d = 0#32 then .de else
  let q := D / d.setWidth 64
  let r := D % d.setWidth 64
  if 0xFFFFFFFF#64 < q then .de else .ok (q.setWidth 32) (r.setWidth 32)

/-- instructions.cpp 1364-1382: divw_helper. -/
def divw (eax edx : BitVec 32) (d : BitVec 16) : Res :=
  let D : BitVec 32 := (eax &&& 0xFFFF#32) ||| ((edx &&& 0xFFFF#32) <<< 16)
  if d = 0#16 then .de else
  let q := D / d.setWidth 32
  let r := D % d.setWidth 32
  if 0xFFFF#32 < q then .de else
  .ok ((eax &&& ~~~0xFFFF#32) ||| (q &&& 0xFFFF#32)) ((edx &&& ~~~0xFFFF#32) ||| (r &&& 0xFFFF#32))

/-- instructions.cpp 1384-1402: divb_helper; uint16_t and uint8_t operands are promoted to int, the
results (not negative) converted back to uint16_t. -/
def divb (eax edx : BitVec 32) (d : BitVec 8) : Res :=
  let D : BitVec 16 := (eax &&& 0xFFFF#32).setWidth 16
  if d = 0#8 then .de else
  let q : BitVec 16 := ((D.setWidth 32).sdiv (d.setWidth 32)).setWidth 16
  let r : BitVec 16 := ((D.setWidth 32).srem (d.setWidth 32)).setWidth 16
  if 0xFF#16 < q then .de else
  .ok ((eax &&& ~~~0xFFFF#32) ||| ((r &&& 0xFF#16).setWidth 32 <<< 8) ||| (q &&& 0xFF#16).setWidth 32) edx

/-- instructions.cpp 1404-1420: idivd_helper. -/
def idivd (eax edx d : BitVec 32) : Res :=
  let D : BitVec 64 := eax.setWidth 64 ||| (edx.setWidth 64 <<< 32)
  if d = 0#32 then .de else
  match cdiv D (d.signExtend 64) with
  | none => .ub
  | some (q, r) =>
    if q ≠ (q.setWidth 32).signExtend 64 then .de else .ok (q.setWidth 32) (r.setWidth 32)

/-- instructions.cpp 1422-1441: idivw_helper. -/
def idivw (eax edx : BitVec 32) (d : BitVec 16) : Res :=
  let D : BitVec 32 := (eax &&& 0xFFFF#32) ||| ((edx &&& 0xFFFF#32) <<< 16)
  if d = 0#16 then .de else
  match cdiv D (d.signExtend 32) with
  | none => .ub
  | some (q, r) =>
    if q ≠ (q.setWidth 16).signExtend 32 then .de else
    .ok ((eax &&& ~~~0xFFFF#32) ||| (q &&& 0xFFFF#32)) ((edx &&& ~~~0xFFFF#32) ||| (r &&& 0xFFFF#32))

/-- instructions.cpp 1443-1461: idivb_helper; the division is done in int and its results converted
to int16_t. -/
def idivb (eax edx : BitVec 32) (d : BitVec 8) : Res :=
  let D : BitVec 16 := (eax &&& 0xFFFF#32).setWidth 16
  if d = 0#8 then .de else
  match cdiv (D.signExtend 32) (d.signExtend 32) with
  | none => .ub
  | some (q32, r32) =>
    let q : BitVec 16 := q32.setWidth 16
    let r : BitVec 16 := r32.setWidth 16
    if q ≠ (q.setWidth 8).signExtend 16 then .de else
    .ok ((eax &&& ~~~0xFFFF#32) ||| ((r &&& 0xFF#16).setWidth 32 <<< 8) ||| (q &&& 0xFF#16).setWidth 32) edx

end Verif.Div
