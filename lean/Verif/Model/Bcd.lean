import Verif.Model.Flags
/-
Decimal adjust instructions, core/emitter/x64/jit.cpp 4220-4315 (AAA, AAD, AAM, AAS) and
5631-5747 (DAA, DAS).  The guest register is AX (AL, AH); the flags are the lazy words of
Model/Flags.
-/
namespace Verif.Flags

/-- AX as two bytes and the flag state. -/
structure BcdSt where
  al : BitVec 8
  ah : BitVec 8
  fl : St
deriving DecidableEq, Repr

/-- AX as a 16 bit value. -/
def BcdSt.ax (s : BcdSt) : BitVec 16 := (s.ah.setWidth 16 <<< 8) ||| s.al.setWidth 16

/-- jit.cpp 4220-4244: AAA. -/
def aaaOp (s : BcdSt) : BcdSt :=
  let dx := s.ax &&& 0xF#16
  if 9 < (dx.setWidth 8).toNat ∨ ldAf s.fl ≠ 0#32 then
    let ax := s.ax + 0x106#16
    { al := ax.setWidth 8 &&& 0xF#8, ah := (ax >>> 8).setWidth 8,
      fl := { s.fl with aux := 0x80000008#32 } }
  else
    { s with al := dx.setWidth 8, fl := { s.fl with aux := 0#32 } }

/-- jit.cpp 4282-4315: AAS. -/
def aasOp (s : BcdSt) : BcdSt :=
  let ax := s.ax &&& 0xF#16
  if 9 < (ax.setWidth 8).toNat ∨ ldAf s.fl ≠ 0#32 then
    let bx := s.ax + 0xFFFA#16
    let hi := ((bx >>> 8).setWidth 8 : BitVec 8) - 1#8
    let r : BitVec 16 := (hi.setWidth 16 <<< 8) ||| (bx &&& 0xFF#16)
    { al := r.setWidth 8 &&& 0xF#8, ah := (r >>> 8).setWidth 8,
      fl := { s.fl with aux := 0x80000008#32 } }
  else
    { s with al := ax.setWidth 8, fl := { s.fl with aux := 0#32 } }

/-- jit.cpp 4246-4260: AAD with immediate `imm` (the encoding's default is 10). -/
def aadOp (s : BcdSt) (imm : BitVec 8) : BcdSt :=
  let edx : BitVec 32 := s.ah.setWidth 32 * imm.setWidth 32
  let dl := edx.setWidth 8 + s.al
  { al := dl, ah := 0#8, fl := { s.fl with res := dl.signExtend 32, aux := 0#32 } }

/-- jit.cpp 4262-4280: AAM; `none` is the divide exception. -/
def aamOp (s : BcdSt) (imm : BitVec 8) : Option BcdSt :=
  if imm = 0#8 then none
  else
    let q : BitVec 32 := s.al.setWidth 32 / imm.setWidth 32
    let r : BitVec 32 := s.al.setWidth 32 % imm.setWidth 32
    let dl := r.setWidth 8
    some { al := dl, ah := q.setWidth 8, fl := { s.fl with res := dl.signExtend 32, aux := 0#32 } }

/-- jit.cpp 5631-5692: DAA. -/
def daaOp (s : BcdSt) : BcdSt :=
  let old := s.al
  let cf := ldCf s.fl
  -- first adjustment (jmp1, jmp2)
  let p : BitVec 8 × BitVec 32 :=
    if 9 < (old &&& 0xF#8).toNat ∨ ldAf s.fl ≠ 0#32 then
      (old + 6#8, ((placeAux (sumVec old 6#8 (old + 6#8)) &&& 0x80000000#32) ||| cf) ||| 8#32)
    else (old, 0#32)
  -- second adjustment (jmp4, jmp5)
  let q : BitVec 8 × BitVec 32 :=
    if 0x99 < old.toNat ∨ cf ≠ 0#32 then (p.1 + 0x60#8, p.2 ||| 0x80000000#32)
    else (p.1, p.2 &&& 0x7FFFFFFF#32)
  { s with al := q.1, fl := { s.fl with res := q.1.signExtend 32, aux := q.2 } }

/-- jit.cpp 5694-5747: DAS. -/
def dasOp (s : BcdSt) : BcdSt :=
  let old := s.al
  let cf := ldCf s.fl
  let p : BitVec 8 × BitVec 32 :=
    if 9 < (old &&& 0xF#8).toNat ∨ ldAf s.fl ≠ 0#32 then
      (old - 6#8, ((placeAux (subVec old 6#8 (old - 6#8)) &&& 0x80000000#32) ||| cf) ||| 8#32)
    else (old, 0#32)
  let q : BitVec 8 × BitVec 32 :=
    if 0x99 < old.toNat ∨ cf ≠ 0#32 then (p.1 - 0x60#8, p.2 ||| 0x80000000#32)
    else p
  { s with al := q.1, fl := { s.fl with res := q.1.signExtend 32, aux := q.2 } }

end Verif.Flags
