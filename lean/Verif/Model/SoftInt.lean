/-
The software interrupt instructions: core/emitter/x64/jit.cpp 3762-3802 (int_), 7071-7087 (INT3_, INTN, INTO).  What they call,
cpu_raise_exception<1>, <2> and <3>, is Model/Exc.lean.  Not modelled: the debugger, which with CPU_DBG_PRESENT takes vectors 1 and 3 also
from INT 1 and INT 3 (translate.cpp 527-533).
-/
import Verif.Model.Step

namespace Verif.Seg

/-- INT3, INT n and INTO. -/
inductive SoftInt where
  | int3 | intn (n : BitVec 8) | into

/-- jit.cpp 3765, 3777, 3796: the template argument. -/
def SoftInt.kind : SoftInt → Kind
  | .int3 => ⟨1, false⟩
  | .intn _ => ⟨2, false⟩
  | .into => ⟨3, false⟩

/-- jit.cpp 3775, 3785-3790: exp_data.idx. -/
def SoftInt.idx : SoftInt → Nat
  | .int3 => 3
  | .intn n => n.toNat
  | .into => 4

/-- jit.cpp 3776, 3795: EIP is set to the next instruction. -/
def setNext (len : BitVec 32) (s : Cpu) : Cpu := { s with r := { s.r with eip := s.r.eip + len } }

/-- jit.cpp 3762-3802; `len` is the length of the instruction.  LD_OF is bit 11 of the arithmetic flags (C26).  INTO without overflow goes on
in the block. -/
def softInt (acc : Acc) (pf : Cpu → BitVec 16 × BitVec 32) (i : SoftInt) (len : BitVec 32) (s : Cpu) : Outcome :=
  match i with
  | .into => if s.r.arith &&& 0x800#32 = 0#32 then .done (setNext len s) else exec acc pf (.event i.kind i.idx 0#16 0#32) (setNext len s)
  | _ => exec acc pf (.event i.kind i.idx 0#16 0#32) (setNext len s)

end Verif.Seg
