/-
LDS, LES, LFS, LGS and LSS: core/emitter/x64/jit.cpp 3619-3679 (lxs).  The operand's linear address is given (Model/EmitEa.lean); the load of
the segment register is Model/Seg.lean.  ESP is the one general register that Cpu holds.
-/
import Verif.Model.Step

namespace Verif.Seg

/-- The cpu and its general registers (number 4, ESP, is in the cpu). -/
structure PtrSt where
  cpu : Cpu
  gpr : Nat → BitVec 32

/-- Completed, or stopped with the state at that point. -/
inductive PtrRes where
  | done (x : PtrSt)
  | stop (e : Stop) (x : PtrSt)

/-- ST_REG_val of the low half or all of a register. -/
def putLow (w : Nat) (old v : BitVec 32) : BitVec 32 := if w = 2 then (old &&& 0xFFFF0000#32) ||| (v &&& 0xFFFF#32) else v

/-- jit.cpp 3674-3676: the destination register, then EIP. -/
def ptrEnd (w dst : Nat) (v len : BitVec 32) (x : PtrSt) : PtrSt :=
  let x := if dst = 4 then { x with cpu := { x.cpu with r := { x.cpu.r with esp := putLow w x.cpu.r.esp v } } }
    else { x with gpr := fun n => if n = dst then putLow w (x.gpr n) v else x.gpr n }
  { x with cpu := { x.cpu with r := { x.cpu.r with eip := x.cpu.r.eip + len } } }

/-- jit.cpp 3619-3679, lxs<i>: `w` is the operand size in bytes (m_cpu->size_mode, decode.hpp 13-15), `lin` the linear address of the operand.
The offset is read first and kept in EBX, then the selector `w` bytes above it. -/
def lxs (acc : Acc) (i : SR) (w dst : Nat) (lin len : BitVec 32) (x : PtrSt) : PtrRes :=
  match rd acc lin w 0 x.cpu with
  | .stop e c => .stop e { x with cpu := c }
  | .ok off c =>
    match rd acc (lin + BitVec.ofNat 32 w) 2 0 c with
    | .stop e c => .stop e { x with cpu := c }
    | .ok sel c =>
      match instr acc (.loadSeg i (BitVec.ofNat 16 sel)) c with
      | .stop e c => .stop e { x with cpu := c }
      | .ok _ c => .done (ptrEnd w dst (BitVec.ofNat 32 off) len { x with cpu := c })

end Verif.Seg
