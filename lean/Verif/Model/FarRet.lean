import Verif.Model.Step
/-
RETF with an immediate, core/emitter/x64/jit.cpp 9804-9847.
-/
namespace Verif.Seg

/-- jit.cpp 9837-9846: the immediate is added to ESP or SP; `big` is HFLG_SS32 when the instruction was translated. -/
def addImm (big : Bool) (imm : BitVec 16) (r : Regs) : Regs :=
  if big then { r with esp := r.esp + imm.setWidth 32 }
  else { r with esp := (r.esp &&& 0xFFFF0000#32) ||| ((r.esp.setWidth 16 : BitVec 16) + imm).setWidth 32 }

/-- jit.cpp 9804-9847: RETF imm.  The block that holds the instruction was translated for the mode of the cpu at its start (the mode word is
part of the key of a block, C87), so HFLG_SS32 at translation is that at the start of the instruction. -/
def farRetImm (acc : Acc) (k : Nat) (imm : BitVec 16) : M Unit := do
  let r ← getR
  instr acc (.farRet k)
  modR (addImm (r.hflags &&& H_SS32 != 0#32) imm)

end Verif.Seg
