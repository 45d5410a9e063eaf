/-
Reference for C110.
-/
import Verif.Model.FpuMem

namespace Verif.FpuMem
open Verif.Fpu

/-- ST(0) holds a value. -/
def HasSt0 (s : St) : Prop := s.tags (s.ftop % 8) ≠ 3#8

/-- The pointers after an instruction at CS:EIP whose operand, if it is in memory, is at `seg:offset`. -/
structure PointsTo (p old : Ptrs) (c : Cx) (i : Ins) (operand : Option (SegR × BitVec 32)) : Prop where
  code : p.fcs = c.sel .cs ∧ p.fip = c.eip
  /-- the low three bits of the opcode and the modrm byte -/
  op : p.fop.toNat = i.opcode.toNat % 8 * 256 + i.modrm.toNat
  data : match operand with
    | some o => p.fds = c.sel o.1 ∧ p.fdp = o.2
    | none => p.fds = old.fds ∧ p.fdp = old.fdp

/-- Two FPU states that differ at most in C1. -/
def SameButC1 (s t : St) : Prop :=
  s.fctrl = t.fctrl ∧ s.ftop = t.ftop ∧ s.tags = t.tags ∧ s.fr = t.fr ∧ ∀ j, j ≠ 9 → s.fstatus.getLsbD j = t.fstatus.getLsbD j

/-- An exception the host reports in `sw` that the control word does not mask. -/
def Unmasked (s : St) (sw : BitVec 16) : Prop := ∃ j, j < 6 ∧ sw.getLsbD j = true ∧ s.fctrl.getLsbD j = false

/-- The store of a value: ST(0) stays, or is emptied and the stack goes up. -/
structure Popped (s t : St) (pop : Bool) : Prop where
  ctrl : t.fctrl = s.fctrl
  regs : t.fr = s.fr
  top : t.ftop = if pop then (s.ftop + 1) % 8 else s.ftop
  tags : ∀ j, t.tags j = if pop ∧ j = s.ftop % 8 then 3#8 else s.tags j

end Verif.FpuMem
