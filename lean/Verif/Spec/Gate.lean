import Verif.Spec.Frame
/-
The checks on the way to the handler of an event, from the registers and the tables in memory.
-/
namespace Verif.Seg.Spec

/-- S bit and type of a gate. -/
def gateKind (g : BitVec 64) : BitVec 5 := g.extractLsb' 40 5
/-- Interrupt and trap gates, 16 and 32 bit. -/
def EventGate (g : BitVec 64) : Prop := gateKind g = 6#5 ∨ gateKind g = 7#5 ∨ gateKind g = 14#5 ∨ gateKind g = 15#5
/-- The EXT bit of an error code: set unless the event is a software interrupt. -/
def extBit (sw : Bool) : BitVec 16 := if sw then 0#16 else 1#16
/-- The error code of a bad gate: its index, the IDT bit, EXT. -/
def gateErr (sw : Bool) (idx : Nat) : BitVec 16 := BitVec.ofNat 16 (idx * 8 + 2) + extBit sw

instance (g : BitVec 64) : Decidable (EventGate g) := by unfold EventGate; infer_instance
instance (sel : BitVec 16) : Decidable (nullSel sel) := by unfold nullSel; infer_instance
instance (r : Regs) (sel : BitVec 16) : Decidable (InTable r sel) := by unfold InTable; infer_instance

/-- What is wrong with the gate of vector `idx`: the exception to raise instead and its error code. -/
def gateFault (s : Cpu) (sw : Bool) (idx : Nat) : Option (Nat × BitVec 16) :=
  if s.r.idtLimit.toNat < idx * 8 + 7 then some (13, gateErr sw idx)
  else if ¬ EventGate (gateAt s idx) then some (13, gateErr sw idx)
  else if sw = true ∧ dpl (gateAt s idx) < level s.r then some (13, gateErr sw idx)
  else if present (gateAt s idx) = false then some (11, gateErr sw idx)
  else if nullSel (gateSel (gateAt s idx)) then some (13, extBit sw)
  else none

/-- What is wrong with the code segment of the handler. -/
def handlerFault (s : Cpu) (sw : Bool) (sel : BitVec 16) : Option (Nat × BitVec 16) :=
  if ¬ InTable s.r sel then some (13, errOf sel + extBit sw)
  else if level s.r < dpl (descAt s sel) then some (13, errOf sel + extBit sw)
  else if present (descAt s sel) = false then some (11, errOf sel + extBit sw)
  else none

end Verif.Seg.Spec
