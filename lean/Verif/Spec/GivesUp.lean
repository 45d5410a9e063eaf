import Verif.Spec.Frame
import Verif.Model.Step
/-
The instructions at which the emulator gives up instead of executing them.
-/
namespace Verif.Seg.Spec

/-- A descriptor of a task: available TSS of 16 or 32 bits, task gate. -/
def isTask (d : BitVec 64) : Prop := isSeg d = false ∧ (d.extractLsb' 40 4 = 1#4 ∨ d.extractLsb' 40 4 = 5#4 ∨ d.extractLsb' 40 4 = 9#4)

/-- The instruction asks for a hardware task switch, or for page tables with 64 bit entries. -/
def Unsupported (s : Cpu) : Op → Prop
  | .farJmp sel _ _ => mode s.r = .prot ∧ ¬ nullSel sel ∧ isTask (descAt s sel)
  | .farCall sel _ _ _ => mode s.r = .prot ∧ ¬ nullSel sel ∧ isTask (descAt s sel)
  | .iret _ => mode s.r = .prot ∧ s.r.eflags[14] = true
  | .movCr i n => level s.r = 0#2 ∧ (i = 1 ∨ (i = 4 ∧ n[5] = true ∧ n.extractLsb' 11 21 = 0#21))
  | _ => False

/-- The descriptor a far transfer names is inside its table and may be read. -/
def Reads (acc : Acc) (s : Cpu) : Op → Prop
  | .farJmp sel _ _ => TableFits s.r sel ∧ InTable s.r sel ∧ acc s (descAddr s.r sel) 8 false 2 = true
  | .farCall sel _ _ _ => TableFits s.r sel ∧ InTable s.r sel ∧ acc s (descAddr s.r sel) 8 false 2 = true
  | _ => True

/-- The vector lies inside the interrupt table, and its gate is a task gate. -/
def TaskGate (s : Cpu) (idx : Nat) : Prop :=
  mode s.r ≠ .real ∧ idx * 8 + 7 ≤ s.r.idtLimit.toNat ∧ (gateAt s idx).extractLsb' 40 5 = 5#5

end Verif.Seg.Spec
