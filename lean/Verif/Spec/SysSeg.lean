import Verif.Spec.Desc
import Verif.Spec.Mode
/-
LTR, LLDT, VERR and VERW (SDM vol. 2): which selectors are accepted, from the registers and the tables in memory.
-/
namespace Verif.Seg.Spec

/-- S bit and type of a descriptor. -/
def kindOf (d : BitVec 64) : BitVec 5 := d.extractLsb' 40 5

/-- What is wrong with loading a system segment register: the exception and its error code. `null` and `ok` say what
a null selector means and which types are accepted. -/
def sysFault (null : Option (Nat × BitVec 16)) (ok : BitVec 5 → Bool) (s : Cpu) (sel : BitVec 16) : Option (Nat × BitVec 16) :=
  if mode s.r ≠ .prot then some (6, 0#16)
  else if level s.r ≠ 0#2 then some (13, 0#16)
  else if sel.toNat < 4 then null
  else if sel[2] = true then some (13, errOf sel)
  else if ¬ sel.toNat / 8 * 8 + 7 ≤ (tableLimit s.r sel).toNat then some (13, errOf sel)
  else if ok (kindOf (descAt s sel)) = false then some (13, errOf sel)
  else if present (descAt s sel) = false then some (11, errOf sel)
  else none

/-- LTR: not null, an available TSS (16 or 32 bit). -/
def ltrFault : Cpu → BitVec 16 → Option (Nat × BitVec 16) := sysFault (some (13, 0#16)) fun k => k == 1#5 || k == 9#5
/-- LLDT: null is allowed, otherwise an LDT. -/
def lldtFault : Cpu → BitVec 16 → Option (Nat × BitVec 16) := sysFault none fun k => k == 2#5

/-- The descriptor a selector names is in its table. -/
def Names (s : Cpu) (sel : BitVec 16) : Prop := ¬ nullSel sel ∧ InTable s.r sel

end Verif.Seg.Spec
