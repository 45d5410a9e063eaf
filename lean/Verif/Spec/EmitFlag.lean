import Verif.Spec.EmitMov
import Verif.Spec.EmitMore
import Verif.Spec.BitTest
import Verif.Model.EmitFlag
import Verif.Lemmas.Flags
/-
Specification of LAHF, SAHF, the bit tests, PUSHF, POPF, DIV, IDIV and the decimal adjustments, by the SDM.
-/
namespace Verif.Emit.Spec
open Host Guest

/-- AL, AH, AX, EAX and DX, EDX. -/
def lowAcc : GReg := ⟨0, false⟩
def highAcc : GReg := ⟨0, true⟩
def edxReg : GReg := ⟨2, false⟩

/-- The flags after SAHF with AH = `v`; OF stays. -/
def sahfFlags (v : BitVec 8) (of : Bool) : Flags.Spec.Flags :=
  ⟨v.getLsbD 0, v.getLsbD 2, v.getLsbD 4, v.getLsbD 6, v.getLsbD 7, of⟩

/-- The bit instruction with this number in its encoding. -/
def bitOp : Fin 4 → BitTest.Spec.Op
  | 0 => .bt
  | 1 => .btc
  | 2 => .btr
  | 3 => .bts

/-- The bit number as it is given: a register, or an 8 bit immediate. -/
def bitGiven (g : G) (z : Sz) : BitSrc → Nat
  | .reg r => (rdG g z r).toNat
  | .imm v => (v.setWidth 8 : BitVec 8).toNat

/-- Bit `i` of what PUSHF pushes, of the flags word `w`: the low half; with 32 bit operands without RF and VM (and the bits that do not
exist); under the virtual 8086 mode extensions with IF standing for VIF and IOPL shown as 3. -/
def pushfBit (z : Sz) (vme : Bool) (w : BitVec 32) (i : Nat) : Bool :=
  if vme then (if i = 9 then w.getLsbD 19 else if i = 12 ∨ i = 13 then true else w.getLsbD i)
  else if z = .w then w.getLsbD i
  else w.getLsbD i && decide (i < 24 ∧ i ≠ 16 ∧ i ≠ 17)

/-- What POPF may change outside virtual 8086 mode: TF, DF, NT always; IF only when CPL ≤ IOPL; IOPL only at CPL 0; AC and ID only with
32 bit operands; nothing else. -/
def mayPop (cpl iopl : Nat) (z : Sz) (i : Nat) : Prop :=
  i = 8 ∨ i = 10 ∨ i = 14 ∨ (i = 9 ∧ cpl ≤ iopl) ∨ ((i = 12 ∨ i = 13) ∧ cpl = 0) ∨ ((i = 18 ∨ i = 21) ∧ z = .d)

/-- IOPL in a flags word. -/
def ioplOf (w : BitVec 32) : Nat := w.toNat / 2 ^ 12 % 4

/-- POPF under the virtual 8086 mode extensions raises #GP if interrupts would be enabled with one pending, or if TF would be set: `w` is
EFLAGS, `v` the popped word. -/
def vmeRefuses (w v : BitVec 32) : Prop := (w.getLsbD 20 = true ∧ v.getLsbD 9 = true) ∨ v.getLsbD 8 = true

/-- The dividend: AX, DX:AX, EDX:EAX. -/
def dividend (signed : Bool) (z : Sz) (g : G) : Int :=
  if z = .b then (if signed then (rdG g .w lowAcc).toInt else ((rdG g .w lowAcc).toNat : Int))
  else (if signed then (rdG g z edxReg).toInt else ((rdG g z edxReg).toNat : Int)) * 2 ^ z.bits + ((rdG g z lowAcc).toNat : Int)

/-- An operand as a number. -/
def asInt (signed : Bool) {n : Nat} (v : BitVec n) : Int := if signed then v.toInt else (v.toNat : Int)

/-- Quotient and remainder go to AL and AH, AX and DX, EAX and EDX. -/
def setDiv (g : G) (z : Sz) (q r : Int) : G :=
  if z = .b then wrG (wrG g .b lowAcc (BitVec.ofInt 8 q)) .b highAcc (BitVec.ofInt 8 r)
  else wrG (wrG g z lowAcc (BitVec.ofInt z.bits q)) z edxReg (BitVec.ofInt z.bits r)

/-- `g'` is `g` with other AL, AH and arithmetic flags. -/
structure Adjusted (g g' : G) : Prop where
  high : g'.gpr 0 >>> 16 = g.gpr 0 >>> 16
  regs : ∀ i, i ≠ 0 → g'.gpr i = g.gpr i
  mem : g'.mem = g.mem
  system : g'.fl.eflags = g.fl.eflags

/-- SF, ZF and PF from AL. -/
def AlFlags (g : G) : Prop :=
  (Flags.flags g.fl).zf = decide (rdG g .b lowAcc = 0#8) ∧ (Flags.flags g.fl).sf = (rdG g .b lowAcc).msb ∧
  (Flags.flags g.fl).pf = Flags.Spec.parityEven (rdG g .b lowAcc)

end Verif.Emit.Spec
