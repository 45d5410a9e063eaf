import Verif.Model.Step
/-
The instructions on selectors and descriptor table registers that are not part of the mode: LGDT, LIDT, SGDT, SIDT
(core/emitter/x64/jit.cpp 3417-3474, 3507-3560), SLDT and STR (3561-3581), VERR and VERW (3590-3616), ARPL (4614-4694).
The lazy encoding of ZF is that of C27; here ZF is a value.
-/
namespace Verif.Seg

/-- jit.cpp 3455-3473: load base and limit into IDTR (`idt`) or GDTR. -/
def lgdtSet (idt : Bool) (base lim : BitVec 32) (r : Regs) : Regs :=
  if idt then { r with idtBase := base, idtLimit := lim } else { r with gdtBase := base, gdtLimit := lim }

/-- jit.cpp 3441-3474: LGDT (`idt` false) and LIDT, with an operand of `w` bytes (2 or 4) at linear address `a`. -/
def lgdt (acc : Acc) (idt : Bool) (w : Nat) (a : BitVec 32) : M Unit := do
  let r ← getR
  check (r.hflags &&& H_CPL != 0#32) (.exc GP 0#16)
  let lim ← rd acc a 2 0
  let b ← rd acc (a + 2#32) 4 0
  let base := if w = 2 then BitVec.ofNat 32 b &&& 0xFFFFFF#32 else BitVec.ofNat 32 b
  modR (lgdtSet idt base (BitVec.ofNat 32 lim))

/-- jit.cpp 3532-3542: gp_exp_check, CR4.UMIP. -/
def umip (r : Regs) : Bool := r.hflags &&& H_CPL != 0#32 && r.cr4 &&& 0x800#32 != 0#32

/-- jit.cpp 3544-3563: SGDT (`idt` false) and SIDT. -/
def sgdt (acc : Acc) (idt : Bool) (a : BitVec 32) : M Unit := do
  let r ← getR
  check (umip r) (.exc GP 0#16)
  wr acc a 2 0 (if idt then r.idtLimit else r.gdtLimit).toNat
  wr acc (a + 2#32) 4 0 (if idt then r.idtBase else r.gdtBase).toNat

/-- jit.cpp 3564-3581: SLDT (`tr` false) and STR to a register; the result is the new value of the 32 bit register. -/
def sldtReg (tr : Bool) : M (BitVec 32) := do
  let r ← getR
  check (r.eflags &&& 0x20000#32 != 0#32) (.exc 6 0#16)
  check (umip r) (.exc GP 0#16)
  pure ((if tr then r.tr.sel else r.ldtr.sel).setWidth 32)

/-- jit.cpp 3590-3616, verx: VERR and VERW as an instruction; the result is ZF. -/
def verx (acc : Acc) (isVerr : Bool) (sel : BitVec 16) : M Bool := do
  let r ← getR
  check (r.eflags &&& 0x20000#32 != 0#32) (.exc 6 0#16)
  verrw acc isVerr sel

/-- jit.cpp 4614-4694: ARPL of a register or memory operand; `none` is that the destination is not written. -/
def arpl (dst src : BitVec 16) : Option (BitVec 16) × Bool :=
  if dst &&& 3#16 < src &&& 3#16 then (some ((dst &&& ~~~3#16) ||| (src &&& 3#16)), true) else (none, false)

end Verif.Seg
