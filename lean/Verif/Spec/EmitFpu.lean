/-
Reference for C111: what each x87 instruction is to compute, in terms of what the host's FPU computes for the guest's operands with the
guest's rounding and precision control and all exceptions masked.  The operations (Op) are those whose effect on the registers C77 describes.
-/
import Verif.Model.EmitFpu

namespace Verif.EmitFpu.Spec
open Verif.Fpu Verif.EmitFpu

/-- The guest's control word with all exceptions masked. -/
def cwOf (s : St) : BitVec 16 := s.fctrl ||| 0x3F#16

/-- ST(n). -/
def stn (s : St) (n : Nat) : BitVec 80 := s.fr ((s.ftop + n) % 8)

/-- The instruction with the value and the flags it is to have; `m` is the memory operand. -/
def means (A : Alu) (s : St) (m : BitVec 80) : Ins → Op
  | .const k => .ldConst (A.const k (cwOf s))
  | .fldReg i => .ldReg i
  | .fldMem f => let r := A.ld f (cwOf s) m
    if f.isInt then .ldConst r.1 else .ldMem r.1 r.2
  | .fstReg i pop => .stReg i pop
  | .fstMem f pop => .stMem (A.st f (cwOf s) (stn s 0)).2 pop
  | .arith o .d8 i => let r := A.bin o (cwOf s) (stn s 0) (stn s i)
    .arithReg i false false r.1 r.2
  | .arith o .dc i => let r := A.bin o (cwOf s) (stn s i) (stn s 0)
    .arithReg i true false r.1 r.2
  | .arith o .de i => let r := A.bin o (cwOf s) (stn s i) (stn s 0)
    .arithReg i true true r.1 r.2
  | .arithMem o f => let r := A.binM o f (cwOf s) (stn s 0) m
    .arithSt0 r.1 r.2 false
  | .un .sqrt => let r := A.un .sqrt (cwOf s) (stn s 0)
    .arithSt0 r.1 r.2 false
  | .un u => let r := A.un u (cwOf s) (stn s 0)
    .arithSt0 r.1 r.2 true
  | .chs => .fchs (A.chs (stn s 0))
  | .comReg i pops => .fcom (some i) pops (A.com (cwOf s) (stn s 0) (stn s i))
  | .comMem f pops => .fcom none pops (A.comM f (cwOf s) (stn s 0) m)
  | .patan => let r := A.patan (cwOf s) (stn s 0) (stn s 1)
    .fpatan r.1 r.2
  | .sincos => let r := A.sincos (cwOf s) (stn s 0)
    .fsincos r.1 r.2.1 r.2.2
  | .xch i => .fxch i

/-- The operand of FSIN, FCOS or FSINCOS is out of range: the host sets C2. -/
def Far (A : Alu) (s : St) : Ins → Prop
  | .un .sin => (A.un .sin (cwOf s) (stn s 0)).2.getLsbD 10 = true
  | .un .cos => (A.un .cos (cwOf s) (stn s 0)).2.getLsbD 10 = true
  | .sincos => (A.sincos (cwOf s) (stn s 0)).2.2.getLsbD 10 = true
  | _ => False

/-- Register numbers have three bits. -/
def Coded : Ins → Prop
  | .fldReg i | .fstReg i _ | .arith _ _ i | .comReg i _ | .xch i => i < 8
  | _ => True

/-- The guest's FPU and the host's as they are before an instruction: TOP has three bits, the host runs with the guest's control word,
and the host's registers are empty, as its calling convention demands. -/
structure Ready (h : H) : Prop where
  top : h.g.ftop < 8
  frp : h.frp = cwOf h.g
  stk : h.stk = []

/-- The host's control word is what it was, and its registers are empty. -/
def HostKept (h h' : H) : Prop := h'.cw = h.cw ∧ h'.stk = []

end Verif.EmitFpu.Spec
