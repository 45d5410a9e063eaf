import Verif.Model.Emit
import Verif.Spec.Flags
/-
Specification of the integer instructions whose emitted host code is modelled: operands, which
accesses they make, what they compute and which flags they set.  Nothing here mentions host
registers or the order of the emitted code.
-/
namespace Verif.Emit.Spec
open Host Guest Flags.Spec

/-- An operand of a guest instruction. -/
inductive Opd where
  | reg (r : GReg)
  | mem (a : BitVec 32)
  | imm (v : BitVec 64)

/-- The r/m operand as an operand. -/
def ofRm : Rm → Opd
  | .reg r => .reg r
  | .mem a => .mem a

/-- The destination of a two-operand instruction. -/
def dst (rm : Rm) : Form → Opd
  | .rmR _ => ofRm rm
  | .rRm d => .reg d
  | .rmImm _ => ofRm rm

/-- Its source. -/
def src (rm : Rm) : Form → Opd
  | .rmR s => .reg s
  | .rRm _ => ofRm rm
  | .rmImm v => .imm v

/-- The value of an operand at size `z`; memory is little endian. -/
def Opd.get (g : G) (z : Sz) : Opd → BitVec z.bits
  | .reg r => rdG g z r
  | .mem a => BitVec.ofNat z.bits (load g.mem a z.bytes)
  | .imm v => v.setWidth z.bits

/-- The state after assigning to an operand. -/
def Opd.set (g : G) (z : Sz) (v : BitVec z.bits) : Opd → G
  | .reg r => wrG g z r v
  | .mem a => { g with mem := store g.mem a z.bytes v.toNat }
  | .imm _ => g

/-- Whether the operand may be read, or written. -/
def Opd.ok (e : Env) (z : Sz) (w : Bool) : Opd → Bool
  | .mem a => e.ok a z.bytes w
  | _ => true

/-- Whether all accesses of the instruction are allowed: both operands are read and, if the
instruction writes, the destination is written. -/
def allowed (e : Env) (z : Sz) (writes : Bool) (d s : Opd) : Bool :=
  d.ok e z false && s.ok e z false && (!writes || d.ok e z true)

/-- The carry as a number. -/
def carry (n : Nat) (c : Bool) : BitVec n := (BitVec.ofBool c).setWidth n

/-- What the instruction computes; `c` is CF before it. -/
def result {n : Nat} (o : Op) (c : Bool) (a b : BitVec n) : BitVec n :=
  match o with
  | .add => a + b
  | .adc => a + b + carry n c
  | .sub => a - b
  | .cmp => a - b
  | .sbb => a - b - carry n c
  | .and => a &&& b
  | .test => a &&& b
  | .or => a ||| b
  | .xor => a ^^^ b

/-- The flags after it. -/
def FlagsAfter {n : Nat} (o : Op) (c : Bool) (a b : BitVec n) (f : Flags) : Prop :=
  match o with
  | .add => f = addFlags a b false
  | .adc => f = addFlags a b c
  | .sub => f = subFlags a b false
  | .cmp => f = subFlags a b false
  | .sbb => f = subFlags a b c
  | .and => LogicFlags (a &&& b) f
  | .test => LogicFlags (a &&& b) f
  | .or => LogicFlags (a ||| b) f
  | .xor => LogicFlags (a ^^^ b) f

/-- Same registers and memory, same flags other than the arithmetic ones. -/
def SameButFlags (g g' : G) : Prop := g'.gpr = g.gpr ∧ g'.mem = g.mem ∧ g'.fl.eflags = g.fl.eflags

end Verif.Emit.Spec
