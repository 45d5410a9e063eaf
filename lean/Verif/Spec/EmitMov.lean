import Verif.Spec.Emit
import Verif.Model.EmitMov
/-
Specification of the stack instructions, by the SDM: a stack has 2^16 or 2^32 offsets; the stack pointer is SP or ESP; an item of `k` bytes
is pushed at the offset of the stack pointer minus `k`, and popped from the offset of the stack pointer.
-/
namespace Verif.Emit.Spec
open Host Guest

/-- The number of offsets of the stack. -/
def spMod (s : Ss) : Nat := if s.ss32 then 2 ^ 32 else 2 ^ 16

/-- The offset of the top of the stack: SP or ESP. -/
def spOff (s : Ss) (g : G) : Nat := (g.gpr 4).toNat % spMod s

/-- The offset `n` below, or above, the top. -/
def down (s : Ss) (g : G) (n : Nat) : Nat := (spOff s g + spMod s - n) % spMod s
def up (s : Ss) (g : G) (n : Nat) : Nat := (spOff s g + n) % spMod s

/-- The linear address of an offset. -/
def slot (e : Env) (o : Nat) : BitVec 32 := BitVec.ofNat 32 o + e.seg 2

/-- What the emitter assumes of a stack segment with base zero is right. -/
def FlatOk (e : Env) (s : Ss) : Prop := s.flat = true → e.seg 2 = 0#32

/-- `g'` is `g` with the top of the stack at offset `o` and with memory `m`: with a 16 bit stack the upper half of ESP stays. -/
structure SpAt (s : Ss) (g g' : G) (o : Nat) (m : Mem) : Prop where
  off : spOff s g' = o
  high : s.ss32 = false → (g'.gpr 4).toNat / 2 ^ 16 = (g.gpr 4).toNat / 2 ^ 16
  regs : ∀ i, i ≠ 4 → g'.gpr i = g.gpr i
  flags : g'.fl = g.fl
  mem : g'.mem = m

/-- The operand of PUSH: whether it may be read, and the value pushed; a selector is zero extended. -/
def PushOp.ok (e : Env) (z : Sz) : PushOp → Bool
  | .mem a => e.ok a.lin z.bytes false
  | _ => true
def PushOp.val (e : Env) (g : G) (z : Sz) : PushOp → BitVec z.bits
  | .reg r => rdG g z r
  | .mem a => BitVec.ofNat z.bits (load g.mem a.lin z.bytes)
  | .imm v => v.setWidth z.bits
  | .sel i => (e.sel i).setWidth z.bits

end Verif.Emit.Spec
