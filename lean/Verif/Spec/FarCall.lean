import Verif.Spec.Frame
/-
What a far call leaves on the stack and what it means that a procedure returns.
-/
namespace Verif.Seg.Spec

/-- The frame of a far call, items of `w` bytes: return address, code segment of the caller; on a change of level the `n` parameters, then
stack pointer and stack segment of the caller. -/
structure CallFrame (s s1 : Cpu) (w n : Nat) (ret : BitVec 32) : Prop where
  eip : stackItem s1 w 0 = ret.toNat % 256 ^ w
  cs : stackItem s1 w 1 = s.r.cs.sel.toNat
  params : level s1.r < level s.r → ∀ i, i < n → stackItem s1 w (2 + i) = stackItem s w i
  esp : level s1.r < level s.r → stackItem s1 w (2 + n) = s.r.esp.toNat % 256 ^ w
  ss : level s1.r < level s.r → stackItem s1 w (2 + n + 1) = s.r.ss.sel.toNat
  /-- without a change of level the frame is on the caller's own stack, right below its top -/
  same : ¬ level s1.r < level s.r → s1.r.ss = s.r.ss ∧ espAfter s1.r w 2 = s.r.esp

/-- The `n` items on top of the stack do not overlap the 8 byte descriptor at `a`. -/
def FrameApart (r : Regs) (w n : Nat) (a : BitVec 32) : Prop :=
  ∀ i, i < n → ∀ j, j < w → 8 ≤ (stackAddr r w i + BitVec.ofNat 32 j - a).toNat

/-- The `n` parameters on top of the caller's stack do not overlap the frame that the call builds on the other stack. -/
def ParamsApart (r r1 : Regs) (w n : Nat) : Prop :=
  ∀ i, i < n → ∀ j, j < w → ∀ t, t < n + 4 → w ≤ (stackAddr r w i + BitVec.ofNat 32 j - stackAddr r1 w t).toNat

/-- Number of parameters of a call gate. -/
def gateParams (g : BitVec 64) : Nat := (g.extractLsb' 32 5).toNat

/-- Size of the items that a call gate pushes. -/
def gateWidth (g : BitVec 64) : Nat := if g[43] then 4 else 2

/-- Two pushes of `w` bytes stay where 16 and 32 bit arithmetic agree, or the stack and the operand have 32 bits. -/
def Roomy (r : Regs) (w : Nat) : Prop :=
  (stack32 r = true ∧ w = 4) ∨ (2 * w ≤ r.esp.toNat ∧ r.esp.toNat < 65536)

/-- A procedure called in `s1` is about to return in `s2`: same level, stack and flags of the mode; the frame as it was. -/
structure ProcDone (s1 s2 : Cpu) : Prop where
  agree : AgreeCore s2.r
  prot : mode s2.r = .prot
  same_level : level s2.r = level s1.r
  ss : s2.r.ss = s1.r.ss
  esp : s2.r.esp = s1.r.esp
  frame : ∀ i, i < 4 → stackItem s2 4 i = stackItem s1 4 i

/-- The caller goes on in `s3` at `ret`, with its own code segment, level and stack; nothing else that the return instruction itself could have
touched is changed since `s2` (data segment registers: C37). -/
structure BackIn (s s1 s2 s3 : Cpu) (ret : BitVec 32) : Prop where
  prot : mode s3.r = .prot
  same_level : level s3.r = level s.r
  eip : s3.r.eip = ret
  flags : s3.r.eflags = s2.r.eflags ∧ s3.r.arith = s2.r.arith
  cs : Holds s3.r.cs s.r.cs.sel (descAt s2 s.r.cs.sel)
  same : ¬ level s1.r < level s.r → s3.r.ss = s.r.ss ∧ s3.r.esp = s.r.esp
  outer : level s1.r < level s.r → Holds s3.r.ss s.r.ss.sel (descAt s2 s.r.ss.sel) ∧
    ((descAt s2 s.r.ss.sel)[54] = true → s3.r.esp = s.r.esp) ∧
    (s3.r.esp.setWidth 16 : BitVec 16) = s.r.esp.setWidth 16

/-- ESP with `imm` more bytes taken off the stack; on a 16 bit stack the upper half stays. -/
def dropped (r : Regs) (imm : BitVec 16) : BitVec 32 :=
  if stack32 r then r.esp + imm.setWidth 32 else r.esp.extractLsb' 16 16 ++ ((r.esp.setWidth 16 : BitVec 16) + imm)

end Verif.Seg.Spec
