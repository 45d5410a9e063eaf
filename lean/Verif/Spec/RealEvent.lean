import Verif.Spec.IretFlags
/-
Events in real mode (SDM vol. 3, 20.1.4): the interrupt table has entries of four bytes, offset and selector; FLAGS, CS and IP are
pushed as words; IF, TF, RF and AC are cleared.
-/
namespace Verif.Seg.Spec
open Guest (load)

/-- The entry of vector `idx` is inside the interrupt table. -/
def InIvt (r : Regs) (idx : Nat) : Prop := idx * 4 + 3 ≤ r.idtLimit.toNat

/-- Linear address of the entry of vector `idx`. -/
def ivtAddr (r : Regs) (idx : Nat) : BitVec 32 := r.idtBase + BitVec.ofNat 32 (idx * 4)

/-- The handler of vector `idx` was entered from `s` in real mode. -/
structure RealEntered (s s1 : Cpu) (idx : Nat) : Prop where
  mode : mode s1.r = .real
  eip : s1.r.eip.toNat = load s.mem (ivtAddr s.r idx) 2
  cs : s1.r.cs.sel.toNat = load s.mem (ivtAddr s.r idx + 2#32) 2
  csBase : s1.r.cs.base.toNat = s1.r.cs.sel.toNat * 16
  csRest : s1.r.cs.limit = s.r.cs.limit ∧ s1.r.cs.flags = s.r.cs.flags
  /-- the frame, and the stack pointer below it; the upper half of ESP stays -/
  frame : stackItem s1 2 0 = s.r.eip.toNat % 65536 ∧ stackItem s1 2 1 = s.r.cs.sel.toNat ∧
    stackItem s1 2 2 = (flagsWord s.r).toNat % 65536
  esp : espAfter s1.r 2 3 = s.r.esp
  high : s1.r.esp.extractLsb' 16 16 = s.r.esp.extractLsb' 16 16
  flags : ∀ (i : Nat) (h : i < 32), s1.r.eflags[i] = if i = 8 ∨ i = 9 ∨ i = 16 ∨ i = 18 then false else s.r.eflags[i]
  arith : s1.r.arith = s.r.arith
  segs : s1.r.ss = s.r.ss ∧ s1.r.ds = s.r.ds ∧ s1.r.es = s.r.es ∧ s1.r.fs = s.r.fs ∧ s1.r.gs = s.r.gs ∧
    s1.r.ldtr = s.r.ldtr ∧ s1.r.tr = s.r.tr
  ctrl : s1.r.cr0 = s.r.cr0 ∧ s1.r.cr2 = s.r.cr2 ∧ s1.r.cr3 = s.r.cr3 ∧ s1.r.cr4 = s.r.cr4 ∧ s1.r.gdtBase = s.r.gdtBase ∧
    s1.r.gdtLimit = s.r.gdtLimit ∧ s1.r.idtBase = s.r.idtBase ∧ s1.r.idtLimit = s.r.idtLimit
  /-- a debug exception disables the general detection of DR accesses -/
  dr7 : ∀ (i : Nat) (h : i < 32), s1.r.dr7[i] = if idx = 1 ∧ i = 13 then false else s.r.dr7[i]
  /-- only the six bytes of the frame are written -/
  mem : ∀ x : BitVec 32, (∀ i, i < 3 → 2 ≤ (x - stackAddr s1.r 2 i).toNat) → s1.mem x = s.mem x

/-- A handler entered in `s1` in real mode is about to return in `s2`: same stack, frame as it was. -/
structure RealDone (s1 s2 : Cpu) : Prop where
  agree : AgreeCore s2.r
  real : mode s2.r = .real
  novm : s2.r.eflags[17] = false
  wf : FlagsWf s2.r
  ss : s2.r.ss = s1.r.ss
  esp : s2.r.esp = s1.r.esp
  frame : ∀ i, i < 3 → stackItem s2 2 i = stackItem s1 2 i

/-- The program interrupted in `s` goes on in `s3`: next instruction, stack and the flags that a 16 bit image holds. -/
structure RealResumed (s s3 : Cpu) : Prop where
  mode : mode s3.r = .real
  eip : s3.r.eip.toNat = s.r.eip.toNat % 65536
  cs : s3.r.cs.sel = s.r.cs.sel
  csBase : s3.r.cs.base.toNat = s.r.cs.sel.toNat * 16
  esp : s3.r.esp = s.r.esp
  ss : s3.r.ss = s.r.ss
  flags : ∀ i ∈ [0, 1, 2, 4, 6, 7, 8, 9, 10, 11, 12, 13, 14], (flagsWord s3.r).getLsbD i = (flagsWord s.r).getLsbD i

end Verif.Seg.Spec
