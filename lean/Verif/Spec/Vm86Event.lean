import Verif.Spec.RealEvent
import Verif.Spec.Accessed
/-
Events in vm86 mode (SDM vol. 3, 22.2.3, 22.3 and table 22-2): interrupts and exceptions go to a handler of level 0 in protected mode,
whose frame also holds the four data segments; INT n with CR4.VME and a clear bit of the redirection map goes to the handler that the
program's own interrupt table at linear address 0 names.
-/
namespace Verif.Seg.Spec
open Guest (load store)

/-- The current task has a 32 bit TSS: bit 11 of the access rights cached in TR. -/
def tss32 (r : Regs) : Bool := r.tr.flags[11]

/-- The stack pointer of level 0 in the TSS. -/
def esp0 (s : Cpu) : Nat := if tss32 s.r then load s.mem (s.r.tr.base + 4#32) 4 else load s.mem (s.r.tr.base + 2#32) 2

/-- The stack segment of level 0 in the TSS. -/
def ss0 (s : Cpu) : BitVec 16 := BitVec.ofNat 16 (load s.mem (s.r.tr.base + (if tss32 s.r then 8#32 else 4#32)) 2)

/-- `t` is `s` with the descriptor of `sel` marked as accessed. -/
def Marked (s t : Cpu) (sel : BitVec 16) : Prop := t.r = s.r ∧ t.mem = mark s.mem (descAddr s.r sel) (descAt s sel)

/-- A handler of level 0 was entered from the vm86 program `s` through the gate `g` of vector `idx`; `c` items of error code. `t` is the
state in which the TSS was read. The selector in CS is left out. -/
structure V86Entered (s t s1 : Cpu) (g : BitVec 64) (idx : Nat) (cr2 : BitVec 32) (w c : Nat) : Prop where
  mode : mode s1.r = .prot
  level : level s1.r = 0#2
  eip : s1.r.eip = if g[43] then gateOff g else (gateOff g).extractLsb' 0 16 |>.setWidth 32
  cs : s1.r.cs.base = base (descAt s (gateSel g)) ∧ s1.r.cs.limit.toNat = limit (descAt s (gateSel g)) ∧
    s1.r.cs.flags = rights (descAt s (gateSel g))
  csDpl : dpl (descAt s (gateSel g)) = 0#2 ∧ conforming (descAt s (gateSel g)) = false
  ss : Holds s1.r.ss (ss0 t) (descAt t (ss0 t))
  ssOk : StackSeg (ss0 t) (descAt t (ss0 t)) 0#2 ∧ present (descAt t (ss0 t)) = true
  data : s1.r.ds = ⟨0, 0, 0, 0⟩ ∧ s1.r.es = ⟨0, 0, 0, 0⟩ ∧ s1.r.fs = ⟨0, 0, 0, 0⟩ ∧ s1.r.gs = ⟨0, 0, 0, 0⟩
  frame : stackItem s1 w c = s.r.eip.toNat % 256 ^ w ∧ stackItem s1 w (c + 1) = s.r.cs.sel.toNat ∧
    stackItem s1 w (c + 2) = (flagsWord s.r).toNat % 256 ^ w ∧ stackItem s1 w (c + 3) = s.r.esp.toNat % 256 ^ w ∧
    stackItem s1 w (c + 4) = s.r.ss.sel.toNat ∧ stackItem s1 w (c + 5) = s.r.es.sel.toNat ∧
    stackItem s1 w (c + 6) = s.r.ds.sel.toNat ∧ stackItem s1 w (c + 7) = s.r.fs.sel.toNat ∧
    stackItem s1 w (c + 8) = s.r.gs.sel.toNat
  /-- the frame starts at the stack pointer of the TSS -/
  esp : if stack32 s1.r then s1.r.esp + BitVec.ofNat 32 (w * (c + 9)) = BitVec.ofNat 32 (esp0 t)
    else (s1.r.esp + BitVec.ofNat 32 (w * (c + 9))).toNat % 65536 = esp0 t % 65536
  flags : ∀ (i : Nat) (h : i < 32), s1.r.eflags[i] =
    if i = 8 ∨ i = 14 ∨ i = 16 ∨ i = 17 then false
    else if i = 9 ∧ g[40] = false then false else s.r.eflags[i]
  arith : s1.r.arith = s.r.arith
  sys : s1.r.tr = s.r.tr ∧ s1.r.ldtr = s.r.ldtr ∧ s1.r.cr0 = s.r.cr0 ∧ s1.r.cr3 = s.r.cr3 ∧ s1.r.cr4 = s.r.cr4 ∧
    s1.r.gdtBase = s.r.gdtBase ∧ s1.r.gdtLimit = s.r.gdtLimit ∧ s1.r.idtBase = s.r.idtBase ∧ s1.r.idtLimit = s.r.idtLimit
  cr2 : s1.r.cr2 = if idx = 14 then cr2 else s.r.cr2
  dr7 : ∀ (i : Nat) (h : i < 32), s1.r.dr7[i] = if idx = 1 ∧ i = 13 then false else s.r.dr7[i]

/-- Bit of vector `idx` in the redirection map: the 32 bytes below the port map of the TSS. -/
def redirBit (s : Cpu) (idx : Nat) : Bool :=
  (load s.mem (s.r.tr.base + BitVec.ofNat 32 (load s.mem (s.r.tr.base + 102#32) 2) - 32#32 + BitVec.ofNat 32 (idx / 8)) 1).testBit (idx % 8)

/-- The handler of INT `idx` in the program's own interrupt table was entered from the vm86 program `s`; what happens to IF and VIF is
stated separately. -/
structure Redirected (s s1 : Cpu) (idx : Nat) : Prop where
  mode : mode s1.r = .vm86
  /-- the frame, IP, CS and FLAGS; with IOPL below 3 its flags show VIF as IF and 3 as IOPL -/
  frame : stackItem s1 2 0 = s.r.eip.toNat % 65536 ∧ stackItem s1 2 1 = s.r.cs.sel.toNat
  image : ∀ i, i < 16 → (stackItem s1 2 2).testBit i =
    if iopl s.r = 3#2 then (flagsWord s.r).getLsbD i
    else if i = 9 then (flagsWord s.r).getLsbD 19 else if i = 12 ∨ i = 13 then true else (flagsWord s.r).getLsbD i
  esp : espAfter s1.r 2 3 = s.r.esp
  /-- the vector is read after the frame was written -/
  eip : s1.r.eip.toNat = load s1.mem (BitVec.ofNat 32 (idx * 4)) 2
  cs : s1.r.cs.sel.toNat = load s1.mem (BitVec.ofNat 32 (idx * 4) + 2#32) 2
  csBase : s1.r.cs.base.toNat = s1.r.cs.sel.toNat * 16
  csRest : s1.r.cs.limit = s.r.cs.limit ∧ s1.r.cs.flags = s.r.cs.flags
  flags : ∀ (i : Nat) (h : i < 32), i ≠ 9 → i ≠ 19 → s1.r.eflags[i] = if i = 8 then false else s.r.eflags[i]
  arith : s1.r.arith = s.r.arith
  segs : s1.r.ss = s.r.ss ∧ s1.r.ds = s.r.ds ∧ s1.r.es = s.r.es ∧ s1.r.fs = s.r.fs ∧ s1.r.gs = s.r.gs ∧
    s1.r.ldtr = s.r.ldtr ∧ s1.r.tr = s.r.tr
  ctrl : s1.r.cr0 = s.r.cr0 ∧ s1.r.cr2 = s.r.cr2 ∧ s1.r.cr3 = s.r.cr3 ∧ s1.r.cr4 = s.r.cr4 ∧ s1.r.gdtBase = s.r.gdtBase ∧
    s1.r.gdtLimit = s.r.gdtLimit ∧ s1.r.idtBase = s.r.idtBase ∧ s1.r.idtLimit = s.r.idtLimit
  mem : ∀ x : BitVec 32, (∀ i, i < 3 → 2 ≤ (x - stackAddr s1.r 2 i).toNat) → s1.mem x = s.mem x

end Verif.Seg.Spec
