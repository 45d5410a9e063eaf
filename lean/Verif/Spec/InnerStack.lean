import Verif.Spec.Vm86Event
/-
The stack of a more privileged level (SDM vol. 3, 5.8.5 and 6.12.1): its segment and pointer are in the TSS of the current task, at the place for
that level.
-/
namespace Verif.Seg.Spec
open Guest (load store)

/-- Offset in the TSS of the stack pointer of level `l`. -/
def slot (r : Regs) (l : BitVec 2) : Nat := if tss32 r then 4 + 8 * l.toNat else 2 + 4 * l.toNat

/-- Size of a stack pointer in the TSS. -/
def slotWidth (r : Regs) : Nat := if tss32 r then 4 else 2

/-- The stack pointer of level `l` in the TSS. -/
def tssEsp (s : Cpu) (l : BitVec 2) : Nat := load s.mem (s.r.tr.base + BitVec.ofNat 32 (slot s.r l)) (slotWidth s.r)

/-- The stack segment of level `l` in the TSS. -/
def tssSs (s : Cpu) (l : BitVec 2) : BitVec 16 := BitVec.ofNat 16 (load s.mem (s.r.tr.base + BitVec.ofNat 32 (slot s.r l + slotWidth s.r)) 2)

/-- The TSS is long enough to have a stack for level `l`. -/
def HasSlot (r : Regs) (l : BitVec 2) : Prop := slot r l + 2 * slotWidth r ≤ r.tr.limit.toNat + 1

/-- The stack that the TSS names for level `l` in the state `t` can be used: it is in the TSS, and its segment is a present, writable data segment of
that level. -/
structure TaskStack (t : Cpu) (l : BitVec 2) : Prop where
  slot : HasSlot t.r l
  nonNull : ¬ nullSel (tssSs t l)
  table : TableFits t.r (tssSs t l) → InTable t.r (tssSs t l)
  seg : StackSeg (tssSs t l) (descAt t (tssSs t l)) l
  present : present (descAt t (tssSs t l)) = true

/-- In `s1` the program runs on the stack that the TSS names for level `l` in the state `t`, with `n` bytes on it. -/
structure OnTaskStack (t s1 : Cpu) (l : BitVec 2) (n : Nat) : Prop where
  stack : TaskStack t l
  ss : Holds s1.r.ss (tssSs t l) (descAt t (tssSs t l))
  esp : if stack32 s1.r then s1.r.esp + BitVec.ofNat 32 n = BitVec.ofNat 32 (tssEsp t l)
    else (s1.r.esp + BitVec.ofNat 32 n).toNat % 65536 = tssEsp t l % 65536

end Verif.Seg.Spec
