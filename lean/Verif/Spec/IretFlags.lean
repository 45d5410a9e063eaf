import Verif.Spec.Frame
/-
The flags IRET may write (SDM vol. 2, IRET/IRETD): which bits of the popped image reach EFLAGS.
-/
namespace Verif.Seg.Spec

/-- CF, PF, AF, ZF, SF and OF. -/
def arithFlag (i : Nat) : Bool := [0, 2, 4, 6, 7, 11].contains i

/-- The system flags that IRET of `w` byte items, executed in mode `m` at level `l` with the given IOPL and not returning to vm86
mode, takes from the popped image. -/
def iretWrites (m : Mode) (l iopl : BitVec 2) (w i : Nat) : Bool :=
  match i with
  | 8 | 10 | 14 => true                        -- TF, DF, NT
  | 9 => m != .prot || decide (l ≤ iopl)       -- IF: only with I/O privilege
  | 12 | 13 => m == .real || (m == .prot && l == 0#2)   -- IOPL: only at level 0
  | 16 | 18 | 21 => w == 4                     -- RF, AC, ID
  | 19 | 20 => w == 4 && m == .prot && l == 0#2 -- VIF, VIP: only at level 0
  | _ => false

/-- Bit `i` of the flags after IRET popped `image`. -/
def iretFlag (r : Regs) (w : Nat) (image : Nat) (i : Nat) : Bool :=
  if i = 1 then true
  else if arithFlag i || iretWrites (mode r) (level r) (iopl r) w i then image.testBit i
  else (flagsWord r).getLsbD i

/-- The items of `w` bytes are where the stack pointer says: 16 bit items below 64 KiB on a 32 bit stack. -/
def ItemsReached (r : Regs) (w n : Nat) : Prop := w = 2 → stack32 r = true → r.esp.toNat + 2 * n < 65536

/-- A segment register loaded in vm86 mode: the base is the selector times 16, the limit 64 KiB. -/
structure V86Seg (g : SegReg) (v : Nat) : Prop where
  sel : g.sel.toNat = v % 65536
  base : g.base.toNat = v % 65536 * 16
  limit : g.limit = 0xFFFF#32

end Verif.Seg.Spec
