import Verif.Model.Seg
/-
What the translated code may assume about the mode it runs in, stated from the architectural registers
only.
-/
namespace Verif.Seg.Spec

/-- The operating mode: CR0.PE and EFLAGS.VM. -/
inductive Mode where
  | real | vm86 | prot
deriving DecidableEq

/-- The operating mode of a register state. -/
def mode (r : Regs) : Mode :=
  if r.cr0[0] = false then .real else if r.eflags[17] then .vm86 else .prot

/-- Current privilege level: 0 in real mode, 3 in vm86 mode, the RPL of CS otherwise. -/
def level (r : Regs) : BitVec 2 :=
  match mode r with
  | .real => 0#2
  | .vm86 => 3#2
  | .prot => r.cs.sel.setWidth 2

/-- Default operand size is 32 bit: the D bit of CS, only in protected mode. -/
def code32 (r : Regs) : Bool := mode r = .prot && r.cs.flags[22]

/-- Stack accesses use ESP: the B bit of SS, only in protected mode. -/
def stack32 (r : Regs) : Bool := mode r = .prot && r.ss.flags[22]

/-- The mode bits other than the flat-segment bits agree with the registers. -/
structure AgreeCore (r : Regs) : Prop where
  level : r.hflags.setWidth 2 = level r
  code32 : r.hflags[2] = code32 r
  stack32 : r.hflags[3] = stack32 r
  pe : r.hflags[4] = r.cr0[0]
  em : r.hflags[5] = r.cr0[2]
  ne : r.hflags[7] = r.cr0[5]
  osfxsr : r.hflags[9] = r.cr4[9]
  ts : r.hflags[10] = r.cr0[3]
  osxmm : r.hflags[11] = r.cr4[10]
  mp : r.hflags[15] = r.cr0[1]
  vme : r.hflags[19] = r.cr4[0]
  pvi : r.hflags[20] = r.cr4[1]

/-- A flat-segment bit, under which translated code omits the segment base, is set only if the base is 0. -/
structure AgreeFlat (r : Regs) : Prop where
  es : r.hflags[21] = true → r.es.base = 0#32
  cs : r.hflags[22] = true → r.cs.base = 0#32
  ss : r.hflags[23] = true → r.ss.base = 0#32
  ds : r.hflags[24] = true → r.ds.base = 0#32
  fs : r.hflags[25] = true → r.fs.base = 0#32
  gs : r.hflags[26] = true → r.gs.base = 0#32

/-- All mode bits agree with the registers. -/
def Agree (r : Regs) : Prop := AgreeCore r ∧ AgreeFlat r

/-- EFLAGS.VM is never set in real mode. -/
def NoVmInReal (r : Regs) : Prop := r.cr0[0] = false → r.eflags[17] = false

end Verif.Seg.Spec
