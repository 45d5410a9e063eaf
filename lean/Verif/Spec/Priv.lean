import Verif.Model.Priv
import Verif.Spec.IretFlags
/-
Privileged and I/O-sensitive instructions (SDM vol. 3, 5.9; vol. 2 CLI, STI, POPF, PUSHF; vol. 1, 18.5), stated from the
architectural registers.
-/
namespace Verif.Priv.Spec
open Seg Seg.Spec

/-- Instructions that execute only at level 0. -/
def Privileged : Instr → Prop
  | .hlt | .wbinvd | .invlpg _ | .rdmsr | .wrmsr | .lgdt .. | .fromCr .. | .fromDr .. | .toDr .. => True
  | .sys (.movCr ..) | .sys (.lmsw _) | .sys .clts | .sys (.ltr _) | .sys (.lldt _) => True
  | _ => False

/-- Instructions that do not exist in vm86 mode. -/
def NotInVm86 : Instr → Prop
  | .sys (.ltr _) | .sys (.lldt _) => True
  | _ => False

/-- The instruction accesses a debug register. -/
def OnDebugReg : Instr → Prop
  | .fromDr .. | .toDr .. => True
  | _ => False

/-- The instruction is one a program executes (not an event or a call of the client). -/
def Executed : Instr → Prop
  | .sys (.event ..) | .sys .sync => False
  | _ => True

/-- The registers only the kernel may change are the same: control registers, descriptor table registers, task register, debug
registers, model specific registers, IOPL, VIP. -/
structure SameSystem (s s' : St) : Prop where
  cr0 : s'.c.r.cr0 = s.c.r.cr0
  cr2 : s'.c.r.cr2 = s.c.r.cr2
  cr3 : s'.c.r.cr3 = s.c.r.cr3
  cr4 : s'.c.r.cr4 = s.c.r.cr4
  gdtBase : s'.c.r.gdtBase = s.c.r.gdtBase
  gdtLimit : s'.c.r.gdtLimit = s.c.r.gdtLimit
  idtBase : s'.c.r.idtBase = s.c.r.idtBase
  idtLimit : s'.c.r.idtLimit = s.c.r.idtLimit
  ldtr : s'.c.r.ldtr = s.c.r.ldtr
  tr : s'.c.r.tr = s.c.r.tr
  dr7 : s'.c.r.dr7 = s.c.r.dr7
  dbg : s'.dbg = s.dbg
  msr : s'.msr = s.msr
  iopl : iopl s'.c.r = iopl s.c.r
  vip : s'.c.r.eflags[20] = s.c.r.eflags[20]

/-- The same without IOPL and VIP. -/
structure SameRegisters (s s' : St) : Prop where
  cr0 : s'.c.r.cr0 = s.c.r.cr0
  cr2 : s'.c.r.cr2 = s.c.r.cr2
  cr3 : s'.c.r.cr3 = s.c.r.cr3
  cr4 : s'.c.r.cr4 = s.c.r.cr4
  gdtBase : s'.c.r.gdtBase = s.c.r.gdtBase
  gdtLimit : s'.c.r.gdtLimit = s.c.r.gdtLimit
  idtBase : s'.c.r.idtBase = s.c.r.idtBase
  idtLimit : s'.c.r.idtLimit = s.c.r.idtLimit
  ldtr : s'.c.r.ldtr = s.c.r.ldtr
  tr : s'.c.r.tr = s.c.r.tr
  dr7 : s'.c.r.dr7 = s.c.r.dr7
  dbg : s'.dbg = s.dbg
  msr : s'.msr = s.msr

/-- A program that runs: every instruction completes, and `P` holds before each of them. -/
inductive Runs (acc : Acc) (P : St → Instr → St → Prop) : St → List Instr → St → Prop where
  | nil (s : St) : Runs acc P s [] s
  | cons {s t u : St} {i : Instr} {is : List Instr} (h : P s i t) (e : step acc i s = .done t) (r : Runs acc P t is u) :
      Runs acc P s (i :: is) u

/-- What CLI and STI do: change IF, change VIF, or raise #GP(0). -/
inductive Effect where
  | onIf | onVif | gp
deriving DecidableEq

/-- SDM vol. 2, CLI (table "Decision Table for CLI Results"). -/
def effect (r : Regs) : Effect :=
  match mode r with
  | .real => .onIf
  | .prot => if level r ≤ iopl r then .onIf else if level r = 3#2 ∧ r.cr4[1] = true then .onVif else .gp
  | .vm86 => if iopl r = 3#2 then .onIf else if r.cr4[0] = true then .onVif else .gp

/-- The state is the same, except bit `b` of the flags, which is `v`. -/
def FlagSet (s s' : St) (b : Nat) (v : Bool) : Prop :=
  s' = { s with c := { s.c with r := { s.c.r with eflags := s'.c.r.eflags } }, inhibit := s'.inhibit } ∧
  ∀ i, i < 32 → s'.c.r.eflags.getLsbD i = if i = b then v else s.c.r.eflags.getLsbD i

/-- The flags POPF with operands of 4 bytes (`wide`) or 2 bytes takes from the stack, in mode `m` at level `l`: the arithmetic flags,
TF, DF and NT; IF where IOPL allows it; IOPL at level 0; AC and ID with wide operands.  (RF, VIF and VIP are not in this table.) -/
def popfWrites (m : Mode) (l iopl : BitVec 2) (wide : Bool) (i : Nat) : Bool :=
  arithFlag i || match i with
    | 8 | 10 | 14 => true
    | 9 => if m = .vm86 then iopl = 3#2 else l ≤ iopl
    | 12 | 13 => m ≠ .vm86 ∧ l = 0#2
    | 18 | 21 => wide
    | _ => false

/-- POPF and PUSHF in vm86 mode with IOPL below 3. -/
def Sensitive (r : Regs) : Prop := mode r = .vm86 ∧ iopl r ≠ 3#2

instance (r : Regs) : Decidable (Sensitive r) := inferInstanceAs (Decidable (_ ∧ _))

/-- The image PUSHF stores: EFLAGS without RF and VM; in vm86 mode with IOPL below 3 (and VME) IOPL reads as 3 and IF as VIF. -/
def pushfBit (r : Regs) (i : Nat) : Bool :=
  if i = 16 ∨ i = 17 then false
  else if mode r = .vm86 ∧ iopl r ≠ 3#2 ∧ (i = 12 ∨ i = 13) then true
  else if mode r = .vm86 ∧ iopl r ≠ 3#2 ∧ i = 9 then r.eflags[19]
  else (flagsWord r).getLsbD i

end Verif.Priv.Spec
