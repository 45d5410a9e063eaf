import Verif.Model.SysSeg
import Verif.Model.Msr
import Verif.Model.Watch
import Verif.Model.Stack
/-
The checks in front of system instructions, and a machine that executes them: core/emitter/x64/jit.cpp 4998-5044 (CLI, CLTS),
6642-6690 (HLT), 7088-7110 (INVLPG), 7884-8035 (MOV CR and MOV DR), 9336-9447 (POPF), 9641-9705 (PUSHF), 9743-9790
(RDMSR, RDTSC), 10421-10460 (STI), 10780-10803 (WBINVD, WRMSR), and the operations of Model/Step and Model/SysSeg.
The mode tests read hflags and eflags when the code is translated; both are part of the key of the block (C09), so the values
are those of the state the code runs in.
-/
namespace Verif.Priv
open Seg

/-- Segmentation registers and memory, debug registers, model specific registers, the general registers (ESP is in `c`), and
CPU_MASKED_INT (interrupts are inhibited for one instruction).  `dbg.dr7` and `c.r.dr7` are the same register. -/
structure St where
  c : Cpu
  dbg : Watch.Dbg
  msr : Msr.St
  gpr : Fin 8 → BitVec 32
  inhibit : Bool

/-- How an instruction ends: completed, halted, or stopped with an exception, a page fault or an abort. -/
inductive Res where
  | done (s : St)
  | halt (s : St)
  | stop (e : Stop) (s : St)

/-- The instructions. -/
inductive Instr where
  /-- segment loads, far transfers, IRET, MOV to CR, LMSW, CLTS, LTR, LLDT -/
  | sys (o : Op)
  | hlt
  | wbinvd
  | invlpg (a : BitVec 32)
  | rdmsr
  | wrmsr
  /-- RDTSC, when the time stamp counter is `t` -/
  | rdtsc (t : BitVec 64)
  /-- LGDT and LIDT -/
  | lgdt (idt : Bool) (w : Nat) (a : BitVec 32)
  /-- SGDT and SIDT -/
  | sgdt (idt : Bool) (a : BitVec 32)
  | fromCr (i : Fin 5) (g : Fin 8)
  | fromDr (i g : Fin 8)
  | toDr (i g : Fin 8)
  | cli
  | sti
  | popf (k : Nat)
  | pushf (k : Nat)
  /-- every other instruction: an arbitrary change of general registers, arithmetic flags, DF and memory -/
  | plain (f : (Fin 8 → BitVec 32) → Fin 8 → BitVec 32) (arith : BitVec 32) (df : Bool) (esp eip : BitVec 32) (m : Guest.Mem → Guest.Mem)

/-- `hflags & HFLG_CPL`. -/
def user (s : St) : Bool := s.c.r.hflags &&& H_CPL != 0#32

/-- Run a helper on the segmentation part. -/
def lift (s : St) (m : M Unit) : Res :=
  match m s.c with
  | .ok _ c => .done { s with c := c }
  | .stop e c => .stop e { s with c := c }

/-- RAISEin0: #GP(0), #UD, #DB. -/
def raise (n : Nat) (s : St) : Res := .stop (.exc n 0#16) s

/-- Store a general register (index 4 is ESP). -/
def setG (g : Fin 8) (v : BitVec 32) (s : St) : St :=
  if g = 4 then { s with c := { s.c with r := { s.c.r with esp := v } } }
  else { s with gpr := fun j => if j = g then v else s.gpr j }

/-- Read a general register. -/
def getG (s : St) (g : Fin 8) : BitVec 32 := if g = 4 then s.c.r.esp else s.gpr g

/-- jit.cpp 9743-9757: RDMSR; EAX, ECX, EDX are registers 0, 1, 2. -/
def rdmsr (s : St) : Res :=
  match Msr.rdmsr (s.c.r.hflags.setWidth 2) ⟨s.gpr 0, s.gpr 1, s.gpr 2⟩ s.msr with
  | .ok r m => .done { setG 2 r.edx (setG 0 r.eax s) with msr := m }
  | .gp => raise GP s
  | .abort => .stop .abort s

/-- jit.cpp 10789-10803: WRMSR. -/
def wrmsr (s : St) : Res :=
  match Msr.wrmsr (s.c.r.hflags.setWidth 2) ⟨s.gpr 0, s.gpr 1, s.gpr 2⟩ s.msr with
  | .ok _ m => .done { s with msr := m }
  | .gp => raise GP s
  | .abort => .stop .abort s

/-- jit.cpp 9759-9775: RDTSC; CR4.TSD is bit 2. -/
def rdtsc (t : BitVec 64) (s : St) : Res :=
  if user s && s.c.r.cr4 &&& 4#32 != 0#32 then raise GP s
  else .done (setG 2 ((t >>> 32).setWidth 32) (setG 0 (t.setWidth 32) s))

/-- jit.cpp 7901-7912, 7968-7973: DR7.GD is bit 13, DR6.BD bit 13. -/
def gd (s : St) : Bool := s.dbg.dr7 &&& 0x2000#32 != 0#32
/-- jit.cpp 7906-7908: #DB with DR6.BD set. -/
def raiseGd (s : St) : Res := raise 1 { s with dbg := { s.dbg with dr6 := s.dbg.dr6 ||| 0x2000#32 } }

/-- DR4 and DR5. -/
def alias (i : Fin 8) : Bool := i == 4 || i == 5
/-- jit.cpp 7918-7926: CR4.DE is bit 3. -/
def noAlias (s : St) (i : Fin 8) : Bool := alias i && s.c.r.cr4 &&& 8#32 != 0#32

/-- The register MOV from DR reads, jit.cpp 7916-7929. -/
def readDr (s : St) (i : Fin 8) : BitVec 32 :=
  if i = 4 ∨ i = 6 then s.dbg.dr6 else if i = 5 ∨ i = 7 then s.dbg.dr7 else s.dbg.dr i

/-- jit.cpp 7901-7931: MOV from DR. -/
def fromDr (i g : Fin 8) (s : St) : Res :=
  if gd s then raiseGd s
  else if user s then raise GP s
  else if noAlias s i then raise 6 s
  else .done (setG g (readDr s i) s)

/-- jit.cpp 7982-8020: the register MOV to DR writes; DR6_RES_MASK is 0xFFFF0FF0. -/
def writeDr (i : Fin 8) (v : BitVec 32) (s : St) : St :=
  if i = 4 ∨ i = 6 then { s with dbg := { s.dbg with dr6 := v ||| 0xFFFF0FF0#32 } }
  else if i = 5 ∨ i = 7 then
    { s with dbg := Watch.writeDr7 s.dbg v, c := { s.c with r := { s.c.r with dr7 := v } } }
  else { s with dbg := Watch.writeDr s.dbg i v }

/-- jit.cpp 7967-8035: MOV to DR. -/
def toDr (i g : Fin 8) (s : St) : Res :=
  if gd s then raiseGd s
  else if user s then raise GP s
  else if noAlias s i then raise 6 s
  else .done (writeDr i (getG s g) s)

/-- IS_PE. -/
def pe (s : St) : Bool := s.c.r.hflags &&& H_PE != 0#32
/-- IS_VM86. -/
def vm (s : St) : Bool := s.c.r.eflags &&& 0x20000#32 != 0#32
/-- `(eflags & IOPL_MASK) >> 12`. -/
def ioplN (s : St) : BitVec 32 := (s.c.r.eflags &&& 0x3000#32) >>> 12
/-- `hflags & HFLG_CR4_VME` is bit 19, HFLG_CR4_PVI bit 20. -/
def vme (s : St) : Bool := s.c.r.hflags &&& 0x80000#32 != 0#32
/-- `hflags & (HFLG_CR4_VME | HFLG_CR4_PVI)`. -/
def vmePvi (s : St) : Bool := s.c.r.hflags &&& 0x180000#32 != 0#32

/-- Change eflags. -/
def setFl (f : BitVec 32 → BitVec 32) (s : St) : St :=
  { s with c := { s.c with r := { s.c.r with eflags := f s.c.r.eflags } } }

/-- What CLI and STI do, jit.cpp 5003-5020, 10430-10450: change IF, change VIF, or #GP. -/
inductive IfAct where
  | iflag | vif | gp
deriving DecidableEq

/-- jit.cpp 5003-5020, 10430-10450. -/
def ifAct (s : St) : IfAct :=
  if pe s then
    if s.c.r.hflags &&& H_CPL ≤ ioplN s then .iflag
    else if vmePvi s then .vif
    else .gp
  else .iflag

/-- jit.cpp 4997-5023: CLI. -/
def cli (s : St) : Res :=
  match ifAct s with
  | .iflag => .done (setFl (· &&& ~~~0x200#32) s)
  | .vif => .done (setFl (· &&& ~~~0x80000#32) s)
  | .gp => raise GP s

/-- jit.cpp 10455-10459: interrupts are inhibited if IF was clear before. -/
def shadow (old : BitVec 32) (s : St) : St := if old &&& 0x200#32 = 0#32 then { s with inhibit := true } else s

/-- jit.cpp 10420-10460: STI. -/
def sti (s : St) : Res :=
  match ifAct s with
  | .iflag => .done (shadow s.c.r.eflags (setFl (· ||| 0x200#32) s))
  | .vif =>
    if s.c.r.eflags &&& 0x100000#32 ≠ 0#32 then raise GP s
    else .done (shadow s.c.r.eflags (setFl (· ||| 0x80000#32) s))
  | .gp => raise GP s

/-- jit.cpp 9341-9352, 9397-9410: the flags POPF takes from the popped value; in vm86 mode for IOPL 3 (`vm` and IOPL 3),
or for VME. -/
def popfMask (s : St) (k : Nat) : BitVec 32 :=
  let m : BitVec 32 := 0x4500#32
  if vm s then
    if ioplN s = 3#32 then (if k = 4 then m ||| 0x240200#32 else m ||| 0x200#32) else m
  else
    let m := if s.c.r.hflags &&& H_CPL = 0#32 then m ||| 0x3200#32
      else if s.c.r.hflags &&& H_CPL ≤ ioplN s then m ||| 0x200#32 else m
    if k = 4 then m ||| 0x240000#32 else m

/-- What the emitted stack accesses use (Model/Stack); HFLG_SS_IS_ZERO is bit 23. -/
def view (s : St) : Stack.St where
  esp := s.c.r.esp
  ebp := s.gpr 5
  base := s.c.r.ss.base
  ss32 := s.c.r.hflags &&& H_SS32 != 0#32
  ssZero := s.c.r.hflags &&& 0x800000#32 != 0#32
  mem := s.c.mem

/-- Accesses with the privileges of the running code. -/
def okOf (acc : Acc) (s : St) : Guest.Ok := fun a n w => acc s.c a n w 0

/-- jit.cpp 9374-9378: VIF gets the popped IF. -/
def vifOf (v : BitVec 32) (r : Regs) : Regs :=
  { r with eflags := (r.eflags &&& ~~~0x80000#32) ||| ((v &&& 0x200#32) <<< 10) }

/-- jit.cpp 9357-9370: the #GP conditions of POPF under VME, on current eflags and the popped value. -/
def vmePopfGp (e v : BitVec 32) : Bool := (e ||| v) &&& 0x100200#32 == 0x100200#32 || v &&& 0x100#32 != 0#32

/-- jit.cpp 9336-9447: the registers after POPF popped `v`. -/
def popfRegs (s : St) (k : Nat) (v esp : BitVec 32) : Regs :=
  let r := { s.c.r with esp := esp }
  writeEflags v (popfMask s k) (if vm s && ioplN s != 3#32 then vifOf v r else r)

/-- jit.cpp 9336-9447: POPF and POPFD.  The lazy encoding of the arithmetic flags is C57; here they are a value. -/
def popf (acc : Acc) (k : Nat) (s : St) : Res :=
  if vm s && ioplN s != 3#32 && !(k == 2 && vme s) then raise GP s
  else match Stack.popVal (okOf acc s) (view s) k with
    | none => .stop .fault s
    | some (v, esp) =>
      let v := BitVec.ofNat 32 v
      if vm s && ioplN s != 3#32 && vmePopfGp s.c.r.eflags v then raise GP s
      else .done { s with c := { s.c with r := popfRegs s k v esp } }

/-- jit.cpp 9641-9705: the value PUSHF pushes; under VME bit 19 is copied to bit 9 and IOPL reads as 3. -/
def pushfVal (s : St) (k : Nat) : BitVec 32 :=
  let e := s.c.r.eflags
  if k = 2 then
    if vm s && ioplN s < 3#32 then
      ((((e &&& 0x80000#32) >>> 10) ||| 0x3000#32) ||| (e &&& ~~~0x3200#32)) ||| s.c.r.arith
    else e ||| s.c.r.arith
  else (e ||| s.c.r.arith) &&& 0xFCFFFF#32

/-- jit.cpp 9641-9705: PUSHF and PUSHFD. -/
def pushf (acc : Acc) (k : Nat) (s : St) : Res :=
  if vm s && ioplN s < 3#32 && !(k == 2 && vme s) then raise GP s
  else match Stack.push (okOf acc s) (view s) k (pushfVal s k).toNat with
    | none => .stop .fault s
    | some t => .done { s with c := { mem := t.mem, r := { s.c.r with esp := t.esp } } }

/-- What other instructions do to the registers here. -/
def plainRegs (a : BitVec 32) (d : Bool) (sp ip : BitVec 32) (r : Regs) : Regs :=
  { r with
    arith := a
    esp := sp
    eip := ip
    eflags := if d then r.eflags ||| 0x400#32 else r.eflags &&& ~~~0x400#32 }

/-- One instruction. -/
def step (acc : Acc) (i : Instr) (s : St) : Res :=
  match i with
  | .sys o => lift s (instr acc o)
  | .hlt => if user s then raise GP s else .halt s
  | .wbinvd => if user s then raise GP s else .done s
  | .invlpg _ => if user s then raise GP s else .done s
  | .rdmsr => rdmsr s
  | .wrmsr => wrmsr s
  | .rdtsc t => rdtsc t s
  | .lgdt idt w a => lift s (lgdt acc idt w a)
  | .sgdt idt a => lift s (sgdt acc idt a)
  | .fromCr i g => if user s then raise GP s else .done (setG g (movFromCr s.c.r i) s)
  | .fromDr i g => fromDr i g s
  | .toDr i g => toDr i g s
  | .cli => cli s
  | .sti => sti s
  | .popf k => popf acc k s
  | .pushf k => pushf acc k s
  | .plain f a d sp ip m =>
    .done { s with
      gpr := f s.gpr
      c := { r := plainRegs a d sp ip s.c.r, mem := m s.c.mem } }

end Verif.Priv
