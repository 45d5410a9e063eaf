import Verif.Model.Ctrl
import Verif.Model.Exc
/-
The operations that change the mode bits, each as the main loop executes it: an instruction that stops
with an exception has that exception delivered (core/translate.cpp 1478-1632).
-/
namespace Verif.Seg

/-- IS_PE_NOT_VM86, jit.cpp: which helper a segment load or far transfer is translated to. -/
def peNotVm (r : Regs) : Bool := r.hflags &&& H_PE != 0#32 && r.eflags &&& 0x20000#32 == 0#32

/-- jit.cpp 4843-4849, 4929-4933: CALL FAR in real and vm86 mode. -/
def farCallReal (acc : Acc) (sel : BitVec 16) (k : Nat) (eip ret : BitVec 32) : M Unit := do
  let r ← getR
  let m := stackMask (r.hflags &&& H_SS32 != 0#32)
  let sp ← pushV acc k r.esp (r.cs.sel.setWidth 32)
  let sp ← pushV acc k sp ret
  modR fun r => { r with esp := (r.esp &&& ~~~m) ||| (sp &&& m) }
  farReal sel eip

/-- jit.cpp 9820-9834: RETF in real and vm86 mode (without the immediate, 9835-9847). -/
def farRetReal (acc : Acc) (k : Nat) : M Unit := do
  let r ← getR
  let m := stackMask (r.hflags &&& H_SS32 != 0#32)
  let (eip, sp) ← popV acc k r.esp
  let (cs, sp) ← popV acc k sp
  modR fun r => { r with esp := (r.esp &&& ~~~m) ||| (sp &&& m) }
  farReal (cs.setWidth 16) eip

/-- A control register write as an instruction. -/
def crM (f : Regs → CrRes) : M Unit := fun s =>
  match f s.r with
  | .gp => .stop (.exc GP 0#16) s
  | .abort => .stop .abort s
  | .ok r _ => .ok () { s with r := r }

/-- The operations. -/
inductive Op where
  /-- MOV/POP/LDS... of a segment register other than CS -/
  | loadSeg (i : SR) (sel : BitVec 16)
  /-- JMP FAR -/
  | farJmp (sel : BitVec 16) (k : Nat) (eip : BitVec 32)
  /-- CALL FAR -/
  | farCall (sel : BitVec 16) (k : Nat) (eip ret : BitVec 32)
  /-- RETF -/
  | farRet (k : Nat)
  /-- IRET -/
  | iret (k : Nat)
  /-- MOV CRn -/
  | movCr (i : Fin 5) (n : BitVec 32)
  /-- LMSW -/
  | lmsw (v : BitVec 16)
  /-- CLTS -/
  | clts
  /-- LTR -/
  | ltr (sel : BitVec 16)
  /-- LLDT -/
  | lldt (sel : BitVec 16)
  /-- an exception, INT n, INT3, INTO or a hardware interrupt -/
  | event (k : Kind) (idx : Nat) (code : BitVec 16) (cr2 : BitVec 32)
  /-- cpu_sync_state, called by the client -/
  | sync

/-- The helper an instruction runs; jit.cpp 3475-3504 checks vm86 mode and CPL before LTR and
LLDT (but does not reject real mode); MOV never loads CS (#UD). -/
def instr (acc : Acc) : Op → M Unit
  | .loadSeg .cs _ => stop (.exc 6 0#16)
  | .loadSeg i sel => do
    let r ← getR
    if peNotVm r then movSelPe acc i sel else movSelReal i sel
  | .farJmp sel k eip => do
    let r ← getR
    if peNotVm r then ljmpPe acc sel k eip else farReal sel eip
  | .farCall sel k eip ret => do
    let r ← getR
    if peNotVm r then lcallPe acc sel eip k ret else farCallReal acc sel k eip ret
  | .farRet k => do
    let r ← getR
    if peNotVm r then lretPe acc k else farRetReal acc k
  | .iret k => do
    let r ← getR
    if r.hflags &&& H_PE ≠ 0#32 then iretPe acc k else iretReal acc k
  | .movCr i n => crM fun r => movToCr r i n
  | .lmsw v => crM fun r => Seg.lmsw r v
  | .clts => crM Seg.clts
  | .ltr sel => do
    let r ← getR
    check (r.eflags &&& 0x20000#32 != 0#32) (.exc 6 0#16)
    check (r.hflags &&& H_CPL != 0#32) (.exc GP 0#16)
    Seg.ltr acc sel
  | .lldt sel => do
    let r ← getR
    check (r.eflags &&& 0x20000#32 != 0#32) (.exc 6 0#16)
    check (r.hflags &&& H_CPL != 0#32) (.exc GP 0#16)
    Seg.lldt acc sel
  | .event _ _ _ _ => pure ()
  | .sync => modR syncState

/-- One operation, with the exception it raises delivered.  Fuel 5 is always enough (C40). -/
def exec (acc : Acc) (pf : Cpu → BitVec 16 × BitVec 32) (o : Op) (s : Cpu) : Outcome :=
  match o with
  | .event k idx code cr2 => raise acc pf 5 k none idx code cr2 s
  | o =>
    match instr acc o s with
    | .ok _ s => .done s
    | .stop (.exc i c) s => raise acc pf 5 .exn none i c 0#32 s
    | .stop .fault s => raise acc pf 5 .exn none 14 (pf s).1 (pf s).2 s
    | .stop .abort s => .abort s

/-- A history of operations; it ends at a triple fault or an abort. -/
def run (acc : Acc) (pf : Cpu → BitVec 16 × BitVec 32) : List Op → Cpu → Outcome
  | [], s => .done s
  | o :: os, s =>
    match exec acc pf o s with
    | .done s => run acc pf os s
    | x => x

end Verif.Seg
