import Verif.Props.IfFlag
import Verif.Props.Vm86Event
/-
C85, C86: states that meet the hypotheses, and the cases the code decides otherwise than the SDM.
-/
namespace Verif.Priv
open Seg Seg.Spec Spec ModeP EventP SegP

namespace PrivP
/-- A processor with the given segmentation state. -/
def mk (c : Cpu) : St := ⟨c, Watch.create, Msr.reset, fun i => BitVec.ofNat 32 (i.val + 0x100), false⟩
/-- Did the instruction complete? -/
def isDone : Res → Bool
  | .done _ => true
  | _ => false
/-- The state after an instruction that completed. -/
def after : Res → St
  | .done s => s
  | .halt s => s
  | .stop _ s => s
/-- Exception raised, if any. -/
def exn : Res → Option Nat
  | .stop (.exc n _) _ => some n
  | _ => none

theorem of_done {r : Res} (h : isDone r = true) : r = .done (after r) := by
  cases r with
  | done s => rfl
  | halt s => cases h
  | stop e s => cases h

/-- Run a program; every instruction must complete and meet `p`. -/
def runOk (acc : Acc) (p : St → Instr → St → Bool) : List Instr → St → Option St
  | [], s => some s
  | i :: is, s => if isDone (step acc i s) && p s i (after (step acc i s)) then runOk acc p is (after (step acc i s)) else none

theorem runs_of {acc : Acc} {p : St → Instr → St → Bool} {P : St → Instr → St → Prop} (hp : ∀ s i t, p s i t = true → P s i t) :
    ∀ (is : List Instr) (s s' : St), runOk acc p is s = some s' → Runs acc P s is s'
  | [], s, s', h => by cases h; exact .nil s
  | i :: is, s, s', h => by
    unfold runOk at h
    split at h
    · rename_i hh
      rw [Bool.and_eq_true] at hh
      exact .cons (hp _ _ _ hh.2) (of_done hh.1) (runs_of hp is _ s' h)
    · cases h

/-- The program at level 3 with IOPL 0, the kernel, a vm86 task with IOPL 0, the same with VME, the kernel's debug trap set. -/
def user : St := mk prog
def kern : St := mk kprog
def task : St := mk vprog
def vmeTask : St := mk vmeProg
def guarded (s : St) : St := { s with dbg := { s.dbg with dr7 := 0x2400#32 } }

/-- Instructions of a user program: push and pop the flags, load a segment register, read the descriptor tables, compute. -/
def prog1 : List Instr := [.pushf 4, .plain (fun g j => g j + 1#32) 0x44#32 true 0x6FFC#32 0x401010#32 id, .popf 4,
  .sgdt false 0x5000#32, .rdtsc 0x123456789A#64, .popf 2]

/-- What the isolation theorems ask of a step. -/
def good (s : St) (i : Instr) (t : St) : Bool :=
  (match i with | .sys (.event ..) | .sys .sync => false | _ => true) && level s.c.r != 0#2 && decide (iopl s.c.r < level s.c.r) &&
  !isFarCall i && decide (mode t.c.r = mode s.c.r)

theorem good_spec (s : St) (i : Instr) (t : St) (h : good s i t = true) :
    Executed i ∧ level s.c.r ≠ 0#2 ∧ iopl s.c.r < level s.c.r ∧ isFarCall i = false ∧ mode t.c.r = mode s.c.r := by
  unfold good at h
  simp only [Bool.and_eq_true, decide_eq_true_eq, bne_iff_ne, Bool.not_eq_true'] at h
  obtain ⟨⟨⟨⟨h1, h2⟩, h3⟩, h4⟩, h5⟩ := h
  refine ⟨?_, h2, h3, h4, h5⟩
  cases i with
  | sys o => cases o <;> first | trivial | cases h1
  | _ => trivial
end PrivP
open PrivP

theorem user_agree : AgreeCore PrivP.user.c.r := by constructor <;> decide
theorem kern_agree : AgreeCore PrivP.kern.c.r := by constructor <;> decide
theorem task_agree : AgreeCore PrivP.task.c.r := by constructor <;> decide
theorem vme_agree : AgreeCore PrivP.vmeTask.c.r := by constructor <;> decide

theorem runs_user : ∃ s', Runs allOk (fun s i t => Executed i ∧ level s.c.r ≠ 0#2 ∧ iopl s.c.r < level s.c.r ∧ isFarCall i = false ∧
    mode t.c.r = mode s.c.r) PrivP.user prog1 s' ∧ flagsWord s'.c.r ≠ flagsWord PrivP.user.c.r := by
  have h : (match runOk allOk good prog1 PrivP.user with
    | some s' => flagsWord s'.c.r != flagsWord PrivP.user.c.r | none => false) = true := by decide +kernel
  revert h
  generalize hr : runOk allOk good prog1 PrivP.user = o
  intro h
  cases o with
  | none => cases h
  | some s' => exact ⟨s', runs_of good_spec _ _ _ hr, by simpa using h⟩

theorem runs_imp {acc : Acc} {P Q : St → Instr → St → Prop} (h : ∀ s i t, P s i t → Q s i t) {s s' : St} {is : List Instr}
    (r : Runs acc P s is s') : Runs acc Q s is s' := by
  induction r with
  | nil s => exact .nil s
  | cons hp e _ ih => exact .cons (h _ _ _ hp) e ih

/-- The program of six instructions meets the hypotheses of the three theorems, and it changes the flags it may change. -/
example : ∃ s', SameSystem PrivP.user s' ∧ s'.c.r.eflags[9] = PrivP.user.c.r.eflags[9] ∧ level PrivP.user.c.r ≤ level s'.c.r ∧
    flagsWord s'.c.r ≠ flagsWord PrivP.user.c.r := by
  obtain ⟨s', r, hf⟩ := runs_user
  refine ⟨s', C85_isolation_partial allOk _ s' prog1 user_agree (runs_imp (fun _ _ _ h => ⟨h.1, h.2.1, h.2.2.2.2⟩) r),
    C85_interrupt_flag_partial allOk _ s' prog1 user_agree (runs_imp (fun _ _ _ h => ⟨h.1, h.2.2.1, h.2.2.2.2⟩) r),
    (C85_confined_partial allOk _ s' prog1 user_agree (by decide) (runs_imp (fun _ _ _ h => ⟨h.1, h.2.2.2⟩) r)).1, hf⟩

example : level PrivP.user.c.r ≠ 0#2 ∧ Privileged .hlt ∧ Privileged (.toDr 7 0) ∧ Privileged (.sys (.ltr 8#16)) ∧
    PrivP.user.dbg.dr7[13] = false ∧ step allOk .hlt PrivP.user = .stop (.exc 13 0#16) PrivP.user :=
  ⟨by decide, trivial, trivial, trivial, by decide,
    (C85_privileged_partial allOk PrivP.user .hlt user_agree (by decide) trivial (fun h => h.elim)).2 (fun h => h.1)⟩
example : mode PrivP.task.c.r = .vm86 ∧ step allOk (.sys (.ltr 8#16)) PrivP.task = .stop (.exc 6 0#16) PrivP.task :=
  ⟨by decide, (C85_privileged_partial allOk PrivP.task (.sys (.ltr 8#16)) task_agree (by decide) trivial (fun h => h.elim)).1 trivial (by decide)⟩
example : OnDebugReg (.toDr 7 0) ∧ (guarded PrivP.kern).dbg.dr7[13] = true := ⟨trivial, by decide⟩
example : level PrivP.kern.c.r = 0#2 ∧ PrivP.kern.dbg.dr7[13] = false ∧ PrivP.kern.c.r.cr4[3] = false ∧
    (after (step allOk (.toDr 1 2) PrivP.kern)).dbg.dr 1 = 0x102#32 ∧
    (after (step allOk (.toDr 4 2) PrivP.kern)).dbg.dr6 = 0xFFFF0FF2#32 := by decide +kernel
example : exn (step allOk (.rdtsc 5#64) { PrivP.user with c := ⟨{ prog.r with cr4 := 4#32 }, prog.mem⟩ }) = some 13 ∧
    isDone (step allOk (.rdtsc 5#64) PrivP.user) = true := by decide +kernel

/-- With DR7.GD set an access to a debug register at level 3 raises #DB (SDM: #GP, which has priority), and the user program changes
DR6. -/
theorem C85_gd_violation : AgreeCore (guarded PrivP.user).c.r ∧ level (guarded PrivP.user).c.r = 3#2 ∧
    exn (step allOk (.toDr 0 0) (guarded PrivP.user)) = some 1 ∧
    (after (step allOk (.toDr 0 0) (guarded PrivP.user))).dbg.dr6 ≠ (guarded PrivP.user).dbg.dr6 := by
  refine ⟨user_agree, by decide +kernel⟩

/-- A user program with IOPL 0 whose IRET sees VM set in the image is in vm86 mode with IOPL 3 afterwards. -/
theorem C85_iret_violation : AgreeCore (mk IretP.user2).c.r ∧ level (mk IretP.user2).c.r = 3#2 ∧ iopl (mk IretP.user2).c.r = 0#2 ∧
    isDone (step allOk (.sys (.iret 4)) (mk IretP.user2)) = true ∧
    iopl (after (step allOk (.sys (.iret 4)) (mk IretP.user2))).c.r = 3#2 := by
  refine ⟨by constructor <;> decide, by decide +kernel⟩

/-- A program that enters vm86 mode with IRET and pushes the flags meets the hypotheses of `C85_registers`. -/
example : ∃ s', Runs allOk (fun s i _ => Executed i ∧ level s.c.r ≠ 0#2) (mk IretP.user2) [.sys (.iret 4), .pushf 2] s' ∧
    mode s'.c.r = .vm86 ∧ SameRegisters (mk IretP.user2) s' := by
  have h : (match runOk allOk (fun s _ _ => level s.c.r != 0#2) [.sys (.iret 4), .pushf 2] (mk IretP.user2) with
    | some s' => decide (mode s'.c.r = .vm86) | none => false) = true := by decide +kernel
  revert h
  generalize hr : runOk allOk _ _ (mk IretP.user2) = o
  intro h
  cases o with
  | none => cases h
  | some s' =>
    have hr' := runs_of (P := fun s _ _ => level s.c.r ≠ 0#2) (fun s i t h => by simpa using h) _ _ _ hr
    have r : Runs allOk (fun s i _ => Executed i ∧ level s.c.r ≠ 0#2) (mk IretP.user2) [.sys (.iret 4), .pushf 2] s' := by
      cases hr' with
      | cons h1 e1 r1 => cases r1 with
        | cons h2 e2 r2 => exact .cons ⟨trivial, h1⟩ e1 (.cons ⟨trivial, h2⟩ e2 (by cases r2; exact .nil _))
    exact ⟨s', r, of_decide_eq_true h, C85_registers allOk _ s' _ (by constructor <;> decide) r⟩

namespace PrivP
/-- Level 3 with VME and without PVI; level 1 with PVI; a vm86 task with PVI and without VME. -/
def vmeUser : St := mk ⟨{ prog.r with cr4 := 1#32, hflags := prog.r.hflags ||| 0x80000#32 }, prog.mem⟩
def pviUser : St := mk ⟨{ prog.r with cr4 := 2#32, hflags := prog.r.hflags ||| 0x100000#32 }, prog.mem⟩
def pviRing1 : St := mk ⟨{ prog.r with
  cr4 := 2#32
  hflags := (prog.r.hflags &&& ~~~3#32) ||| 0x100001#32
  cs := ⟨0x41#16, 0#32, 0xFFFFFFFF#32, 0xCFBB00#32⟩
  ss := ⟨0x49#16, 0#32, 0xFFFFFFFF#32, 0xCFB300#32⟩ }, prog.mem⟩
def pviTask : St := mk ⟨{ vprog.r with cr4 := 2#32, hflags := vprog.r.hflags ||| 0x100000#32 }, vprog.mem⟩
/-- The vm86 task under VME with VIP set, with IF set in addition. -/
def vipTask (f : Bool) : St := mk ⟨{ vmeProg.r with eflags := if f then 0x1A0202#32 else 0x1A0002#32, esp := 0x6000#32 }, vmeProg.mem⟩
end PrivP

example : Usual PrivP.kern.c.r ∧ effect PrivP.kern.c.r = .onIf ∧ Usual PrivP.user.c.r ∧ effect PrivP.user.c.r = .gp ∧
    AgreeCore pviUser.c.r ∧ Usual pviUser.c.r ∧ effect pviUser.c.r = .onVif ∧
    Usual PrivP.vmeTask.c.r ∧ effect PrivP.vmeTask.c.r = .onVif ∧ Usual PrivP.task.c.r ∧ effect PrivP.task.c.r = .gp := by
  refine ⟨by decide, by decide, by decide, by decide, by constructor <;> decide, by decide⟩

/-- CLI and STI at level 3 with CR4.VME set (and PVI clear), at level 1 with PVI, and in vm86 mode with PVI only change VIF; the SDM
asks for #GP. -/
theorem C86_cli_violation :
    (AgreeCore vmeUser.c.r ∧ effect vmeUser.c.r = .gp ∧ isDone (step allOk .cli vmeUser) = true) ∧
    (AgreeCore pviRing1.c.r ∧ effect pviRing1.c.r = .gp ∧ isDone (step allOk .cli pviRing1) = true) ∧
    (AgreeCore pviTask.c.r ∧ effect pviTask.c.r = .gp ∧ isDone (step allOk .cli pviTask) = true) := by
  refine ⟨⟨by constructor <;> decide, by decide +kernel⟩, ⟨by constructor <;> decide, by decide +kernel⟩,
    ⟨by constructor <;> decide, by decide +kernel⟩⟩

theorem C86_sti_violation :
    (effect vmeUser.c.r = .gp ∧ (after (step allOk .sti vmeUser)).c.r.eflags[19] = true ∧ isDone (step allOk .sti vmeUser) = true) ∧
    (effect pviRing1.c.r = .gp ∧ isDone (step allOk .sti pviRing1) = true) ∧
    (effect pviTask.c.r = .gp ∧ isDone (step allOk .sti pviTask) = true) := by
  decide +kernel

/-- A vm86 task under VME with IF and VIP set that pops a cleared IF raises #GP; without IF it does not. -/
theorem C86_popf_violation : AgreeCore (vipTask true).c.r ∧ Sensitive (vipTask true).c.r ∧ (vipTask true).c.r.cr4[0] = true ∧
    (stackItem (vipTask true).c 2 0).testBit 8 = false ∧ (stackItem (vipTask true).c 2 0).testBit 9 = false ∧
    exn (step allOk (.popf 2) (vipTask true)) = some 13 ∧ isDone (step allOk (.popf 2) (vipTask false)) = true := by
  refine ⟨by constructor <;> decide, by decide +kernel⟩

example : AgreeCore (vipTask false).c.r ∧ AgreeFlat (vipTask false).c.r ∧ NoVmInReal (vipTask false).c.r ∧ FlagsWf (vipTask false).c.r ∧
    Sensitive (vipTask false).c.r ∧ isDone (step allOk (.popf 2) (vipTask false)) = true ∧ isDone (step allOk (.pushf 2) (vipTask false)) = true ∧
    exn (step allOk (.popf 4) (vipTask false)) = some 13 := by
  refine ⟨by constructor <;> decide, by constructor <;> decide, by unfold NoVmInReal; decide, by constructor <;> decide, by decide +kernel⟩
end Verif.Priv
