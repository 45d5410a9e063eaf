import Verif.Lemmas.GivesUp
/-
C90: the guest can stop the emulator itself only by asking for a task switch or for page tables with 64 bit entries.
-/
namespace Verif.Seg
open Spec (mode level AgreeCore NoVmInReal Unsupported TaskGate isTask)
open ModeP (Along syncOk)
open Guest (load)

/-- **C90**: an instruction at which the emulator gives up asks for a task switch or for 64 bit page tables, and has changed nothing. -/
theorem C90_instr {acc : Acc} {o : Op} {s s' : Cpu} (ha : AgreeCore s.r) (h : instr acc o s = .stop .abort s') : s' = s ∧ Unsupported s o :=
  have := (instr_abort ha).1 h
  ⟨this.1, this.2.1⟩

/-- **C90**: such an instruction always makes the emulator give up, once its descriptor is read. -/
theorem C90_instr_always {acc : Acc} {o : Op} {s : Cpu} (ha : AgreeCore s.r) (hu : Unsupported s o) (hr : Spec.Reads acc s o) :
    instr acc o s = .stop .abort s := by
  refine (instr_abort ha).2 ⟨rfl, hu, ?_⟩
  cases o <;> first | trivial | exact ⟨fun h => (outside_iff _ _ hr.1).1 h hr.2.1, hr.2.2⟩

/-- **C90**: one operation, with the delivery of what it raises, makes the emulator give up only if it asks for a task switch or for
64 bit page tables, or if the gate of a raised event is a task gate. -/
theorem C90_exec {acc : Acc} {pf : Cpu → BitVec 16 × BitVec 32} {o : Op} {s s' : Cpu} (ha : AgreeCore s.r) (hv : NoVmInReal s.r)
    (ho : syncOk o s.r) (h : exec acc pf o s = .abort s') : (s' = s ∧ Unsupported s o) ∨ ∃ i, TaskGate s' i := by
  have hc := exec_core acc pf o s ((coherent_false _).2 ⟨ha, hv⟩) ho
  rw [h] at hc
  have hc' := ((coherent_false _).1 hc).1
  have hr : ∀ {k old idx code cr2 x}, raise acc pf 5 k old idx code cr2 x = .abort s' → ∃ i, TaskGate s' i := fun e =>
    have ⟨hp, i, hi⟩ := raise_abort e
    ⟨i, taskGate_of hc' hp hi⟩
  have hi : (∀ k i c x, o ≠ .event k i c x) → (s' = s ∧ Unsupported s o) ∨ ∃ i, TaskGate s' i := by
    intro hne
    have e : exec acc pf o s = (match instr acc o s with
      | .ok _ s => .done s
      | .stop (.exc i c) s => raise acc pf 5 .exn none i c 0#32 s
      | .stop .fault s => raise acc pf 5 .exn none 14 (pf s).1 (pf s).2 s
      | .stop .abort s => .abort s) := by
      cases o <;> first | rfl | exact absurd rfl (hne _ _ _ _)
    rw [e] at h
    cases hs : instr acc o s with
    | ok a x => rw [hs] at h; cases h
    | stop e x =>
      rw [hs] at h
      cases e with
      | exc i c => exact .inr (hr h)
      | fault => exact .inr (hr h)
      | abort => cases h; exact .inl (C90_instr ha hs)
  by_cases he : ∃ k i c x, o = .event k i c x
  · obtain ⟨k, i, c, x, rfl⟩ := he
    exact .inr (hr h)
  · exact hi fun k i c x e => he ⟨k, i, c, x, e⟩

/-- **C90**: every history in which the emulator gives up ends at such an instruction or at a task gate. -/
theorem C90_run {acc : Acc} {pf : Cpu → BitVec 16 × BitVec 32} {os : List Op} {s s' : Cpu} (ha : AgreeCore s.r) (hv : NoVmInReal s.r)
    (ho : Along acc pf syncOk os s) (h : run acc pf os s = .abort s') : (∃ o ∈ os, Unsupported s' o) ∨ ∃ i, TaskGate s' i := by
  induction os generalizing s with
  | nil => cases h
  | cons o os ih =>
    unfold run at h
    cases he : exec acc pf o s with
    | done x =>
      rw [he] at h
      have hc := exec_core acc pf o s ((coherent_false _).2 ⟨ha, hv⟩) ho.1
      rw [he] at hc
      have hc' := (coherent_false _).1 hc
      rcases ih hc'.1 hc'.2 (ho.2 x he) h with ⟨o', h1, h2⟩ | h
      · exact .inl ⟨o', .tail _ h1, h2⟩
      · exact .inr h
    | abort x =>
      rw [he] at h
      cases h
      rcases C90_exec ha hv ho.1 he with h | h
      · exact .inl ⟨o, .head _, by rw [h.1]; exact h.2⟩
      · exact .inr h
    | shutdown x => rw [he] at h; cases h
    | outOfFuel => rw [he] at h; cases h

/-- **C90**: an event whose gate can be read and is a task gate always makes the emulator give up. -/
theorem C90_event_always {acc : Acc} {k : Kind} {idx : Nat} {code : BitVec 16} {cr2 : BitVec 32} {s : Cpu} (ha : AgreeCore s.r)
    (hm : mode s.r = .prot) (ht : TaskGate s idx) (hr : acc s (s.r.idtBase + BitVec.ofNat 32 (idx * 8)) 8 false 2 = true) :
    deliver acc k idx code cr2 s = .stop .abort s := by
  rw [deliver_prot (prot_of ha hm)]
  exact deliverIdt_abort.2 ⟨rfl, hr, ht.2.1, ht.2.2⟩

namespace SegP
/-- As `user`, with descriptor 0x30 an available TSS of DPL 0. -/
def tssUser : Cpu := ⟨user.r, fun a => if a = 0x2035#32 then 0x89#8 else gdt a⟩
/-- As `user`, with NT set (POPF does that at any level). -/
def ntUser : Cpu := ⟨{ user.r with eflags := user.r.eflags ||| 0x4000#32 }, gdt⟩
/-- As `user`, with an interrupt table whose entry 0x20 is a task gate. -/
def gateUser : Cpu := ⟨{ user.r with idtBase := 0x6000#32, idtLimit := 0x7FF#32 }, fun a => if a = 0x6105#32 then 0xE5#8 else gdt a⟩
end SegP

def gaveUp (o : Outcome) : Bool := match o with | .abort _ => true | _ => false

open SegP in
/-- A user program stops the emulator with a jump or call to a TSS that only the kernel may use (the processor raises
general protection), and with an IRET after setting NT. -/
theorem C90_user_violation : AgreeCore tssUser.r ∧ mode tssUser.r = .prot ∧ level tssUser.r = 3#2 ∧ Spec.dpl (Spec.descAt tssUser 0x30#16) = 0#2 ∧
    (∀ pf, gaveUp (exec allOk pf (.farJmp 0x30#16 4 0#32) tssUser) = true) ∧
    (∀ pf, gaveUp (exec allOk pf (.farCall 0x30#16 4 0#32 0#32) tssUser) = true) ∧
    (∀ pf, gaveUp (exec allOk pf (.iret 4) ntUser) = true) := by
  refine ⟨user_core.1, user_core.2.1, user_core.2.2, by decide +kernel, fun pf => ?_, fun pf => ?_, fun pf => ?_⟩
  all_goals rfl

open SegP in
-- The hypotheses of `C90_instr_always` and `C90_event_always` are met.
example : Unsupported tssUser (.farJmp 0x30#16 4 0#32) ∧ Spec.Reads allOk tssUser (.farJmp 0x30#16 4 0#32) ∧
    Unsupported ntUser (.iret 4) ∧ TaskGate gateUser 0x20 ∧ mode gateUser.r = .prot := by
  refine ⟨⟨user_core.2.1, by decide +kernel, by decide +kernel, by decide +kernel⟩, ⟨?_, ?_, rfl⟩, ⟨by decide +kernel, by decide +kernel⟩,
    ⟨by decide +kernel, by decide +kernel, by decide +kernel⟩, by decide +kernel⟩
  · unfold Spec.TableFits; decide +kernel
  · unfold Spec.InTable; decide +kernel

open SegP in
-- Histories: the first operation of the list loads a segment, the second stops the emulator.
example : gaveUp (run allOk (fun _ => (0#16, 0#32)) [.loadSeg .ds 0x1B#16, .farCall 0x30#16 4 0#32 0#32] tssUser) = true ∧
    gaveUp (run allOk (fun _ => (0#16, 0#32)) [.loadSeg .ds 0x1B#16, .event .exn 0x20 0#16 0#32] gateUser) = true := by
  decide +kernel

end Verif.Seg
