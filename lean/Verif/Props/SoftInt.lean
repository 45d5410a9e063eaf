import Verif.Spec.SoftInt
import Verif.Props.DoubleFault
import Verif.Props.IretResume
import Verif.Props.Vm86Event
import Verif.Props.RealEvent
import Verif.Props.GivesUp

namespace Verif.Seg
open Spec

theorem next_after (s : Cpu) (len : BitVec 32) : setNext len s = after s len := rfl
theorem idx_vector (i : SoftInt) : i.idx = vector i := by cases i <;> rfl
theorem kind_sw (i : SoftInt) : (i.kind.intn != 0) = true := by cases i <;> rfl
theorem kind_ne (i : SoftInt) : i.kind.intn ≠ 0 := by cases i <;> exact fun h => by cases h

theorem agree_after {s : Cpu} (len : BitVec 32) (ha : AgreeCore s.r) : AgreeCore (after s len).r := by
  cases ha; constructor <;> assumption

theorem bit11 : ∀ j : Fin 32, (0x800#32)[j.val] = decide (j.val = 11) := by decide
theorem flag11 (x : BitVec 32) : x &&& 0x800#32 = 0#32 ↔ x[11] = false := by
  constructor
  · intro h
    have := congrArg (fun y => y[11]) h
    simpa using this
  · intro h
    apply BitVec.eq_of_getElem_eq
    intro j hj
    have t := bit11
    rw [BitVec.getElem_and, t ⟨j, hj⟩]
    by_cases hj : j = 11
    · subst hj; simp [h]
    · simp [hj]

/-- A taken interrupt is an event of its vector, with the program at the next instruction. -/
theorem soft_taken (acc : Acc) (pf : Cpu → BitVec 16 × BitVec 32) (i : SoftInt) (len : BitVec 32) (s : Cpu) (ht : Taken s i) :
    Handled acc pf ⟨i.kind, vector i, 0#16, 0#32⟩ (after s len) (softInt acc pf i len s) := by
  have h : softInt acc pf i len s = exec acc pf (.event i.kind (vector i) 0#16 0#32) (after s len) := by
    unfold softInt
    rw [idx_vector, next_after]
    cases i with
    | into =>
      dsimp only
      rw [if_neg]
      rw [flag11]
      intro h
      have := ht
      unfold Taken at this
      rw [h] at this
      cases this
    | _ => rfl
  rw [h]
  exact C40_table _ _ _ _ _ _ _

theorem soft_class (i : SoftInt) (n : Nat) (c : BitVec 16) (a : BitVec 32) : classOf ⟨i.kind, n, c, a⟩ = .benign := by
  unfold classOf
  rw [if_pos (Or.inl (kind_ne i))]

/-- The event is delivered, stops the emulator, or raises an exception that is handled. -/
theorem soft_cases {acc : Acc} {pf : Cpu → BitVec 16 × BitVec 32} {i : SoftInt} {n : Nat} {s : Cpu} {o : Outcome}
    (h : Handled acc pf ⟨i.kind, n, 0#16, 0#32⟩ s o) :
    (∃ t, deliver acc i.kind n 0#16 0#32 s = .ok () t ∧ o = .done t) ∨ (∃ t, deliver acc i.kind n 0#16 0#32 s = .stop .abort t) ∨
    (∃ v c t, deliver acc i.kind n 0#16 0#32 s = .stop (.exc v c) t ∧ Excepts acc pf v c t o) ∨
    (∃ t, deliver acc i.kind n 0#16 0#32 s = .stop .fault t ∧ Handled acc pf ⟨.exn, 14, (pf t).1, (pf t).2⟩ t o) := by
  cases h with
  | delivered _ _ t h => exact .inl ⟨t, h, rfl⟩
  | aborted _ _ t h => exact .inr (.inl ⟨t, h⟩)
  | serial _ _ e2 s2 _ hr hv hn =>
    cases hr with
    | exc v c _ h => exact .inr (.inr (.inl ⟨v, c, s2, h, hn⟩))
    | page _ h => exact .inr (.inr (.inr ⟨s2, h, hn⟩))
  | double _ _ e2 s2 _ hr hv hn => rw [soft_class] at hv; cases hv
  | shutdown _ _ e2 s2 hr hv => rw [soft_class] at hv; cases hv

/-- C112: INTO without overflow only goes on to the next instruction. -/
theorem C112_not_taken (acc : Acc) (pf : Cpu → BitVec 16 × BitVec 32) (len : BitVec 32) (s : Cpu) (h : ¬ Taken s .into) :
    softInt acc pf .into len s = .done (after s len) := by
  unfold softInt
  dsimp only
  rw [if_pos ((flag11 _).2 (by unfold Taken at h; simpa using h)), next_after]

/-- C112: an interrupt instruction that raises no exception in protected mode enters the handler that the gate of its vector names, with the
address of the next instruction on the stack and without an error code. -/
theorem C112_enters (acc : Acc) (pf : Cpu → BitVec 16 × BitVec 32) (i : SoftInt) (len : BitVec 32) (s : Cpu) (ha : AgreeCore s.r)
    (hm : mode s.r = .prot) (ht : Taken s i) (hn : ∀ e t, ¬ Raises acc pf ⟨i.kind, vector i, 0#16, 0#32⟩ (after s len) e t)
    (hk : gateKind (gateAt s (vector i)) ≠ 5#5) :
    ∃ s1, softInt acc pf i len s = .done s1 ∧ Entered s s1 (gateAt s (vector i)) ∧
      Framed (after s len) s1 (if (gateAt s (vector i))[43] then 4 else 2) 0 := by
  rcases soft_cases (soft_taken acc pf i len s ht) with ⟨t, h, ho⟩ | ⟨t, h⟩ | ⟨v, c, t, h, ho⟩ | ⟨t, h, ho⟩
  · refine ⟨t, ho, ?_⟩
    obtain ⟨h1, h2⟩ := C73_event_frame acc i.kind (vector i) 0#16 0#32 (after s len) t (agree_after len ha) hm h
    rw [if_neg (by rw [show (i.kind.intn == 0) = false by cases i <;> rfl]; exact Bool.false_ne_true)] at h2
    exact ⟨⟨h1.mode, h1.inner, h1.eip, h1.cs, h1.flags, h1.arith, h1.data⟩, h2⟩
  · rw [deliver_prot (prot_of (agree_after len ha) hm)] at h
    exact absurd (deliverIdt_abort.1 h).2.2.2 hk
  · exact absurd (Raises.exc v c t h) (hn _ _)
  · exact absurd (Raises.page t h) (hn _ _)

/-- C112: when the handler returns, the program goes on after the interrupt instruction. -/
theorem C112_resumes (acc acc' : Acc) (pf : Cpu → BitVec 16 × BitVec 32) (i : SoftInt) (len : BitVec 32) (s s1 s2 : Cpu) (ha : AgreeCore s.r)
    (hm : mode s.r = .prot) (hw : FlagsWf s.r) (ht : Taken s i) (hg : (gateAt s (vector i))[43] = true)
    (h : softInt acc pf i len s = .done s1) (hn : ∀ e t, ¬ Raises acc pf ⟨i.kind, vector i, 0#16, 0#32⟩ (after s len) e t)
    (hd : HandlerDone s1 s2 0) (hr : Returnable s2 s.r.cs.sel) (hs : level s1.r < level s.r → ReturnableStack s2 s.r.ss.sel (level s.r))
    (hif : level s1.r ≤ iopl s.r ∨ s2.r.eflags[9] = s.r.eflags[9]) :
    FaultOr (fun s3 => Resumed (after s len) s1 s2 s3 ∧ s3.r.eip = s.r.eip + len) (instr acc' (.iret 4) s2) := by
  have hdel : deliver acc i.kind (vector i) 0#16 0#32 (after s len) = .ok () s1 := by
    have hh := soft_taken acc pf i len s ht
    rw [h] at hh
    cases hh with
    | delivered _ _ t h => exact h
    | serial _ _ e2 t _ hr => exact absurd hr (hn _ _)
    | double _ _ e2 t _ hr => exact absurd hr (hn _ _)
  have := C73_iret_resumes acc acc' i.kind (vector i) 0#16 0#32 (after s len) s1 s2 (agree_after len ha) hm ⟨hw.1, hw.2, hw.3⟩ hg hdel
    (by rw [if_neg (by rw [show (i.kind.intn == 0) = false by cases i <;> rfl]; exact Bool.false_ne_true)]; exact hd) hr hs hif
  generalize instr acc' (.iret 4) s2 = x at this ⊢
  cases x with
  | ok u t => exact ⟨this, this.eip⟩
  | stop e t => cases e <;> exact this

/-- C112: an interrupt instruction whose gate is outside the table, no gate, closed to the program, not present or without a selector raises
the documented exception and changes nothing.  What is missing is EIP: the exception is raised with the program at the next instruction
(`C112_restart_violation`). -/
theorem C112_refused_partial (acc : Acc) (pf : Cpu → BitVec 16 × BitVec 32) (i : SoftInt) (len : BitVec 32) (s : Cpu) (ha : AgreeCore s.r)
    (hm : mode s.r = .prot) (ht : Taken s i) (hk : gateKind (gateAt s (vector i)) ≠ 5#5) (v : Nat) (c : BitVec 16)
    (h : gateFault s true (vector i) = some (v, c))
    (hr : acc (after s len) (s.r.idtBase + BitVec.ofNat 32 (vector i * 8)) 8 false 2 = true) :
    Excepts acc pf v c (after s len) (softInt acc pf i len s) := by
  have hd : deliver acc i.kind (vector i) 0#16 0#32 (after s len) = .stop (.exc v c) (after s len) := by
    rcases C74_bad_gate acc i.kind (vector i) 0#16 0#32 (after s len) (agree_after len ha) hm hk v c (by rw [kind_sw]; exact h) with h | ⟨-, h⟩
    · exact h
    · have e : acc (after s len) (s.r.idtBase + BitVec.ofNat 32 (vector i * 8)) 8 false 2 = false := h
      rw [hr] at e; cases e
  rcases soft_cases (soft_taken acc pf i len s ht) with ⟨t, h', ho⟩ | ⟨t, h'⟩ | ⟨v', c', t, h', ho⟩ | ⟨t, h', ho⟩ <;> rw [hd] at h' <;> cases h'
  exact ho

/-- C112: so does the same instruction of a vm86 program with IOPL below 3: #GP(0). -/
theorem C112_vm86_partial (acc : Acc) (pf : Cpu → BitVec 16 × BitVec 32) (n : BitVec 8) (len : BitVec 32) (s : Cpu) (ha : AgreeCore s.r)
    (hm : mode s.r = .vm86) (hi : iopl s.r ≠ 3#2) (hv : s.r.cr4[0] = false) :
    Excepts acc pf 13 0#16 (after s len) (softInt acc pf (.intn n) len s) := by
  have hd := (C83_int_denied acc ⟨2, false⟩ n.toNat 0#16 0#32 (after s len) (agree_after len ha) hm rfl hi).1 hv
  rcases soft_cases (soft_taken acc pf (.intn n) len s trivial) with ⟨t, h', ho⟩ | ⟨t, h'⟩ | ⟨v', c', t, h', ho⟩ | ⟨t, h', ho⟩ <;>
    rw [show deliver acc (SoftInt.intn n).kind (vector (.intn n)) 0#16 0#32 (after s len) = _ from hd] at h' <;> cases h'
  exact ho

/-- C112: in real mode the handler of the table is entered, with the address of the next instruction on the stack, unless an access page
faults or the vector is outside the table. -/
theorem C112_real (acc : Acc) (pf : Cpu → BitVec 16 × BitVec 32) (i : SoftInt) (len : BitVec 32) (s : Cpu) (ha : AgreeCore s.r)
    (hm : mode s.r = .real) (ht : Taken s i) (hi : InIvt s.r (vector i)) :
    (∃ s1, softInt acc pf i len s = .done s1 ∧ RealEntered (after s len) s1 (vector i)) ∨
    (∃ t, Raises acc pf ⟨i.kind, vector i, 0#16, 0#32⟩ (after s len) ⟨.exn, 14, (pf t).1, (pf t).2⟩ t ∧
      Handled acc pf ⟨.exn, 14, (pf t).1, (pf t).2⟩ t (softInt acc pf i len s)) := by
  have he := (C80_event acc i.kind (vector i) 0#16 0#32 (after s len) (agree_after len ha) hm).2 hi
  rcases soft_cases (soft_taken acc pf i len s ht) with ⟨t, h', ho⟩ | ⟨t, h'⟩ | ⟨v', c', t, h', ho⟩ | ⟨t, h', ho⟩ <;> rw [h'] at he
  · exact .inl ⟨t, ho, he⟩
  · exact absurd he id
  · exact absurd he id
  · exact .inr ⟨t, Raises.page t h', ho⟩

/-- C112 fails for every refused interrupt instruction: the handler of the exception finds the address of the next instruction on its stack, not
that of the instruction that faulted; returning from it skips the interrupt. -/
theorem C112_restart_violation (acc : Acc) (pf : Cpu → BitVec 16 × BitVec 32) (i : SoftInt) (len : BitVec 32) (s s1 : Cpu) (ha : AgreeCore s.r)
    (hm : mode s.r = .prot) (ht : Taken s i) (hk : gateKind (gateAt s (vector i)) ≠ 5#5) (v : Nat) (c : BitVec 16)
    (h : gateFault s true (vector i) = some (v, c))
    (hr : acc (after s len) (s.r.idtBase + BitVec.ofNat 32 (vector i * 8)) 8 false 2 = true)
    (hd : deliver acc .exn v c 0#32 (after s len) = .ok () s1) (hg : (gateAt s v)[43] = true) (hl : len ≠ 0#32) :
    softInt acc pf i len s = .done s1 ∧ stackItem s1 4 0 = c.toNat ∧ stackItem s1 4 1 = (s.r.eip + len).toNat ∧
    stackItem s1 4 1 ≠ s.r.eip.toNat := by
  have ho := C112_refused_partial acc pf i len s ha hm ht hk v c h hr
  have h1 : softInt acc pf i len s = .done s1 := C40_unique acc pf _ _ _ _ ho (.delivered ⟨.exn, v, c, 0#32⟩ _ _ hd)
  have hv : codeVector v = true := by
    unfold gateFault at h
    repeat' (split at h)
    all_goals cases h
    all_goals rfl
  obtain ⟨-, h2⟩ := C73_event_frame acc .exn v c 0#32 (after s len) s1 (agree_after len ha) hm hd
  rw [if_pos (by rw [hv]; rfl), show (gateAt (after s len) v)[43] = true from hg, if_pos rfl] at h2
  have e : stackItem s1 4 1 = (s.r.eip + len).toNat := by
    rw [h2.1.eip]
    exact Nat.mod_eq_of_lt (s.r.eip + len).isLt
  refine ⟨h1, h2.2, e, ?_⟩
  rw [e]
  intro hh
  apply hl
  have := BitVec.eq_of_toNat_eq hh
  calc len = (s.r.eip + len) - s.r.eip := by rw [BitVec.add_comm, BitVec.add_sub_cancel]
    _ = 0#32 := by rw [this, BitVec.sub_self]

namespace SoftP
open EventP SegP

/-- The user program of C73 with ZF and OF set, at an INT 13 whose gate is closed to it (DPL 0), and what its #GP handler finds. -/
def over : Cpu := ⟨{ prog.r with arith := 0x840#32 }, prog.mem⟩
def pfNo (_ : Cpu) : BitVec 16 × BitVec 32 := (0#16, 0#32)

example : AgreeCore over.r ∧ mode over.r = .prot ∧ Taken over .into ∧ ¬ Taken prog .into ∧ gateFault over true (vector (.intn 13#8)) = some (13, 0x6A#16) ∧
    gateKind (gateAt over 13) ≠ 5#5 ∧ (gateAt over 13)[43] = true := by
  refine ⟨by constructor <;> decide, by decide, by unfold Taken; decide, by unfold Taken; decide, by decide +kernel, by decide +kernel, by decide +kernel⟩

theorem refused_ok : deliver allOk .exn 13 0x6A#16 0#32 (after over 2#32) = .ok () (endState (deliver allOk .exn 13 0x6A#16 0#32 (after over 2#32))) :=
  of_completed (by decide +kernel)
theorem int3_ok : deliver allOk ⟨1, false⟩ 3 0#16 0#32 (after over 1#32) = .ok () (endState (deliver allOk ⟨1, false⟩ 3 0#16 0#32 (after over 1#32))) :=
  of_completed (by decide +kernel)

/-- The hypotheses of C112_enters: INT3, whose gate is open. -/
example : ∀ e t, ¬ Raises allOk pfNo ⟨(SoftInt.int3).kind, vector .int3, 0#16, 0#32⟩ (after over 1#32) e t := by
  intro e t h
  cases h with
  | exc v c _ h => cases int3_ok.symm.trans h
  | page _ h => cases int3_ok.symm.trans h

example : (match softInt allOk pfNo .int3 1#32 over with | .done t => stackItem t 4 0 == 0x401001 && t.r.eip == 0x5678#32 | _ => false) = true := by decide +kernel
example : (match softInt allOk pfNo (.intn 13#8) 2#32 over with
    | .done t => t.r.eip == 0x1234#32 && stackItem t 4 0 == 0x6A && stackItem t 4 1 == 0x401002 | _ => false) = true := by decide +kernel
/-- The hypotheses of C112_resumes: the INT3 handler returns at once. -/
def trap : Cpu := endState (deliver allOk ⟨1, false⟩ 3 0#16 0#32 (after over 1#32))
example : FlagsWf over.r ∧ (gateAt over 3)[43] = true ∧ HandlerDone trap trap 0 ∧ Returnable trap over.r.cs.sel ∧
    (level trap.r < level over.r ∧ ReturnableStack trap over.r.ss.sel (level over.r)) ∧ level trap.r ≤ iopl over.r ∧
    okWith (fun r => r.eip == 0x401001#32 && r.cs.sel == 0x23#16 && r.esp == 0x7000#32 && r.arith == 0x840#32) (instr allOk (.iret 4) trap) = true := by
  refine ⟨by constructor <;> decide, by decide +kernel, ?_, ?_, ⟨by decide +kernel, ?_⟩, by decide +kernel, by decide +kernel⟩
  · refine ⟨?_, by decide +kernel, rfl, rfl, by decide +kernel, fun _ _ _ _ _ => rfl, fun i _ => by rw [Nat.zero_add]⟩
    constructor <;> decide +kernel
  · constructor
    · unfold Spec.nullSel; decide
    · unfold Spec.TableFits; decide +kernel
    · unfold Spec.InTable; decide +kernel
    all_goals decide +kernel
  · constructor
    · unfold Spec.nullSel; decide
    · unfold Spec.TableFits; decide +kernel
    · unfold Spec.InTable; decide +kernel
    · unfold Spec.StackSeg; decide +kernel
    · decide +kernel
example : AgreeCore RealP.realProg.r ∧ mode RealP.realProg.r = .real ∧ InIvt RealP.realProg.r (vector (.intn 8#8)) ∧
    (match softInt allOk pfNo (.intn 8#8) 2#32 RealP.realProg with
      | .done t => t.r.eip == 0x210#32 && stackItem t 2 0 == (RealP.realProg.r.eip.toNat + 2) % 65536 | _ => false) = true := by
  refine ⟨by constructor <;> decide, by decide, by unfold InIvt; decide, by decide +kernel⟩
example : AgreeCore vprog.r ∧ mode vprog.r = .vm86 ∧ iopl vprog.r ≠ 3#2 ∧ vprog.r.cr4[0] = false := by
  refine ⟨by constructor <;> decide, by decide, by decide, by decide⟩

end SoftP

open SoftP EventP SegP in
/-- C112 fails for vm86 programs: the monitor that is to emulate INT 0x21 finds the address after the instruction on its stack. -/
theorem C112_monitor_violation : ∃ s1, softInt allOk pfNo (.intn 0x21#8) 2#32 vprog = .done s1 ∧ s1.r.eip = 0x1234#32 ∧ stackItem s1 4 0 = 0 ∧
    vprog.r.eip = 0x20#32 ∧ stackItem s1 4 1 = 0x22 := by
  refine ⟨endState (deliver allOk .exn 13 0#16 0#32 (after vprog 2#32)), ?_, by decide +kernel, by decide +kernel, by decide, by decide +kernel⟩
  exact C40_unique _ _ _ _ _ _ (C112_vm86_partial allOk pfNo 0x21#8 2#32 vprog (by constructor <;> decide) (by decide) (by decide) (by decide))
    (.delivered ⟨.exn, 13, 0#16, 0#32⟩ _ _ (of_completed (by decide +kernel)))

end Verif.Seg
