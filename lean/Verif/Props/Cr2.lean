import Verif.Spec.Cr2
import Verif.Props.DoubleFault
import Verif.Props.Vm86Event
/- C108: CR2 holds the address of the last page fault. -/
namespace Verif.Seg
open Spec

/-- CR2 in the handler of vector `idx`. -/
theorem triple_cr2_idt (acc : Acc) (k : Kind) (idx : Nat) (code : BitVec 16) (cr2 v : BitVec 32) :
    Triple (fun r => r.cr2 = v) (fun r => r.cr2 = if idx = 14 then cr2 else v) (deliverIdt acc k idx code cr2) := by
  unfold deliverIdt
  refine triple_bind keeps_getR fun r => ?_
  refine triple_bind (keeps_check ..) fun _ => ?_
  refine triple_bind (keeps_rd ..) fun dv => ?_
  refine triple_bind (keeps_check ..) fun _ => ?_
  refine triple_bind (keeps_check ..) fun _ => ?_
  refine triple_bind (keeps_check ..) fun _ => ?_
  refine triple_bind (keeps_check ..) fun _ => ?_
  refine triple_bind (keeps_check ..) fun _ => ?_
  refine triple_bind (keeps_mapExc _ (keeps_readDesc ..)) fun p => ?_
  refine triple_bind (keeps_check ..) fun _ => ?_
  refine triple_bind (keeps_check ..) fun _ => ?_
  refine triple_bind (keeps_setAccessed ..) fun _ => ?_
  refine triple_ite (fun _ => triple_ite (fun _ => ?_) fun _ => ?_) fun _ => ?_
  · unfold fromVm86
    refine triple_bind keeps_getR fun r => ?_
    refine triple_bind (keeps_check ..) fun _ => ?_
    refine triple_bind (keeps_newStack ..) fun q => ?_
    refine triple_bind (keeps_pushAll ..) fun sp => ?_
    exact triple_modR fun r h => by show (if idx = 14 then cr2 else r.cr2) = _; rw [h]
  · refine triple_bind (keeps_newStack ..) fun q => ?_
    refine triple_bind (keeps_pushAll ..) fun sp => ?_
    refine triple_bind (keeps_modR fun r h => h) fun _ => ?_
    exact triple_modR fun r h => by show (if idx = 14 then cr2 else r.cr2) = _; rw [h]
  · refine triple_bind (keeps_check ..) fun _ => ?_
    refine triple_bind (keeps_pushAll ..) fun sp => ?_
    exact triple_modR fun r h => by show (if idx = 14 then cr2 else r.cr2) = _; rw [h]

theorem triple_cr2_redirect (acc : Acc) (idx : Nat) (cr2 v : BitVec 32) :
    Triple (fun r => r.cr2 = v) (fun r => r.cr2 = if idx = 14 then cr2 else v) (vmeRedirect acc idx cr2) := by
  unfold vmeRedirect
  refine triple_bind keeps_getR fun r => ?_
  refine triple_bind (keeps_pushAll ..) fun sp => ?_
  refine triple_bind (keeps_rd ..) fun v => ?_
  exact triple_modR fun r h => by show (if idx = 14 then cr2 else r.cr2) = _; rw [h]

/-- CR2 in the handler: outside real mode vector 14 stores an address, whatever raised it. -/
theorem deliver_cr2 {acc : Acc} {k : Kind} {idx : Nat} {code : BitVec 16} {cr2 : BitVec 32} {s s1 : Cpu}
    (h : deliver acc k idx code cr2 s = .ok () s1) :
    s1.r.cr2 = if idx = 14 ∧ s.r.hflags[4] = true then cr2 else s.r.cr2 := by
  cases hp : s.r.hflags[4] with
  | false =>
    unfold deliver at h
    rw [bind_getR, if_neg (pe_off hp)] at h
    rw [if_neg (by simp)]
    refine Triple.ok (P := fun r => r.cr2 = s.r.cr2) (Q := fun r => r.cr2 = s.r.cr2) (m := deliverReal acc idx) ?_ s () s1 rfl h
    unfold deliverReal
    refine triple_bind keeps_getR fun r => ?_
    refine triple_bind (keeps_check ..) fun _ => ?_
    refine triple_bind (keeps_rd ..) fun v => ?_
    refine triple_bind (keeps_pushAll ..) fun sp => ?_
    exact triple_modR fun r h => h
  | true =>
    simp only [and_true]
    unfold deliver at h
    rw [bind_getR, if_pos (pe_on hp)] at h
    refine Triple.ok (P := fun r => r.cr2 = s.r.cr2) (Q := fun r => r.cr2 = if idx = 14 then cr2 else s.r.cr2) ?_ s () s1 rfl h
    refine triple_bind (keeps_check ..) fun _ => ?_
    refine triple_ite (fun _ => ?_) fun _ => triple_cr2_idt ..
    refine triple_bind (keeps_rd ..) fun _ => ?_
    refine triple_bind (keeps_rd ..) fun _ => ?_
    refine triple_ite (fun _ => triple_cr2_redirect ..) fun _ => ?_
    exact triple_bind (keeps_check ..) fun _ => triple_cr2_idt ..

theorem pe_of_mode {r : Regs} (ha : AgreeCore r) (hm : mode r ≠ .real) : r.hflags[4] = true := by
  rw [ha.pe]
  cases hc : r.cr0[0] with
  | true => rfl
  | false => exact absurd (by unfold mode; rw [hc]; rfl) hm

/-- C108: entering a handler leaves CR2 alone unless its vector is 14. -/
theorem C108_others (acc : Acc) (k : Kind) (idx : Nat) (code : BitVec 16) (cr2 : BitVec 32) (s s1 : Cpu) (hi : idx ≠ 14)
    (h : deliver acc k idx code cr2 s = .ok () s1) : s1.r.cr2 = s.r.cr2 := by
  rw [deliver_cr2 h, if_neg (fun e => hi e.1)]

/-- C108: in the page fault handler CR2 is the address that faulted. -/
theorem C108_page_fault (acc : Acc) (code : BitVec 16) (cr2 : BitVec 32) (s s1 : Cpu) (ha : AgreeCore s.r) (hm : mode s.r ≠ .real)
    (h : deliver acc .exn 14 code cr2 s = .ok () s1) : s1.r.cr2 = cr2 := by
  rw [deliver_cr2 h, if_pos ⟨rfl, pe_of_mode ha hm⟩]

/-- C108: whatever chain of exceptions an event sets off, in the handler finally entered CR2 is the address of the last page fault, and is
what it was if there was none.  Missing: interrupts with vector 14 and chains in which an exception is promoted to a double fault; both
fail, see the violations. -/
theorem C108_last_fault_partial (acc : Acc) (pf : Cpu → BitVec 16 × BitVec 32) (e : Event) (s s1 : Cpu) (v1 : BitVec 32)
    (ha : AgreeCore s.r) (hm : mode s.r ≠ .real) (he : e.idx = 14 → e.kind = .exn)
    (h : Delivered acc pf e s s.r.cr2 s1 v1 false) : s1.r.cr2 = v1 := by
  have hpe := pe_of_mode ha hm
  clear ha hm
  generalize hv : s.r.cr2 = v at h
  generalize hd : false = d at h
  induction h with
  | direct e s s1 v h =>
    rw [deliver_cr2 h, hpe, ← hv]
    unfold noteFault
    by_cases h14 : e.idx = 14
    · have hk := he h14
      have hc : classOf e = .pageFault := by unfold classOf; rw [hk, h14]; rfl
      rw [if_pos ⟨h14, rfl⟩, if_pos hc]
    · have hc : classOf e ≠ .pageFault := by
        unfold classOf
        rw [if_neg h14]
        repeat' split
        all_goals decide
      rw [if_neg (fun x => h14 x.1), if_neg hc]
  | serial e e2 s s2 s1 v v1 df h hs hn ih =>
    obtain ⟨hr, hc⟩ := C68_restartable acc pf e e2 s s2 h
    have hne : classOf e ≠ .pageFault := by
      intro hx
      rw [hx] at hs
      rcases hc with hc | hc <;> rw [hc] at hs <;> cases hs
    refine ih ?_ ?_ ?_ hd
    · intro _; cases h <;> rfl
    · rw [hr]; exact hpe
    · rw [hr, hv]; unfold noteFault; rw [if_neg hne]
  | double => cases hd

namespace Cr2P
open EventP SegP ModeP

/-- The kernel of C38's examples with gates for the double fault (handler 0x1800) and the page fault (0x1400); CR2 is 0xDEAD. -/
def pkern : Cpu := ⟨{ kernel with cr2 := 0xDEAD#32 }, fun a =>
  if a = 0x1071#32 then 0x14#8 else if a = 0x1072#32 then 8#8 else if a = 0x1075#32 then 0x8E#8 else
  if a = 0x1041#32 then 0x18#8 else if a = 0x1042#32 then 8#8 else if a = 0x1045#32 then 0x8E#8 else tables a⟩

/-- Everything is mapped but the gate of the page fault. -/
def noGate : Acc := fun _ a _ _ _ => !(a == 0x1070#32)
/-- Everything is mapped but the gate of the invalid opcode exception. -/
def noGate6 : Acc := fun _ a _ _ _ => !(a == 0x1030#32)
end Cr2P
open Cr2P EventP SegP ModeP

/-- A page fault at 0xB000 is delivered with that address in CR2; so is one that occurs while an invalid opcode exception is delivered. -/
example : AgreeCore pkern.r ∧ mode pkern.r ≠ .real ∧ ∃ s1, deliver allOk .exn 14 0#16 0xB000#32 pkern = .ok () s1 ∧ s1.r.cr2 = 0xB000#32 ∧
    s1.r.eip = 0x1400#32 := by
  refine ⟨by constructor <;> decide, by decide, _, of_completed (by decide +kernel), by decide +kernel, by decide +kernel⟩
example : ∃ s1, Delivered noGate6 (fun _ => (0#16, 0x1030#32)) ⟨.exn, 6, 0#16, 0#32⟩ pkern 0xDEAD#32 s1 0x1030#32 false ∧ s1.r.cr2 = 0x1030#32 := by
  refine ⟨_, .serial _ _ _ pkern _ _ _ _ (.page pkern ?_) rfl (.direct _ _ _ _ (of_completed (by decide +kernel))), by decide +kernel⟩
  rfl

/-- C108 fails: INT 14 and a hardware interrupt with vector 14, both delivered with a zero in the place of an address (jit.cpp 3763-3800,
translate.cpp 1452-1457), destroy CR2. -/
theorem C108_int14_violation : AgreeCore pkern.r ∧ mode pkern.r = .prot ∧ pkern.r.cr2 = 0xDEAD#32 ∧
    (∃ s1, deliver allOk ⟨2, false⟩ 14 0#16 0#32 pkern = .ok () s1 ∧ s1.r.cr2 = 0#32) ∧
    ∃ s1, deliver allOk ⟨0, true⟩ 14 0#16 0#32 pkern = .ok () s1 ∧ s1.r.cr2 = 0#32 := by
  refine ⟨by constructor <;> decide, by decide, rfl, ⟨_, of_completed (by decide +kernel), by decide +kernel⟩, _,
    of_completed (by decide +kernel), by decide +kernel⟩

/-- C108 fails: so does an INT 14 that a vm86 program redirects to its own interrupt table. -/
theorem C108_redirected_violation : redirBit vmeProg 14 = false ∧
    ∃ s1, deliver allOk ⟨2, false⟩ 14 0#16 0#32 ⟨{ vmeProg.r with cr2 := 0xDEAD#32 }, vmeProg.mem⟩ = .ok () s1 ∧ mode s1.r = .vm86 ∧
      s1.r.cr2 = 0#32 := by
  refine ⟨by decide +kernel, _, of_completed (by decide +kernel), by decide +kernel, by decide +kernel⟩

/-- C108 fails: a page fault that is promoted to a double fault is not recorded; the handler of the double fault finds the address of an
older page fault. -/
theorem C108_double_violation : ∃ s1, Delivered noGate (fun _ => (0#16, 0x1070#32)) ⟨.exn, 14, 0#16, 0xB000#32⟩ pkern pkern.r.cr2 s1 0x1070#32 true ∧
    s1.r.eip = 0x1800#32 ∧ s1.r.cr2 = 0xDEAD#32 := by
  refine ⟨_, .double _ _ _ pkern _ _ _ false (.page pkern ?_) rfl (.direct _ _ _ _ (of_completed (by decide +kernel))), by decide +kernel, by decide +kernel⟩
  rfl

end Verif.Seg
