import Verif.Lemmas.Priv
import Verif.Props.FarJmp
import Verif.Props.FarRet
import Verif.Props.Vm86Event
import Verif.Props.SysSeg
/-
C85: privileged instructions execute at level 0 only, and a program above level 0 cannot change system registers.
-/
namespace Verif.Priv
open Seg Seg.Spec Spec

theorem user_eq {s : St} (h : AgreeCore s.c.r) : user s = decide (level s.c.r ≠ 0#2) := cpl_zero h

theorem user_true {s : St} (h : AgreeCore s.c.r) (hl : level s.c.r ≠ 0#2) : user s = true := by
  rw [user_eq h]; exact decide_eq_true hl

theorem vmb {s : St} : vm s = s.c.r.eflags[17] := vm_eq s.c.r

theorem gdb {s : St} : gd s = s.dbg.dr7[13] := by
  unfold gd
  have := and_ne_zero_bit s.dbg.dr7 0x2000#32 13 (by omega) rfl
  cases h : s.dbg.dr7[13] <;> simp_all

theorem crM_gp (s : St) (f : Regs → CrRes) (h : f s.c.r = .gp) : lift s (crM f) = .stop (.exc 13 0#16) s := by
  unfold lift crM; rw [h]

theorem mode_level0 {r : Regs} (h : level r ≠ 0#2) : r.cr0[0] = true := by
  unfold level mode at h
  cases hc : r.cr0[0] with
  | true => rfl
  | false => rw [hc] at h; exact absurd rfl h

/-- A privileged instruction above level 0 raises #GP(0) (#UD for LLDT and LTR in vm86 mode) and changes nothing.  Missing:
accesses to debug registers while DR7.GD is set, which raise #DB instead (`C85_gd_violation`). -/
theorem C85_privileged_partial (acc : Acc) (s : St) (i : Instr) (h : AgreeCore s.c.r) (hl : level s.c.r ≠ 0#2) (hp : Privileged i)
    (hg : OnDebugReg i → s.dbg.dr7[13] = false) :
    (NotInVm86 i → mode s.c.r = .vm86 → step acc i s = .stop (.exc 6 0#16) s) ∧
    (¬ (NotInVm86 i ∧ mode s.c.r = .vm86) → step acc i s = .stop (.exc 13 0#16) s) := by
  have hu := user_true h hl
  have hu' : (s.c.r.hflags &&& H_CPL != 0#32) = true := hu
  have hc : s.c.r.hflags &&& H_CPL ≠ 0#32 := by simpa [user] using hu
  have hc2 : s.c.r.hflags.setWidth 2 ≠ 0#2 := by rw [h.level]; exact hl
  have seg : ∀ (m : M Unit), (mode s.c.r = .vm86 → lift s (do
        let r ← getR
        check (r.eflags &&& 0x20000#32 != 0#32) (.exc 6 0#16)
        check (r.hflags &&& H_CPL != 0#32) (.exc GP 0#16)
        m) = .stop (.exc 6 0#16) s) ∧ (¬ (mode s.c.r = .vm86) → lift s (do
        let r ← getR
        check (r.eflags &&& 0x20000#32 != 0#32) (.exc 6 0#16)
        check (r.hflags &&& H_CPL != 0#32) (.exc GP 0#16)
        m) = .stop (.exc 13 0#16) s) := by
    intro m
    have h0 := mode_level0 hl
    refine ⟨fun hv => ?_, fun hv => ?_⟩
    · have : s.c.r.eflags[17] = true := by
        unfold mode at hv; rw [h0] at hv
        cases he : s.c.r.eflags[17] with
        | true => rfl
        | false => rw [he] at hv; cases hv
      unfold lift
      rw [bind_getR, bind_check, vm_eq, this]; rfl
    · have : s.c.r.eflags[17] = false := by
        unfold mode at hv; rw [h0] at hv
        cases he : s.c.r.eflags[17] with
        | false => rfl
        | true => rw [he] at hv; exact absurd rfl hv
      unfold lift
      rw [bind_getR, bind_check, vm_eq, this, if_neg (by decide), bind_check, if_pos hu']
  cases i with
  | sys o =>
    cases o with
    | movCr i n =>
      refine ⟨fun x => x.elim, fun _ => crM_gp s (fun r => movToCr r i n) ?_⟩
      unfold movToCr; rw [if_pos hc]
    | lmsw v =>
      refine ⟨fun x => x.elim, fun _ => crM_gp s (fun r => Seg.lmsw r v) ?_⟩
      unfold Seg.lmsw; rw [if_pos hc]
    | clts =>
      refine ⟨fun x => x.elim, fun _ => crM_gp s _ ?_⟩
      unfold Seg.clts; rw [if_pos hc]
    | ltr sel => exact ⟨fun _ => (seg _).1, fun x => (seg _).2 fun y => x ⟨trivial, y⟩⟩
    | lldt sel => exact ⟨fun _ => (seg _).1, fun x => (seg _).2 fun y => x ⟨trivial, y⟩⟩
    | _ => exact hp.elim
  | hlt => exact ⟨fun x => x.elim, fun _ => by unfold step; rw [hu]; rfl⟩
  | wbinvd => exact ⟨fun x => x.elim, fun _ => by unfold step; rw [hu]; rfl⟩
  | invlpg a => exact ⟨fun x => x.elim, fun _ => by unfold step; rw [hu]; rfl⟩
  | fromCr a b => exact ⟨fun x => x.elim, fun _ => by unfold step; rw [hu]; rfl⟩
  | rdmsr =>
    refine ⟨fun x => x.elim, fun _ => ?_⟩
    show Priv.rdmsr s = _
    unfold Priv.rdmsr Msr.rdmsr; rw [if_pos hc2]; rfl
  | wrmsr =>
    refine ⟨fun x => x.elim, fun _ => ?_⟩
    show Priv.wrmsr s = _
    unfold Priv.wrmsr Msr.wrmsr; rw [if_pos hc2]; rfl
  | lgdt idt w a =>
    refine ⟨fun x => x.elim, fun _ => ?_⟩
    show lift s (Seg.lgdt acc idt w a) = _
    unfold lift Seg.lgdt
    rw [bind_getR, bind_check, if_pos hu']
  | fromDr a b =>
    refine ⟨fun x => x.elim, fun _ => ?_⟩
    show Priv.fromDr a b s = _
    unfold Priv.fromDr; rw [gdb, hg trivial, hu]; rfl
  | toDr a b =>
    refine ⟨fun x => x.elim, fun _ => ?_⟩
    show Priv.toDr a b s = _
    unfold Priv.toDr; rw [gdb, hg trivial, hu]; rfl
  | _ => exact hp.elim

theorem user_false {s : St} (h : AgreeCore s.c.r) (hl : level s.c.r = 0#2) : user s = false := by
  rw [user_eq h, hl]; rfl

theorem de_bit (s : St) (i : Fin 8) : noAlias s i = ((i == 4 || i == 5) && s.c.r.cr4[3]) := by
  unfold noAlias alias
  have := and_ne_zero_bit s.c.r.cr4 8#32 3 (by omega) rfl
  cases h : s.c.r.cr4[3] <;> simp_all

theorem getG_setG (s : St) (g : Fin 8) (v : BitVec 32) : getG (setG g v s) g = v := by
  unfold getG setG
  by_cases h : g = 4
  · rw [if_pos h, if_pos h]
  · rw [if_neg h, if_neg h]; simp

theorem getG_other (s : St) (g j : Fin 8) (v : BitVec 32) (h : j ≠ g) : getG (setG g v s) j = getG s j := by
  unfold getG setG
  by_cases h4 : g = 4
  · rw [if_pos h4]
    have : j ≠ 4 := fun x => h (x.trans h4.symm)
    rw [if_neg this, if_neg this]
  · rw [if_neg h4]
    by_cases hj : j = 4
    · rw [if_pos hj, if_pos hj]
    · rw [if_neg hj, if_neg hj]; simp [h]

/-- With DR7.GD set, an access to a debug register at any level raises #DB, sets DR6.BD and does nothing else. -/
theorem C85_gd (acc : Acc) (s : St) (i : Instr) (hi : OnDebugReg i) (hg : s.dbg.dr7[13] = true) :
    ∃ d, step acc i s = .stop (.exc 1 0#16) { s with dbg := { s.dbg with dr6 := d } } ∧
      ∀ b, b < 32 → d.getLsbD b = if b = 13 then true else s.dbg.dr6.getLsbD b := by
  have key : step acc i s = raiseGd s := by
    cases i with
    | fromDr a b => show Priv.fromDr a b s = _; unfold Priv.fromDr; rw [gdb, hg]; rfl
    | toDr a b => show Priv.toDr a b s = _; unfold Priv.toDr; rw [gdb, hg]; rfl
    | _ => exact hi.elim
  rw [key]
  refine ⟨_, rfl, fun b hb => ?_⟩
  rw [BitVec.getLsbD_or, show (0x2000#32) = BitVec.twoPow 32 13 from rfl, BitVec.getLsbD_twoPow]
  by_cases h13 : b = 13
  · subst h13; simp
  · rw [if_neg h13]; simp; omega

/-- At level 0 with DR7.GD clear, MOV from a debug register: #UD for DR4 and DR5 if CR4.DE is set, otherwise the general
register gets the debug register (DR4 and DR5 stand for DR6 and DR7); a following MOV of another general register to the same
debug register is read back, with the reserved bits of DR6 set. -/
theorem C85_debug_regs (acc : Acc) (s : St) (i g : Fin 8) (h : AgreeCore s.c.r) (hl : level s.c.r = 0#2) (hg : s.dbg.dr7[13] = false) :
    ((i = 4 ∨ i = 5) → s.c.r.cr4[3] = true →
      step acc (.fromDr i g) s = .stop (.exc 6 0#16) s ∧ step acc (.toDr i g) s = .stop (.exc 6 0#16) s) ∧
    (¬ ((i = 4 ∨ i = 5) ∧ s.c.r.cr4[3] = true) →
      ∃ v t u, v = (match i with | 4 | 6 => s.dbg.dr6 | 5 | 7 => s.dbg.dr7 | j => s.dbg.dr j) ∧
        step acc (.fromDr i g) s = .done t ∧ getG t g = v ∧ (∀ j, j ≠ g → getG t j = getG s j) ∧ t.dbg = s.dbg ∧ t.msr = s.msr ∧
        step acc (.toDr i g) s = .done u ∧
        (match i with
          | 4 | 6 => u.dbg.dr6 = getG s g ||| 0xFFFF0FF0#32 ∧ u.dbg.dr7 = s.dbg.dr7 ∧ u.dbg.dr = s.dbg.dr
          | 5 | 7 => u.dbg.dr7 = getG s g ∧ u.dbg.dr6 = s.dbg.dr6 ∧ u.dbg.dr = s.dbg.dr
          | j => u.dbg.dr = (fun k => if k = j.val then getG s g else s.dbg.dr k) ∧ u.dbg.dr6 = s.dbg.dr6 ∧ u.dbg.dr7 = s.dbg.dr7)) := by
  have hu := user_false h hl
  have hd := de_bit s i
  have drs : ∀ d n v, (Watch.writeDr d n v).dr = (fun k => if k = n then v else d.dr k) ∧ (Watch.writeDr d n v).dr6 = d.dr6 ∧
      (Watch.writeDr d n v).dr7 = d.dr7 := by
    intro d n v
    unfold Watch.writeDr
    dsimp only
    (repeat' split) <;> exact ⟨rfl, rfl, rfl⟩
  refine ⟨fun hi he => ?_, fun hi => ?_⟩
  · have hn : noAlias s i = true := by
      rw [hd, he]; rcases hi with rfl | rfl <;> rfl
    refine ⟨?_, ?_⟩
    · show Priv.fromDr i g s = _; unfold Priv.fromDr; rw [gdb, hg, hu, hn]; rfl
    · show Priv.toDr i g s = _; unfold Priv.toDr; rw [gdb, hg, hu, hn]; rfl
  · have hn : noAlias s i = false := by
      rw [hd]
      cases he : s.c.r.cr4[3] with
      | false => simp
      | true =>
        rw [he] at hi
        have h4 : i ≠ 4 := fun x => hi ⟨.inl x, rfl⟩
        have h5 : i ≠ 5 := fun x => hi ⟨.inr x, rfl⟩
        simp [h4, h5]
    have e1 : step acc (.fromDr i g) s = .done (setG g (readDr s i) s) := by
      show Priv.fromDr i g s = _; unfold Priv.fromDr; rw [gdb, hg, hu, hn]; rfl
    have e2 : step acc (.toDr i g) s = .done (writeDr i (getG s g) s) := by
      show Priv.toDr i g s = _; unfold Priv.toDr; rw [gdb, hg, hu, hn]; rfl
    have frame : (setG g (readDr s i) s).dbg = s.dbg ∧ (setG g (readDr s i) s).msr = s.msr := by
      unfold setG; split <;> exact ⟨rfl, rfl⟩
    refine ⟨_, _, _, rfl, e1, ?_, fun j hj => getG_other _ _ _ _ hj, frame.1, frame.2, e2, ?_⟩
    · rw [getG_setG]
      match i with
      | 0 => rfl | 1 => rfl | 2 => rfl | 3 => rfl | 4 => rfl | 5 => rfl | 6 => rfl | 7 => rfl
    · match i with
      | 0 => exact drs s.dbg 0 _
      | 1 => exact drs s.dbg 1 _
      | 2 => exact drs s.dbg 2 _
      | 3 => exact drs s.dbg 3 _
      | 4 => exact ⟨rfl, rfl, rfl⟩
      | 5 => exact ⟨rfl, rfl, rfl⟩
      | 6 => exact ⟨rfl, rfl, rfl⟩
      | 7 => exact ⟨rfl, rfl, rfl⟩

/-- At level 0 the privileged instructions without further conditions execute: HLT halts, WBINVD and INVLPG complete, MOV from
CR0, CR2, CR3, CR4 loads that register. -/
theorem C85_kernel (acc : Acc) (s : St) (h : AgreeCore s.c.r) (hl : level s.c.r = 0#2) (a : BitVec 32) (g : Fin 8) :
    step acc .hlt s = .halt s ∧ step acc .wbinvd s = .done s ∧ step acc (.invlpg a) s = .done s ∧
    step acc (.fromCr 0 g) s = .done (setG g s.c.r.cr0 s) ∧ step acc (.fromCr 2 g) s = .done (setG g s.c.r.cr2 s) ∧
    step acc (.fromCr 3 g) s = .done (setG g s.c.r.cr3 s) ∧ step acc (.fromCr 4 g) s = .done (setG g s.c.r.cr4 s) := by
  have hu := user_false h hl
  unfold step
  rw [hu]
  exact ⟨rfl, rfl, rfl, rfl, rfl, rfl, rfl⟩

/-- RDTSC above level 0 with CR4.TSD raises #GP(0); otherwise EDX:EAX get the counter. -/
theorem C85_rdtsc (acc : Acc) (s : St) (t : BitVec 64) (h : AgreeCore s.c.r) :
    (level s.c.r ≠ 0#2 ∧ s.c.r.cr4[2] = true → step acc (.rdtsc t) s = .stop (.exc 13 0#16) s) ∧
    (¬ (level s.c.r ≠ 0#2 ∧ s.c.r.cr4[2] = true) → ∃ u, step acc (.rdtsc t) s = .done u ∧
      (getG u 2).toNat * 2 ^ 32 + (getG u 0).toNat = t.toNat ∧ (∀ j, j ≠ 0 → j ≠ 2 → getG u j = getG s j)) := by
  have hb : (s.c.r.cr4 &&& 4#32 != 0#32) = s.c.r.cr4[2] := by
    have := and_ne_zero_bit s.c.r.cr4 4#32 2 (by omega) rfl
    cases h : s.c.r.cr4[2] <;> simp_all
  have hu := user_eq h
  have e : step acc (.rdtsc t) s = Priv.rdtsc t s := rfl
  rw [e]
  unfold Priv.rdtsc
  rw [hb, hu]
  refine ⟨fun ⟨h1, h2⟩ => ?_, fun hn => ?_⟩
  · rw [decide_eq_true h1, h2]; rfl
  · have : (decide (level s.c.r ≠ 0#2) && s.c.r.cr4[2]) = false := by
      cases h2 : s.c.r.cr4[2] with
      | false => simp
      | true =>
        rw [h2] at hn
        have : ¬ level s.c.r ≠ 0#2 := fun x => hn ⟨x, rfl⟩
        rw [decide_eq_false this]; rfl
    rw [this]
    refine ⟨_, rfl, ?_, fun j h0 h2 => ?_⟩
    · rw [getG_setG, getG_other _ _ _ _ (by decide), getG_setG, BitVec.toNat_setWidth, BitVec.toNat_setWidth, BitVec.toNat_ushiftRight,
        Nat.shiftRight_eq_div_pow]
      have := t.isLt
      omega
    · rw [getG_other _ _ _ _ h2, getG_other _ _ _ _ h0]

end Verif.Priv
