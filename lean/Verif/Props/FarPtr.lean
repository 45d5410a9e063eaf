import Verif.Spec.FarPtr
import Verif.Props.Seg
import Verif.Props.RealSeg
import Verif.Props.Gate

namespace Verif.Seg
open Spec Guest

theorem rd_cases (acc : Acc) (a : BitVec 32) (n p : Nat) (s : Cpu) :
    rd acc a n p s = if acc s a n false p = true then .ok (load s.mem a n) s else .stop .fault s := by
  unfold rd
  cases acc s a n false p <;> rfl

theorem lxs_eq (acc : Acc) (i : SR) (w dst : Nat) (lin len : BitVec 32) (x : PtrSt) :
    lxs acc i w dst lin len x =
      if acc x.cpu lin w false 0 = true then
        if acc x.cpu (lin + BitVec.ofNat 32 w) 2 false 0 = true then
          match instr acc (.loadSeg i (ptrSel x.cpu w lin)) x.cpu with
          | .stop e c => .stop e ⟨c, x.gpr⟩
          | .ok _ c => .done (ptrEnd w dst (BitVec.ofNat 32 (load x.cpu.mem lin w)) len ⟨c, x.gpr⟩)
        else .stop .fault x
      else .stop .fault x := by
  unfold lxs
  rw [rd_cases]
  by_cases h1 : acc x.cpu lin w false 0 = true
  · rw [if_pos h1, if_pos h1]
    dsimp only
    rw [rd_cases]
    by_cases h2 : acc x.cpu (lin + BitVec.ofNat 32 w) 2 false 0 = true
    · rw [if_pos h2, if_pos h2]; rfl
    · rw [if_neg h2, if_neg h2]
  · rw [if_neg h1, if_neg h1]

/-- C113: whatever stops the instruction, a page fault on its operand or a refused selector, nothing has changed. -/
theorem C113_atomic (acc : Acc) (i : SR) (w dst : Nat) (lin len : BitVec 32) (x y : PtrSt) (e : Stop) (ha : AgreeCore x.cpu.r)
    (h : lxs acc i w dst lin len x = .stop e y) : y = x := by
  rw [lxs_eq] at h
  split at h
  · split at h
    · split at h
      · rename_i hl
        cases h
        rw [C36_atomic acc x.cpu _ i _ _ ha hl]
      · cases h
    · cases h; rfl
  · cases h; rfl

theorem set_esp (r : Regs) (i : SR) (v : SegReg) : (r.set i v).esp = r.esp ∧ (r.set i v).eip = r.eip := by cases i <;> exact ⟨rfl, rfl⟩
theorem write_esp (i : SR) (sel : BitVec 16) (b l f : BitVec 32) (r : Regs) :
    (writeSeg i sel b l f r).esp = r.esp ∧ (writeSeg i sel b l f r).eip = r.eip := by cases i <;> exact ⟨rfl, rfl⟩

theorem movSel_null (acc : Acc) (i : SR) (sel : BitVec 16) (hi : i ≠ .ss) (e : isNull sel = true) :
    movSelPe acc i sel = modR (writeSeg i 0#16 0#32 0#32 0#32) := by
  cases i <;> first | exact absurd rfl hi | exact if_pos e

theorem loadSeg_keeps {acc : Acc} {s t : Cpu} {i : SR} {sel : BitVec 16} (ha : AgreeCore s.r) (h : instr acc (.loadSeg i sel) s = .ok () t) :
    t.r.esp = s.r.esp ∧ t.r.eip = s.r.eip := by
  have hi : i ≠ .cs := by rintro rfl; cases h
  by_cases hm : mode s.r = .prot
  · by_cases hn : nullSel sel
    · have hl := instr_load acc s i sel ha hm hi
      rw [h] at hl
      have e : isNull sel = true := (isNull_iff sel).2 hn
      by_cases hs : i = .ss
      · subst hs; rw [load_ss acc s sel rfl ha, if_pos hn] at hl; cases hl
      · rw [movSel_null acc i sel hs e] at hl
        rw [modR_ok.1 hl.symm]
        exact write_esp _ _ _ _ _ _
    · rw [loadEnd_ok (load_success acc s t i sel rfl ha hm hn h).2.2.2.2]
      exact write_esp _ _ _ _ _ _
  · obtain ⟨s', e, -, hr⟩ := C94_load acc s i sel ha hm hi
    rw [h] at e
    cases e
    exact ⟨(congrArg Regs.esp hr).trans (set_esp _ _ _).1, (congrArg Regs.eip hr).trans (set_esp _ _ _).2⟩

theorem putLow4 (old v : BitVec 32) : putLow 4 old v = v := rfl
theorem putLow2_low (old v : BitVec 32) : (putLow 2 old v).toNat % 65536 = v.toNat % 65536 := by
  have : (putLow 2 old v).setWidth 16 = v.setWidth 16 := by
    unfold putLow
    rw [if_pos rfl]
    apply BitVec.eq_of_getLsbD_eq
    intro j hj
    have t : ∀ j : Fin 16, (0xFFFF0000#32).getLsbD j.val = false ∧ (0xFFFF#32).getLsbD j.val = true := by decide
    rw [BitVec.getLsbD_setWidth, BitVec.getLsbD_setWidth, BitVec.getLsbD_or, BitVec.getLsbD_and, BitVec.getLsbD_and, (t ⟨j, hj⟩).1, (t ⟨j, hj⟩).2]
    simp
  have := congrArg BitVec.toNat this
  simpa [BitVec.toNat_setWidth] using this
theorem putLow2_high (old v : BitVec 32) : (putLow 2 old v).toNat / 65536 = old.toNat / 65536 := by
  have : (putLow 2 old v) >>> 16 = old >>> 16 := by
    unfold putLow
    rw [if_pos rfl]
    apply BitVec.eq_of_getLsbD_eq
    intro j hj
    have t : ∀ j : Fin 32, (0xFFFF0000#32).getLsbD (16 + j.val) = decide (16 + j.val < 32) ∧ (0xFFFF#32).getLsbD (16 + j.val) = false := by decide
    rw [BitVec.getLsbD_ushiftRight, BitVec.getLsbD_ushiftRight, BitVec.getLsbD_or, BitVec.getLsbD_and, BitVec.getLsbD_and, (t ⟨j, hj⟩).1, (t ⟨j, hj⟩).2]
    by_cases hj : 16 + j < 32
    · simp [hj]
    · simp [hj, BitVec.getLsbD_of_ge _ _ (Nat.le_of_not_lt hj)]
  have := congrArg BitVec.toNat this
  simpa [BitVec.toNat_ushiftRight, Nat.shiftRight_eq_div_pow] using this

theorem offset_low (w : Nat) (hw : w = 2 ∨ w = 4) (m : Mem) (lin old : BitVec 32) :
    (putLow w old (BitVec.ofNat 32 (load m lin w))).toNat % 256 ^ w = load m lin w := by
  have hl := Guest.load_lt m lin w
  rcases hw with rfl | rfl
  · rw [show 256 ^ 2 = 65536 from rfl, putLow2_low, BitVec.toNat_ofNat]
    have : load m lin 2 < 65536 := hl
    omega
  · rw [putLow4, BitVec.toNat_ofNat]
    have : load m lin 4 < 4294967296 := hl
    omega

/-- C113: if the instruction completes, both the offset and the selector were read; the segment register was loaded as MOV loads it with that
selector; the register has the offset, no other general register changed, and EIP is at the next instruction. -/
theorem C113_loads (acc : Acc) (i : SR) (w dst : Nat) (lin len : BitVec 32) (x y : PtrSt) (hw : w = 2 ∨ w = 4) (ha : AgreeCore x.cpu.r)
    (h : lxs acc i w dst lin len x = .done y) :
    ∃ t, instr acc (.loadSeg i (ptrSel x.cpu w lin)) x.cpu = .ok () t ∧ OffsetIn x y w dst lin ∧
      (∀ n, n ≠ dst → PtrSt.reg y n = PtrSt.reg x n) ∧ y.cpu.r.eip = x.cpu.r.eip + len ∧
      { y.cpu.r with esp := t.r.esp, eip := t.r.eip } = t.r ∧ y.cpu.mem = t.mem := by
  rw [lxs_eq] at h
  split at h
  · split at h
    · split at h
      · cases h
      · rename_i t hl
        obtain ⟨k1, k2⟩ := loadSeg_keeps ha hl
        cases h
        refine ⟨t, hl, ?_, ?_, ?_, ?_, ?_⟩
        · by_cases hd : dst = 4
          · subst hd
            refine ⟨offset_low w hw _ _ _, fun h2 => ?_⟩
            subst h2
            show (putLow 2 t.r.esp _).toNat / 65536 = x.cpu.r.esp.toNat / 65536
            rw [putLow2_high, k1]
          · have e : PtrSt.reg (ptrEnd w dst (BitVec.ofNat 32 (load x.cpu.mem lin w)) len ⟨t, x.gpr⟩) dst =
                putLow w (x.gpr dst) (BitVec.ofNat 32 (load x.cpu.mem lin w)) := by
              unfold PtrSt.reg ptrEnd
              dsimp only
              rw [if_neg hd, if_neg hd]
              exact if_pos rfl
            refine ⟨by rw [e]; exact offset_low w hw _ _ _, fun h2 => ?_⟩
            rw [e]
            subst h2
            rw [putLow2_high]
            unfold PtrSt.reg
            rw [if_neg hd]
        · intro n hn
          unfold PtrSt.reg ptrEnd
          dsimp only
          by_cases hd : dst = 4
          · rw [if_pos hd]
            rw [if_neg (by rw [← hd]; exact hn), if_neg (by rw [← hd]; exact hn)]
          · rw [if_neg hd]
            dsimp only
            rw [if_neg hn, k1]
        · unfold ptrEnd
          dsimp only
          by_cases hd : dst = 4
          · rw [if_pos hd]; show t.r.eip + len = _; rw [k2]
          · rw [if_neg hd]; show t.r.eip + len = _; rw [k2]
        · unfold ptrEnd
          dsimp only
          by_cases hd : dst = 4
          · rw [if_pos hd]
          · rw [if_neg hd]
        · unfold ptrEnd
          dsimp only
          by_cases hd : dst = 4
          · rw [if_pos hd]
          · rw [if_neg hd]
    · cases h
  · cases h

/-- C113: in protected mode the segment register then holds the selector and the base, limit and rights of its descriptor. -/
theorem C113_segment (acc : Acc) (i : SR) (w dst : Nat) (lin len : BitVec 32) (x y : PtrSt) (hw : w = 2 ∨ w = 4) (ha : AgreeCore x.cpu.r)
    (hm : mode x.cpu.r = .prot) (hn : ¬ nullSel (ptrSel x.cpu w lin)) (h : lxs acc i w dst lin len x = .done y) :
    Holds (y.cpu.r.get i) (ptrSel x.cpu w lin) (descAt x.cpu (ptrSel x.cpu w lin)) ∧ ∀ j, j ≠ i → y.cpu.r.get j = x.cpu.r.get j := by
  obtain ⟨t, h1, -, -, -, h2, -⟩ := C113_loads acc i w dst lin len x y hw ha h
  obtain ⟨h3, h4⟩ := C35_cached acc x.cpu t i _ ha hm hn h1
  have e : ∀ j, y.cpu.r.get j = t.r.get j := fun j => by rw [← h2]; cases j <;> rfl
  exact ⟨by rw [e]; exact h3, fun j hj => by rw [e]; exact h4 j hj⟩

/-- C113: in real and vm86 mode it never stops on its selector, and the segment is the selector times 16. -/
theorem C113_real (acc : Acc) (i : SR) (w dst : Nat) (lin len : BitVec 32) (x : PtrSt) (hw : w = 2 ∨ w = 4) (ha : AgreeCore x.cpu.r)
    (hm : mode x.cpu.r ≠ .prot) (hi : i ≠ .cs) (h1 : acc x.cpu lin w false 0 = true) (h2 : acc x.cpu (lin + BitVec.ofNat 32 w) 2 false 0 = true) :
    ∃ y, lxs acc i w dst lin len x = .done y ∧ OffsetIn x y w dst lin ∧ (y.cpu.r.get i).sel = ptrSel x.cpu w lin ∧
      (y.cpu.r.get i).base.toNat = 16 * (ptrSel x.cpu w lin).toNat ∧ y.cpu.mem = x.cpu.mem := by
  obtain ⟨t, e, em, er⟩ := C94_load acc x.cpu i (ptrSel x.cpu w lin) ha hm hi
  have hl : lxs acc i w dst lin len x = .done (ptrEnd w dst (BitVec.ofNat 32 (load x.cpu.mem lin w)) len ⟨t, x.gpr⟩) := by
    rw [lxs_eq, if_pos h1, if_pos h2, e]
  obtain ⟨t', e', ho, -, -, hr, hmem⟩ := C113_loads acc i w dst lin len x _ hw ha hl
  rw [e] at e'
  cases e'
  have hg : ∀ y : Regs, { y with esp := t.r.esp, eip := t.r.eip } = t.r → y.get i = t.r.get i := fun y h => by rw [← h]; cases i <;> rfl
  have ht : t.r.get i = paragraph (x.cpu.r.get i) (ptrSel x.cpu w lin) := by
    have : ({ t.r with hflags := x.cpu.r.hflags } : Regs).get i = t.r.get i := by cases i <;> rfl
    rw [← this, er]
    cases i <;> rfl
  refine ⟨_, hl, ho, ?_, ?_, by rw [hmem, em]⟩
  · rw [hg _ hr, ht]; rfl
  · rw [hg _ hr, ht]
    show (BitVec.ofNat 32 (16 * _)).toNat = _
    rw [BitVec.toNat_ofNat]
    have := (ptrSel x.cpu w lin).isLt
    omega

namespace FarPtrP
open SegP

/-- The kernel with a far pointer, 0x18:0x12345678, at 0x5000 and one with a selector outside the table at 0x6000. -/
def st : PtrSt := ⟨⟨kern.r, fun a => if a = 0x5000#32 then 0x78#8 else if a = 0x5001#32 then 0x56#8 else if a = 0x5002#32 then 0x34#8
  else if a = 0x5003#32 then 0x12#8 else if a = 0x5004#32 then 0x10#8 else if a = 0x6004#32 then 0x40#8 else kern.mem a⟩, fun n => BitVec.ofNat 32 (n * 0x11111111)⟩
/-- EBX, ESP, the selectors of ES and SS, EIP; the exception. -/
def show' : PtrRes → List Nat
  | .done y => [1, (PtrSt.reg y 3).toNat, (PtrSt.reg y 4).toNat, y.cpu.r.es.sel.toNat, y.cpu.r.ss.sel.toNat, (y.cpu.r.eip - st.cpu.r.eip).toNat]
  | .stop (.exc v c) y => [0, v, c.toNat, (PtrSt.reg y 3).toNat]
  | .stop _ _ => [0]

example : AgreeCore st.cpu.r ∧ mode st.cpu.r = .prot ∧ ¬ nullSel (ptrSel st.cpu 4 0x5000#32) := by
  refine ⟨by constructor <;> decide, by decide, by unfold nullSel; decide +kernel⟩
example : show' (lxs allOk .es 4 3 0x5000#32 3#32 st) = [1, 0x12345678, kern.r.esp.toNat, 0x10, kern.r.ss.sel.toNat, 3] := by decide +kernel
example : show' (lxs allOk .ss 4 4 0x5000#32 4#32 st) = [1, 0x33333333, 0x12345678, kern.r.es.sel.toNat, 0x10, 4] := by decide +kernel
example : show' (lxs allOk .es 4 3 0x6000#32 3#32 st) = [0, 13, 0x40, 0x33333333] := by decide +kernel
example : show' (lxs (fun _ a _ _ _ => a != 0x5004#32) .es 4 3 0x5000#32 3#32 st) = [0] := by decide +kernel
example : AgreeCore ModeP.reset ∧ mode ModeP.reset ≠ .prot := by
  refine ⟨by constructor <;> decide, by decide⟩

end FarPtrP

end Verif.Seg
