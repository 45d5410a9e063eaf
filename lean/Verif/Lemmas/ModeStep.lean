import Verif.Lemmas.ModeRaise
import Verif.Model.Step
/- One operation and the mode bits. -/
namespace Verif.Seg
open Spec

variable {fl : Bool}

/-- From the mode classes to the classes reached. -/
theorem exec_holds {P Q : Regs → Prop} (acc : Acc) (pf : Cpu → BitVec 16 × BitVec 32) (o : Op) (s : Cpu)
    (hP : P s.r) (hi : Triple P Q (instr acc o))
    (hr : ∀ k idx code cr2 s, P s.r → (raise acc pf 5 k none idx code cr2 s).holds Q)
    (hpq : ∀ r, P r → Q r) : (exec acc pf o s).holds Q := by
  by_cases ho : ∃ k idx code cr2, o = .event k idx code cr2
  · obtain ⟨k, idx, code, cr2, rfl⟩ := ho
    exact hr _ _ _ _ _ hP
  · have he : exec acc pf o s = (match instr acc o s with
        | .ok _ s => .done s
        | .stop (.exc i c) s => raise acc pf 5 .exn none i c 0#32 s
        | .stop .fault s => raise acc pf 5 .exn none 14 (pf s).1 (pf s).2 s
        | .stop .abort s => .abort s) := by
      cases o <;> first | rfl | exact absurd ⟨_, _, _, _, rfl⟩ ho
    rw [he]
    cases hm : instr acc o s with
    | ok a s' => exact hi.ok s a s' hP hm
    | stop e s' =>
      have := hi.stop s e s' hP hm
      cases e with
      | exc i c => exact hr _ _ _ _ _ this
      | fault => exact hr _ _ _ _ _ this
      | abort => exact hpq _ this

theorem peNotVm_prot {r : Regs} (h : Prot fl r) : peNotVm r = true := by
  have h1 := pe_on h.pe
  have h2 := vm_off h.2.2
  unfold peNotVm
  simp at h1 h2 ⊢
  exact ⟨h1, h2⟩
theorem peNotVm_vm {r : Regs} (h : VmC fl r) : peNotVm r = false := by
  have h2 := vm_on h.2.1
  unfold peNotVm
  simp at h2 ⊢
  intro _; exact h2
theorem peNotVm_real {r : Regs} (h : RealC fl r) : peNotVm r = false := by
  have h1 := pe_off h.pe
  unfold peNotVm
  simp at h1 ⊢
  intro h; exact absurd h1 h

theorem keeps_ltr {P : Regs → Prop} (acc : Acc) (sel : BitVec 16)
    (hP : ∀ r t, P r → P { r with tr := t }) : Keeps P (ltr acc sel) := by
  unfold ltr; keepsAll; exact keeps_modR fun r h => hP r _ h
theorem keeps_lldt {P : Regs → Prop} (acc : Acc) (sel : BitVec 16)
    (hP : ∀ r t, P r → P { r with ldtr := t }) : Keeps P (lldt acc sel) := by
  unfold lldt; keepsAll <;> exact keeps_modR fun r h => hP r _ h

theorem triple_crM {P Q : Regs → Prop} {f : Regs → CrRes}
    (h : ∀ r r' fl, P r → f r = .ok r' fl → Q r') : Triple P Q (crM f) := by
  constructor
  · intro s a s' hs he
    unfold crM at he
    cases hf : f s.r with
    | gp => rw [hf] at he; cases he
    | abort => rw [hf] at he; cases he
    | ok r x => rw [hf] at he; cases he; exact h s.r r x hs hf
  · intro s e s' hs he
    unfold crM at he
    cases hf : f s.r with
    | gp => rw [hf] at he; cases he; exact hs
    | abort => rw [hf] at he; cases he; exact hs
    | ok r x => rw [hf] at he; cases he

theorem coherent_movToCr (r r' : Regs) (i : Fin 5) (n : BitVec 32) (f : Flush) (h : Coherent fl r)
    (hu : movToCr r i n = .ok r' f) : Coherent fl r' := by
  unfold movToCr at hu
  split at hu
  · cases hu
  · rename_i hc
    have hc : r.hflags &&& H_CPL = 0#32 := Classical.not_not.1 hc
    split at hu
    · exact coherent_updateCr0_mov r r' n f h hc hu
    · injection hu with hu _
      subst hu
      rw [coherent_cases] at h ⊢
      exact h
    · exact coherent_updateCr3 r r' n f h hu
    · exact coherent_updateCr4 r r' n f h hu
    · cases hu

theorem coherent_lmsw (r r' : Regs) (v : BitVec 16) (f : Flush) (h : Coherent fl r)
    (hu : lmsw r v = .ok r' f) : Coherent fl r' := by
  unfold lmsw at hu
  split at hu
  · cases hu
  · rename_i hc
    exact coherent_updateCr0_lmsw r r' _ f h (Classical.not_not.1 hc) hu

theorem coherent_clts (r r' : Regs) (f : Flush) (h : Coherent fl r)
    (hu : clts r = .ok r' f) : Coherent fl r' := by
  unfold clts at hu
  split at hu
  · cases hu
  · exact coherent_updateCr0_clts r r' f h hu

/-! Protected mode: every operation, flat bits included. -/

theorem triple_instr_prot (acc : Acc) (o : Op) : Triple (Prot fl) (Coherent fl) (instr acc o) := by
  have hc : ∀ r, Prot fl r → Coherent fl r := fun r h => h.coherent
  cases o with
  | loadSeg i sel =>
    cases i with
    | cs => exact (keeps_stop _).triple hc
    | _ =>
      refine triple_getR_bind fun r hr => ?_
      rw [peNotVm_prot hr, if_pos rfl]
      exact (keeps_movSelPe ..).triple hc
  | farJmp sel k eip =>
    refine triple_getR_bind fun r hr => ?_
    rw [peNotVm_prot hr, if_pos rfl]
    exact (keeps_ljmpPe ..).triple hc
  | farCall sel k eip ret =>
    refine triple_getR_bind fun r hr => ?_
    rw [peNotVm_prot hr, if_pos rfl]
    exact (keeps_lcallPe ..).triple hc
  | farRet k =>
    refine triple_getR_bind fun r hr => ?_
    rw [peNotVm_prot hr, if_pos rfl]
    exact (keeps_lretPe ..).triple hc
  | iret k =>
    refine triple_getR_bind fun r hr => ?_
    rw [if_pos (pe_on hr.pe)]
    exact triple_iretPe ..
  | movCr i n => exact triple_crM fun r r' f h hu => coherent_movToCr r r' i n f h.coherent hu
  | lmsw v => exact triple_crM fun r r' f h hu => coherent_lmsw r r' v f h.coherent hu
  | clts => exact triple_crM fun r r' f h hu => coherent_clts r r' f h.coherent hu
  | ltr sel =>
    refine triple_getR_bind fun r hr => ?_
    refine triple_bind (keeps_check ..) fun _ => ?_
    refine triple_bind (keeps_check ..) fun _ => ?_
    exact (keeps_ltr acc sel fun r t h => h).triple hc
  | lldt sel =>
    refine triple_getR_bind fun r hr => ?_
    refine triple_bind (keeps_check ..) fun _ => ?_
    refine triple_bind (keeps_check ..) fun _ => ?_
    exact (keeps_lldt acc sel fun r t h => h).triple hc
  | event k idx code cr2 => exact (keeps_pure ()).triple hc
  | sync =>
    refine triple_modR fun r h => ?_
    exact Prot.coherent ⟨pb_sync r, h.2.1, h.2.2⟩

/-! Real and vm86 mode: far transfers keep only the bits other than the flat bits. -/

theorem notProt_mono {r : Regs} (h : RealC fl r ∨ VmC fl r) : NotProt fl r := (notProt_iff r).2 h

theorem farReal_core (sel : BitVec 16) (eip : BitVec 32) (r : Regs) (h : NotProt false r) :
    NotProt false { r with cs := { r.cs with sel := sel, base := sel.setWidth 32 <<< 4 }, eip := eip } := by
  rw [notProt_iff] at h ⊢
  rcases h with ⟨h0, h1, hb, hc⟩ | ⟨h0, h1, hb, hc⟩
  · exact .inl ⟨h0, h1, hb, hc.1, fun h => absurd h (by simp)⟩
  · exact .inr ⟨h0, h1, hb, hc.1, fun h => absurd h (by simp)⟩

theorem keeps_farReal (sel : BitVec 16) (eip : BitVec 32) : Keeps (NotProt false) (farReal sel eip) :=
  keeps_modR fun r h => farReal_core sel eip r h

theorem keeps_farCallReal (acc : Acc) (sel : BitVec 16) (k : Nat) (eip ret : BitVec 32) :
    Keeps (NotProt false) (farCallReal acc sel k eip ret) := by
  unfold farCallReal
  refine keeps_bind keeps_getR fun r => ?_
  refine keeps_bind (keeps_pushV ..) fun sp => ?_
  refine keeps_bind (keeps_pushV ..) fun sp => ?_
  refine keeps_bind (keeps_modR fun r h => ?_) fun _ => keeps_farReal ..
  rw [notProt_iff] at h ⊢; exact h

theorem keeps_farRetReal (acc : Acc) (k : Nat) : Keeps (NotProt false) (farRetReal acc k) := by
  unfold farRetReal
  refine keeps_bind keeps_getR fun r => ?_
  refine keeps_bind (keeps_popV ..) fun p => ?_
  refine keeps_bind (keeps_popV ..) fun q => ?_
  refine keeps_bind (keeps_modR fun r h => ?_) fun _ => keeps_farReal ..
  rw [notProt_iff] at h ⊢; exact h

theorem keeps_iretReal (acc : Acc) (k : Nat) : Keeps (NotProt false) (iretReal acc k) := by
  unfold iretReal
  refine keeps_bind keeps_getR fun r0 => ?_
  refine keeps_bind (keeps_popV ..) fun p => ?_
  refine keeps_bind (keeps_popV ..) fun q => ?_
  refine keeps_bind (keeps_popV ..) fun t => ?_
  refine keeps_modR fun r h => ?_
  rw [notProt_iff] at h ⊢
  have hm : ∀ m : BitVec 32, m = (if k = 2 then (if r0.eflags &&& 0x20000#32 ≠ 0#32 then 0x254700#32 else 0x257700#32) &&& 0xFFFF#32
      else (if r0.eflags &&& 0x20000#32 ≠ 0#32 then 0x254700#32 else 0x257700#32)) → m[17] = false := by
    intro m hm
    split at hm <;> split at hm <;> subst hm <;> decide
  have hm := hm _ rfl
  generalize (if k = 2 then (if r0.eflags &&& 0x20000#32 ≠ 0#32 then 0x254700#32 else 0x257700#32) &&& 0xFFFF#32
      else (if r0.eflags &&& 0x20000#32 ≠ 0#32 then 0x254700#32 else 0x257700#32)) = m at hm ⊢
  rcases h with ⟨h0, h1, hb, hc⟩ | ⟨h0, h1, hb, hc⟩
  · refine .inl ⟨h0, ?_, hb, hc.1, fun h => absurd h (by simp)⟩
    simp [writeEflags, h1, hm]
  · refine .inr ⟨h0, ?_, hb, hc.1, fun h => absurd h (by simp)⟩
    simp [writeEflags, h1, hm]

theorem notProt_cases {r : Regs} (h : NotProt fl r) : RealC fl r ∨ VmC fl r := (notProt_iff r).1 h

/-- Operations other than cpu_sync_state. -/
def notSync : Op → Prop
  | .sync => False
  | _ => True

theorem peNotVm_notProt {r : Regs} (h : NotProt fl r) : peNotVm r = false := by
  rcases notProt_cases h with h | h
  · exact peNotVm_real h
  · exact peNotVm_vm h

theorem triple_instr_notProt (acc : Acc) (o : Op) (ho : notSync o) :
    Triple (NotProt false) (Coherent false) (instr acc o) := by
  have hc : ∀ r, NotProt false r → Coherent false r := fun r h => h.1
  cases o with
  | loadSeg i sel =>
    cases i with
    | cs => exact (keeps_stop _).triple hc
    | _ =>
      refine triple_getR_bind fun r hr => ?_
      rw [peNotVm_notProt hr, if_neg (by simp)]
      exact (keeps_movSelReal ..).triple hc
  | farJmp sel k eip =>
    refine triple_getR_bind fun r hr => ?_
    rw [peNotVm_notProt hr, if_neg (by simp)]
    exact (keeps_farReal ..).triple hc
  | farCall sel k eip ret =>
    refine triple_getR_bind fun r hr => ?_
    rw [peNotVm_notProt hr, if_neg (by simp)]
    exact (keeps_farCallReal ..).triple hc
  | farRet k =>
    refine triple_getR_bind fun r hr => ?_
    rw [peNotVm_notProt hr, if_neg (by simp)]
    exact (keeps_farRetReal ..).triple hc
  | iret k =>
    have key : ∀ s, NotProt false s.r → instr acc (.iret k) s = iretReal acc k s ∨
        instr acc (.iret k) s = .stop (.exc GP 0#16) s := by
      intro s hs
      show (if s.r.hflags &&& H_PE ≠ 0#32 then iretPe acc k else iretReal acc k : M Unit) s = _ ∨
        (if s.r.hflags &&& H_PE ≠ 0#32 then iretPe acc k else iretReal acc k : M Unit) s = _
      rcases notProt_cases hs with h | h
      · rw [if_neg (pe_off h.pe)]; exact .inl rfl
      · rw [if_pos (pe_on h.pe)]
        have e : iretPe acc k s = (if (s.r.eflags &&& 0x3000#32) >>> 12 = 3#32 then iretReal acc k
            else stop (.exc GP 0#16) : M Unit) s := by
          show (if s.r.eflags &&& 0x20000#32 ≠ 0#32 then _ else _ : M Unit) s = _
          rw [if_pos (vm_on h.2.1)]
        rw [e]
        split
        · exact .inl rfl
        · exact .inr rfl
    have hk := (keeps_iretReal acc k).triple hc
    constructor
    · intro s a s' hs he
      rcases key s hs with h | h <;> rw [h] at he
      · exact hk.ok s a s' hs he
      · cases he
    · intro s a s' hs he
      rcases key s hs with h | h <;> rw [h] at he
      · exact hk.stop s a s' hs he
      · cases he; exact hs
  | movCr i n => exact triple_crM fun r r' f h hu => coherent_movToCr r r' i n f h.1 hu
  | lmsw v => exact triple_crM fun r r' f h hu => coherent_lmsw r r' v f h.1 hu
  | clts => exact triple_crM fun r r' f h hu => coherent_clts r r' f h.1 hu
  | ltr sel =>
    refine triple_getR_bind fun r hr => ?_
    refine triple_bind (keeps_check ..) fun _ => ?_
    refine triple_bind (keeps_check ..) fun _ => ?_
    exact (keeps_ltr acc sel fun r t h => by rw [notProt_iff] at h ⊢; exact h).triple hc
  | lldt sel =>
    refine triple_getR_bind fun r hr => ?_
    refine triple_bind (keeps_check ..) fun _ => ?_
    refine triple_bind (keeps_check ..) fun _ => ?_
    exact (keeps_lldt acc sel fun r t h => by rw [notProt_iff] at h ⊢; exact h).triple hc
  | event k idx code cr2 => exact (keeps_pure ()).triple hc
  | sync => exact absurd ho (by simp [notSync])

end Verif.Seg
