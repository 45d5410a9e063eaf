import Verif.Spec.RealSeg
import Verif.Props.IretFlags
import Verif.Props.GivesUp
/-
C94: segment registers in real and vm86 mode.
-/
namespace Verif.Seg
open Spec
open ModeP (Along syncOk isSync)

namespace RealSegP

theorem para_eq (sel : BitVec 16) : BitVec.ofNat 32 (16 * sel.toNat) = sel.setWidth 32 <<< 4 := by
  apply BitVec.eq_of_toNat_eq
  have := sel.isLt
  simp only [BitVec.toNat_shiftLeft, BitVec.toNat_setWidth, BitVec.toNat_ofNat, Nat.shiftLeft_eq]
  omega

theorem paragraph_eq (g : SegReg) (sel : BitVec 16) : paragraph g sel = { g with sel := sel, base := sel.setWidth 32 <<< 4 } := by
  unfold paragraph; rw [para_eq]

theorem paragraph_para (g : SegReg) (sel : BitVec 16) : Paragraph (paragraph g sel) := by
  have := sel.isLt
  show (BitVec.ofNat 32 (16 * sel.toNat)).toNat = _
  rw [BitVec.toNat_ofNat]
  show 16 * sel.toNat % 2 ^ 32 = 16 * sel.toNat
  omega

/-- Every segment register satisfies `Ok`, and VM is `c`. -/
def All (Ok : SR → SegReg → Prop) (c : Bool) (r : Regs) : Prop := (∀ i, Ok i (r.get i)) ∧ r.eflags[17] = c
/-- Loading in real mode keeps `Ok`. -/
def Closed (Ok : SR → SegReg → Prop) : Prop := ∀ i g sel, Ok i g → Ok i { g with sel := sel, base := sel.setWidth 32 <<< 4 }

variable {Ok : SR → SegReg → Prop} {c : Bool}

theorem all_cs (hc : Closed Ok) (r r' : Regs) (sel : BitVec 16) (h : All Ok c r) (e1 : r'.cs = { r.cs with sel := sel, base := sel.setWidth 32 <<< 4 })
    (e2 : r'.es = r.es ∧ r'.ss = r.ss ∧ r'.ds = r.ds ∧ r'.fs = r.fs ∧ r'.gs = r.gs) (e3 : r'.eflags[17] = r.eflags[17]) : All Ok c r' := by
  obtain ⟨a, b, c, d, e⟩ := e2
  obtain ⟨h, h17⟩ := h
  refine ⟨fun i => ?_, e3.trans h17⟩
  cases i
  · show Ok .es r'.es; rw [a]; exact h .es
  · show Ok .cs r'.cs; rw [e1]; exact hc .cs _ sel (h .cs)
  · show Ok .ss r'.ss; rw [b]; exact h .ss
  · show Ok .ds r'.ds; rw [c]; exact h .ds
  · show Ok .fs r'.fs; rw [d]; exact h .fs
  · show Ok .gs r'.gs; rw [e]; exact h .gs

theorem all_same (r r' : Regs) (h : All Ok c r) (e : (∀ i, r'.get i = r.get i) ∧ r'.eflags = r.eflags) : All Ok c r' :=
  ⟨fun i => by rw [e.1 i]; exact h.1 i, by rw [e.2]; exact h.2⟩

theorem set_get (r : Regs) (i j : SR) (g : SegReg) : ((r.set i g).get j = g ∧ j = i) ∨ (r.set i g).get j = r.get j := by
  cases i <;> cases j <;> first | exact .inl ⟨rfl, rfl⟩ | exact .inr rfl

theorem real_get (r : Regs) (h : BitVec 32) (i : SR) : Regs.get { r with hflags := h } i = r.get i := by cases i <;> rfl

theorem all_movSelReal (hc : Closed Ok) (i : SR) (sel : BitVec 16) : Keeps (All Ok c) (movSelReal i sel) := by
  unfold movSelReal
  refine keeps_modR fun r h => ?_
  refine ⟨fun j => ?_, ?_⟩
  case refine_2 => cases i <;> exact h.2
  dsimp only
  rw [real_get]
  rcases set_get r i j { r.get i with sel := sel, base := sel.setWidth 32 <<< 4 } with ⟨e, hj⟩ | e
  · rw [e, hj]; exact hc i _ sel (h.1 i)
  · rw [e]; exact h.1 j

theorem all_farReal (hc : Closed Ok) (sel : BitVec 16) (eip : BitVec 32) : Keeps (All Ok c) (farReal sel eip) :=
  keeps_modR fun r h => all_cs hc r _ sel h rfl ⟨rfl, rfl, rfl, rfl, rfl⟩ rfl

theorem all_esp (r : Regs) (esp : BitVec 32) (h : All Ok c r) : All Ok c { r with esp := esp } := all_same r _ h ⟨fun i => by cases i <;> rfl, rfl⟩

theorem all_farCallReal (hc : Closed Ok) (acc : Acc) (sel : BitVec 16) (k : Nat) (eip ret : BitVec 32) : Keeps (All Ok c) (farCallReal acc sel k eip ret) := by
  unfold farCallReal
  refine keeps_bind keeps_getR fun r => ?_
  refine keeps_bind (keeps_pushV ..) fun sp => ?_
  refine keeps_bind (keeps_pushV ..) fun sp => ?_
  exact keeps_bind (keeps_modR fun r h => all_esp r _ h) fun _ => all_farReal hc ..

theorem all_farRetReal (hc : Closed Ok) (acc : Acc) (k : Nat) : Keeps (All Ok c) (farRetReal acc k) := by
  unfold farRetReal
  refine keeps_bind keeps_getR fun r => ?_
  refine keeps_bind (keeps_popV ..) fun p => ?_
  refine keeps_bind (keeps_popV ..) fun q => ?_
  exact keeps_bind (keeps_modR fun r h => all_esp r _ h) fun _ => all_farReal hc ..

theorem all_iretReal (hc : Closed Ok) (acc : Acc) (k : Nat) : Keeps (All Ok c) (iretReal acc k) := by
  unfold iretReal
  refine keeps_bind keeps_getR fun r => ?_
  refine keeps_bind (keeps_popV ..) fun p => ?_
  refine keeps_bind (keeps_popV ..) fun q => ?_
  refine keeps_bind (keeps_popV ..) fun t => ?_
  exact keeps_modR fun r' h => all_cs hc r' _ (q.1.setWidth 16) h rfl ⟨rfl, rfl, rfl, rfl, rfl⟩ (by
    split <;> split <;> simp [writeEflags])

theorem all_vmeRedirect (hc : Closed Ok) (acc : Acc) (idx : Nat) (cr2 : BitVec 32) : Keeps (All Ok c) (vmeRedirect acc idx cr2) := by
  unfold vmeRedirect
  refine keeps_bind keeps_getR fun r0 => ?_
  refine keeps_bind (keeps_pushAll ..) fun sp => ?_
  refine keeps_bind (keeps_rd ..) fun v => ?_
  exact keeps_modR fun r h => all_cs hc r _ _ h rfl ⟨rfl, rfl, rfl, rfl, rfl⟩ (by
    show (r.eflags &&& ~~~(if (r0.eflags &&& 0x3000#32) >>> 12 = 3#32 then 0x80300#32 else 0x100#32))[17] = _
    split <;> simp)

theorem all_deliverReal (hc : Closed Ok) (acc : Acc) (idx : Nat) : Keeps (All Ok c) (deliverReal acc idx) := by
  unfold deliverReal
  refine keeps_bind keeps_getR fun r => ?_
  refine keeps_bind (keeps_check ..) fun _ => ?_
  refine keeps_bind (keeps_rd ..) fun v => ?_
  refine keeps_bind (keeps_pushAll ..) fun sp => ?_
  exact keeps_modR fun r h => all_cs hc r _ _ h rfl ⟨rfl, rfl, rfl, rfl, rfl⟩ (by first | (split <;> simp) | simp)

theorem keeps_and {α : Type} {P Q : Regs → Prop} {m : M α} (h1 : Keeps P m) (h2 : Keeps Q m) : Keeps (fun r => P r ∧ Q r) m := by
  constructor
  intro s hs
  have a := h1.run s hs.1
  have b := h2.run s hs.2
  cases hm : m s with
  | ok x s' => rw [hm] at a b; exact ⟨a, b⟩
  | stop x s' => rw [hm] at a b; exact ⟨a, b⟩

/-- A control register write changes neither segment registers nor EFLAGS. -/
theorem cr_same {r r' : Regs} {f : Flush} : (∀ i n, movToCr r i n = .ok r' f → (∀ j, r'.get j = r.get j) ∧ r'.eflags = r.eflags) ∧
    (∀ v, Seg.lmsw r v = .ok r' f → (∀ j, r'.get j = r.get j) ∧ r'.eflags = r.eflags) ∧
    (Seg.clts r = .ok r' f → (∀ j, r'.get j = r.get j) ∧ r'.eflags = r.eflags) := by
  have h0 : ∀ k n, updateCr0 k r n = .ok r' f → (∀ j, r'.get j = r.get j) ∧ r'.eflags = r.eflags := by
    intro k n h
    cases k <;> unfold updateCr0 at h
    · dsimp only at h
      split at h
      · cases h
      · cases h; exact ⟨fun j => by cases j <;> rfl, rfl⟩
    · cases h; exact ⟨fun j => by cases j <;> rfl, rfl⟩
    · cases h; exact ⟨fun j => by cases j <;> rfl, rfl⟩
  refine ⟨fun i n h => ?_, fun v h => ?_, fun h => ?_⟩
  · unfold movToCr at h
    split at h
    · cases h
    · split at h
      · exact h0 _ _ h
      · cases h; exact ⟨fun j => by cases j <;> rfl, rfl⟩
      · cases h; exact ⟨fun j => by cases j <;> rfl, rfl⟩
      · unfold updateCr4 at h
        split at h
        · cases h
        · split at h
          · cases h
          · cases h; exact ⟨fun j => by cases j <;> rfl, rfl⟩
      · cases h
  · unfold Seg.lmsw at h
    split at h
    · cases h
    · exact h0 _ _ h
  · unfold Seg.clts at h
    split at h
    · cases h
    · exact h0 _ _ h

theorem all_tr (r : Regs) (t : SegReg) (h : All Ok c r) : All Ok c { r with tr := t } := all_same r _ h ⟨fun i => by cases i <;> rfl, rfl⟩
theorem all_ldtr (r : Regs) (t : SegReg) (h : All Ok c r) : All Ok c { r with ldtr := t } := all_same r _ h ⟨fun i => by cases i <;> rfl, rfl⟩

/-- Outside protected mode every instruction keeps `All Ok c`. -/
theorem triple_instr (hc : Closed Ok) (acc : Acc) (o : Op) (ho : notSync o) :
    Triple (fun r => NotProt false r ∧ All Ok c r) (fun r => Coherent false r ∧ All Ok c r) (instr acc o) := by
  have w : ∀ r, NotProt false r ∧ All Ok c r → Coherent false r ∧ All Ok c r := fun r h => ⟨h.1.1, h.2⟩
  cases o with
  | loadSeg i sel =>
    cases i with
    | cs => exact (keeps_stop _).triple w
    | _ =>
      refine triple_getR_bind fun r hr => ?_
      rw [peNotVm_notProt hr.1, if_neg (by simp)]
      exact (keeps_and (keeps_movSelReal ..) (all_movSelReal hc ..)).triple w
  | farJmp sel k eip =>
    refine triple_getR_bind fun r hr => ?_
    rw [peNotVm_notProt hr.1, if_neg (by simp)]
    exact (keeps_and (keeps_farReal ..) (all_farReal hc ..)).triple w
  | farCall sel k eip ret =>
    refine triple_getR_bind fun r hr => ?_
    rw [peNotVm_notProt hr.1, if_neg (by simp)]
    exact (keeps_and (keeps_farCallReal ..) (all_farCallReal hc ..)).triple w
  | farRet k =>
    refine triple_getR_bind fun r hr => ?_
    rw [peNotVm_notProt hr.1, if_neg (by simp)]
    exact (keeps_and (keeps_farRetReal ..) (all_farRetReal hc ..)).triple w
  | iret k =>
    have key : ∀ s, NotProt false s.r → instr acc (.iret k) s = iretReal acc k s ∨
        instr acc (.iret k) s = .stop (.exc GP 0#16) s := by
      intro s hs
      show (if s.r.hflags &&& H_PE ≠ 0#32 then iretPe acc k else iretReal acc k : M Unit) s = _ ∨
        (if s.r.hflags &&& H_PE ≠ 0#32 then iretPe acc k else iretReal acc k : M Unit) s = _
      rcases notProt_cases hs with h | h
      · rw [if_neg (pe_off h.pe)]; exact .inl rfl
      · rw [if_pos (pe_on h.pe)]
        have e : iretPe acc k s = (if (s.r.eflags &&& 0x3000#32) >>> 12 = 3#32 then iretReal acc k
            else stop (.exc GP 0#16) : M Unit) s := by
          show (if s.r.eflags &&& 0x20000#32 ≠ 0#32 then _ else _ : M Unit) s = _
          rw [if_pos (vm_on h.2.1)]
        rw [e]
        split
        · exact .inl rfl
        · exact .inr rfl
    have hk := (keeps_and (keeps_iretReal acc k) (all_iretReal hc acc k)).triple w
    constructor
    · intro s a s' hs he
      rcases key s hs.1 with h | h <;> rw [h] at he
      · exact hk.ok s a s' hs he
      · cases he
    · intro s a s' hs he
      rcases key s hs.1 with h | h <;> rw [h] at he
      · exact hk.stop s a s' hs he
      · cases he; exact hs
  | movCr i n => exact triple_crM (f := fun r => movToCr r i n) fun r r' f h hu => ⟨coherent_movToCr r r' i n f h.1.1 hu, all_same r r' h.2 (cr_same.1 i n hu)⟩
  | lmsw v => exact triple_crM (f := fun r => Seg.lmsw r v) fun r r' f h hu => ⟨coherent_lmsw r r' v f h.1.1 hu, all_same r r' h.2 (cr_same.2.1 v hu)⟩
  | clts => exact triple_crM fun r r' f h hu => ⟨coherent_clts r r' f h.1.1 hu, all_same r r' h.2 (cr_same.2.2 hu)⟩
  | ltr sel =>
    refine triple_getR_bind fun r hr => ?_
    refine triple_bind (keeps_check ..) fun _ => ?_
    refine triple_bind (keeps_check ..) fun _ => ?_
    exact (keeps_ltr acc sel fun r t h => ⟨by have := h.1; rw [notProt_iff] at this ⊢; exact this, all_tr r t h.2⟩).triple w
  | lldt sel =>
    refine triple_getR_bind fun r hr => ?_
    refine triple_bind (keeps_check ..) fun _ => ?_
    refine triple_bind (keeps_check ..) fun _ => ?_
    exact (keeps_lldt acc sel fun r t h => ⟨by have := h.1; rw [notProt_iff] at this ⊢; exact this, all_ldtr r t h.2⟩).triple w
  | event k idx code cr2 => exact (keeps_pure ()).triple w
  | sync => exact absurd ho (by simp [notSync])

theorem all_deliver_real (hc : Closed Ok) (acc : Acc) (k : Kind) (idx : Nat) (code : BitVec 16) (cr2 : BitVec 32) :
    Keeps (fun r => RealC false r ∧ All Ok c r) (deliver acc k idx code cr2) := by
  constructor
  intro s hs
  have a := (keeps_deliver_real (fl := false) acc k idx code cr2).run s hs.1
  have e : deliver acc k idx code cr2 s = deliverReal acc idx s := by
    show (if s.r.hflags &&& H_PE ≠ 0#32 then _ else _ : M Unit) s = _
    rw [if_neg (pe_off hs.1.pe)]
  have b := (all_deliverReal hc acc idx).run s hs.2
  rw [← e] at b
  cases hm : deliver acc k idx code cr2 s with
  | ok x s' => rw [hm] at a b; exact ⟨a, b⟩
  | stop x s' => rw [hm] at a b; exact ⟨a, b⟩

/-- What a vm86 task's registers satisfy, if the processor is in a vm86 task. -/
def VmAll (Ok : SR → SegReg → Prop) (r : Regs) : Prop := r.eflags[17] = true → ∀ i, Ok i (r.get i)

theorem all_fromVm86 (acc : Acc) (k : Kind) (idx : Nat) (code : BitVec 16) (cr2 : BitVec 32) (is32 : Bool) (eflags neip : BitVec 32) (sel : BitVec 16)
    (cd : BitVec 64) (dpl : Nat) : Triple (fun r => VmC false r ∧ All Ok c r) (fun r => Coherent false r ∧ VmAll Ok r)
      (fromVm86 acc k idx code cr2 is32 eflags neip sel cd dpl) := by
  unfold fromVm86
  refine triple_getR_bind fun r hr => ?_
  refine triple_bind (keeps_check ..) fun _ => ?_
  refine triple_bind (keeps_newStack ..) fun p => ?_
  refine triple_bind (keeps_pushAll ..) fun sp => ?_
  refine triple_modR fun r' h => ?_
  have q : ∀ r2, Prot false r2 → Coherent false r2 ∧ VmAll Ok r2 := fun r2 h => ⟨h.coherent, fun h2 => by have := h.2.2; rw [h2] at this; cases this⟩
  exact q _ (prot_vmExit r' sel p.2.1 cd p.2.2 _ _ _ _ _ (by simp) h.1)

theorem all_deliver_vm (hc : Closed Ok) (acc : Acc) (k : Kind) (idx : Nat) (code : BitVec 16) (cr2 : BitVec 32) :
    Triple (fun r => VmC false r ∧ All Ok c r) (fun r => Coherent false r ∧ VmAll Ok r) (deliver acc k idx code cr2) := by
  have idt : Triple (fun r => VmC false r ∧ All Ok c r) (fun r => Coherent false r ∧ VmAll Ok r) (deliverIdt acc k idx code cr2) := by
    unfold deliverIdt
    refine triple_getR_bind fun r hr => ?_
    have hvm := vm_on hr.1.2.1
    have hvm' : (r.eflags &&& 0x20000#32 != 0#32) = true := by simpa using hvm
    refine triple_bind (keeps_check ..) fun _ => ?_
    refine triple_bind (keeps_rd ..) fun dv => ?_
    refine triple_bind (keeps_check ..) fun _ => ?_
    refine triple_bind (keeps_check ..) fun _ => ?_
    refine triple_bind (keeps_check ..) fun _ => ?_
    refine triple_bind (keeps_check ..) fun _ => ?_
    refine triple_bind (keeps_check ..) fun _ => ?_
    refine triple_bind (keeps_mapExc _ (keeps_readDesc ..)) fun p => ?_
    refine triple_bind (keeps_check ..) fun _ => ?_
    refine triple_bind (keeps_check ..) fun _ => ?_
    refine triple_bind (keeps_setAccessed ..) fun _ => ?_
    refine triple_ite (fun _ => ?_) (fun _ => ?_)
    · exact triple_ite (fun _ => all_fromVm86 ..) (fun h => absurd hvm h)
    · refine triple_stop_check fun h => ?_
      rw [hvm'] at h; cases h
  unfold deliver
  refine triple_getR_bind fun r hr => ?_
  rw [if_pos (pe_on hr.1.pe)]
  refine triple_bind (keeps_check ..) fun _ => ?_
  refine triple_ite (fun _ => ?_) (fun _ => idt)
  refine triple_bind (keeps_rd ..) fun _ => ?_
  refine triple_bind (keeps_rd ..) fun _ => ?_
  refine triple_ite (fun _ => ?_) (fun _ => ?_)
  · have t1 := triple_vmeRedirect acc idx cr2
    have t2 := all_vmeRedirect (c := c) hc acc idx cr2
    constructor
    · intro s a s' hs he
      have := t2.run s hs.2
      rw [he] at this
      exact ⟨t1.ok s a s' hs.1 he, fun _ => this.1⟩
    · intro s a s' hs he
      have := t2.run s hs.2
      rw [he] at this
      exact ⟨t1.stop s a s' hs.1 he, this⟩
  · exact triple_bind (keeps_check ..) fun _ => idt


/-- The `Ok` of vm86 mode. -/
def VmOk (_ : SR) (g : SegReg) : Prop := Paragraph g ∧ g.limit = 0xFFFF#32
theorem vmOk_closed : Closed VmOk := fun i g sel h => ⟨by rw [← paragraph_eq]; exact paragraph_para g sel, h.2⟩
theorem true_closed : Closed (fun _ _ => True) := fun _ _ _ _ => trivial
/-- The `Ok` of real mode, from the registers `r0` on. -/
def RealOk (r0 : Regs) (i : SR) (g : SegReg) : Prop := RealSeg (r0.get i) g
theorem realOk_closed (r0 : Regs) : Closed (RealOk r0) := fun i g sel h => .inr ⟨by rw [← paragraph_eq]; exact paragraph_para g sel, by
  rcases h with h | h
  · rw [h]; exact ⟨rfl, rfl⟩
  · exact h.2⟩

theorem holds_and {P Q : Regs → Prop} {o : Outcome} (h1 : o.holds P) (h2 : o.holds Q) : o.holds fun r => P r ∧ Q r := by
  cases o <;> first | exact ⟨h1, h2⟩ | trivial
theorem holds_mono {P Q : Regs → Prop} {o : Outcome} (h1 : o.holds P) (h : ∀ r, P r → Q r) : o.holds Q := by
  cases o <;> first | exact h _ h1 | trivial

theorem exec_real (hc : Closed Ok) (acc : Acc) (pf : Cpu → BitVec 16 × BitVec 32) (o : Op) (s : Cpu) (h : RealC false s.r) (hk : ∀ i, Ok i (s.r.get i))
    (ho : notSync o) : (exec acc pf o s).holds fun r => Coherent false r ∧ All Ok false r := by
  refine exec_holds (P := fun r => NotProt false r ∧ All Ok false r) acc pf o s ⟨notProt_mono (.inl h), hk, h.2.1⟩ (triple_instr hc acc o ho) ?_
    (fun r h => ⟨h.1.1, h.2⟩)
  intro k idx code cr2 s hs
  rcases notProt_cases hs.1 with hr | hr
  · exact raise_triple (P := fun r => RealC false r ∧ All Ok false r) acc pf (fun r h => ⟨(coherent_three _).2 (.inl h.1), h.2⟩)
      (fun _ _ _ _ => (all_deliver_real hc ..).triple fun r h => ⟨(coherent_three _).2 (.inl h.1), h.2⟩) _ _ _ _ _ _ s ⟨hr, hs.2⟩
  · exact absurd (hr.2.1.symm.trans hs.2.2) (by simp)

theorem exec_vm (hc : Closed Ok) (acc : Acc) (pf : Cpu → BitVec 16 × BitVec 32) (o : Op) (s : Cpu) (h : VmC false s.r) (hk : ∀ i, Ok i (s.r.get i))
    (ho : notSync o) : (exec acc pf o s).holds fun r => Coherent false r ∧ VmAll Ok r := by
  refine exec_holds (P := fun r => NotProt false r ∧ All Ok true r) acc pf o s ⟨notProt_mono (.inr h), hk, h.2.1⟩ ?_ ?_
    (fun r h => ⟨h.1.1, fun _ => h.2.1⟩)
  · have := triple_instr (c := true) hc acc o ho
    exact ⟨fun s a s' hs he => ⟨(this.ok s a s' hs he).1, fun _ => (this.ok s a s' hs he).2.1⟩, this.stop⟩
  · intro k idx code cr2 s hs
    rcases notProt_cases hs.1 with hr | hr
    · exact absurd (hr.2.1.symm.trans hs.2.2) (by simp)
    · exact raise_triple (P := fun r => VmC false r ∧ All Ok true r) acc pf (fun r h => ⟨(coherent_three _).2 (.inr (.inl h.1)), fun _ => h.2.1⟩)
        (fun _ _ _ _ => all_deliver_vm hc ..) _ _ _ _ _ _ s ⟨hr, hs.2⟩

theorem prot_vmAll {r : Regs} (h : Prot false r) : Coherent false r ∧ VmAll Ok r :=
  ⟨h.coherent, fun h2 => by have := h.2.2; rw [h2] at this; cases this⟩

theorem vm86Regs_segs (eip : BitVec 32) (cs : BitVec 16) (e nesp ss es ds fs gs : BitVec 32) (r : Regs) (i : SR) :
    VmOk i ((vm86Regs eip cs e nesp ss es ds fs gs r).get i) := by
  have h : ∀ (sel : BitVec 16) (f : BitVec 32), VmOk i ⟨sel, sel.setWidth 32 <<< 4, 0xFFFF#32, f⟩ := by
    intro sel f
    refine ⟨?_, rfl⟩
    have := paragraph_para ⟨sel, 0#32, 0xFFFF#32, f⟩ sel
    rw [paragraph_eq] at this
    exact this
  cases i <;> exact h _ _

theorem oks_iret (acc : Acc) (k : Nat) (s s' : Cpu) (hp : Prot false s.r) (h : iretPe acc k s = .ok () s') : VmAll VmOk s'.r := by
  unfold iretPe at h
  rw [bind_getR, if_neg (vm_off hp.2.2), bind_check] at h
  split at h
  · cases h
  obtain ⟨⟨eip, sp⟩, s1, h1, g1⟩ := bind_ok.1 h
  obtain ⟨⟨cs, sp'⟩, s2, h2, g2⟩ := bind_ok.1 g1
  obtain ⟨⟨e, sp''⟩, s3, h3, g3⟩ := bind_ok.1 g2
  have k1 := (keeps_popV (P := Prot false) acc k s.r.esp).run s hp
  rw [h1] at k1
  have k2 := (keeps_popV (P := Prot false) acc k sp).run s1 k1
  rw [h2] at k2
  have k3 := (keeps_popV (P := Prot false) acc k sp').run s2 k2
  rw [h3] at k3
  dsimp only at g3
  split at g3
  · rw [iretToVm86_eq] at g3
    obtain ⟨p3, s3, -, g3⟩ := bind_ok.1 g3
    obtain ⟨p4, s4, -, g4⟩ := bind_ok.1 g3
    obtain ⟨p5, s5, -, g5⟩ := bind_ok.1 g4
    obtain ⟨p6, s6, -, g6⟩ := bind_ok.1 g5
    obtain ⟨p7, s7, -, g7⟩ := bind_ok.1 g6
    obtain ⟨p8, s8, -, g8⟩ := bind_ok.1 g7
    have := modR_ok.1 g8
    rw [this]
    intro _ i
    exact vm86Regs_segs ..
  · rename_i hv
    have hv : e[17] = false := by
      cases hb : e[17]
      · rfl
      · exact absurd ((and_ne_zero_bit _ _ 17 (by omega) rfl).2 hb) hv
    have hk := (keeps_retPe (fl := false) acc k eip (cs.setWidth 16) sp'' (some (e, iretMask k s.r)) (by intro v m h; cases h; exact hv)).run s3 k3
    rw [g3] at hk
    exact (prot_vmAll hk).2

theorem oks_instr_prot (acc : Acc) (o : Op) (s s' : Cpu) (hp : Prot false s.r) (h : instr acc o s = .ok () s') : VmAll VmOk s'.r := by
  have key : ∀ {m : M Unit}, Keeps (Prot false) m → m s = .ok () s' → VmAll VmOk s'.r := by
    intro m hk hm
    have := hk.run s hp
    rw [hm] at this
    exact (prot_vmAll this).2
  have cr : ∀ {f : Regs → CrRes}, (∀ r' x, f s.r = .ok r' x → r'.eflags = s.r.eflags) → crM f s = .ok () s' → VmAll VmOk s'.r := by
    intro f hf hm
    unfold crM at hm
    cases hx : f s.r with
    | gp => rw [hx] at hm; cases hm
    | abort => rw [hx] at hm; cases hm
    | ok r x =>
      rw [hx] at hm; cases hm
      intro h17
      have h17 : r.eflags[17] = true := h17
      rw [hf r x hx, hp.2.2] at h17; cases h17
  have hpn := peNotVm_prot hp
  cases o with
  | loadSeg i sel =>
    cases i with
    | cs => cases h
    | _ =>
      change (if peNotVm s.r = true then _ else _ : M Unit) s = _ at h
      rw [hpn, if_pos rfl] at h
      exact key (keeps_movSelPe ..) h
  | farJmp sel k eip =>
    change (if peNotVm s.r = true then _ else _ : M Unit) s = _ at h
    rw [hpn, if_pos rfl] at h
    exact key (keeps_ljmpPe ..) h
  | farCall sel k eip ret =>
    change (if peNotVm s.r = true then _ else _ : M Unit) s = _ at h
    rw [hpn, if_pos rfl] at h
    exact key (keeps_lcallPe ..) h
  | farRet k =>
    change (if peNotVm s.r = true then _ else _ : M Unit) s = _ at h
    rw [hpn, if_pos rfl] at h
    exact key (keeps_lretPe ..) h
  | iret k =>
    change (if s.r.hflags &&& H_PE ≠ 0#32 then _ else _ : M Unit) s = _ at h
    rw [if_pos (pe_on hp.pe)] at h
    exact oks_iret acc k s s' hp h
  | movCr i n => exact cr (f := fun r => movToCr r i n) (fun r' x hx => (cr_same.1 i n hx).2) h
  | lmsw v => exact cr (f := fun r => Seg.lmsw r v) (fun r' x hx => (cr_same.2.1 v hx).2) h
  | clts => exact cr (f := Seg.clts) (fun r' x hx => (cr_same.2.2 hx).2) h
  | ltr sel =>
    change (check _ _ >>= fun _ => check _ _ >>= fun _ => Seg.ltr acc sel : M Unit) s = _ at h
    exact key (keeps_bind (keeps_check ..) fun _ => keeps_bind (keeps_check ..) fun _ => keeps_ltr acc sel fun r t h => h) h
  | lldt sel =>
    change (check _ _ >>= fun _ => check _ _ >>= fun _ => Seg.lldt acc sel : M Unit) s = _ at h
    exact key (keeps_bind (keeps_check ..) fun _ => keeps_bind (keeps_check ..) fun _ => keeps_lldt acc sel fun r t h => h) h
  | event k idx code cr2 => cases h; exact (prot_vmAll hp).2
  | sync =>
    have := modR_ok.1 h
    rw [this]
    intro h17
    have h17 : s.r.eflags[17] = true := h17
    rw [hp.2.2] at h17; cases h17

theorem exec_prot (acc : Acc) (pf : Cpu → BitVec 16 × BitVec 32) (o : Op) (s : Cpu) (h : Prot false s.r) :
    (exec acc pf o s).holds fun r => Coherent false r ∧ VmAll VmOk r := by
  refine exec_holds (P := Prot false) acc pf o s h ?_ ?_ (fun r h => prot_vmAll h)
  · have := triple_instr_prot (fl := false) acc o
    exact ⟨fun s a s' hs he => ⟨this.ok s a s' hs he, oks_instr_prot acc o s s' hs he⟩, this.stop⟩
  · intro k idx code cr2 s hs
    exact holds_mono (raise_prot acc pf 5 k none idx code cr2 s hs) fun r h => prot_vmAll h

theorem exec_any (acc : Acc) (pf : Cpu → BitVec 16 × BitVec 32) (o : Op) (s : Cpu) (h : Coherent false s.r ∧ VmAll VmOk s.r) (ho : syncOk o s.r) :
    (exec acc pf o s).holds fun r => Coherent false r ∧ VmAll VmOk r := by
  have hns : mode s.r ≠ .prot → notSync o := by
    intro hm
    cases o <;> try trivial
    exact hm (ho rfl)
  rcases (coherent_three _).1 h.1 with hr | hr | hr
  · refine holds_mono (exec_real true_closed acc pf o s hr (fun _ => trivial) (hns (by rw [mode_real_of hr]; simp))) fun r h => ⟨h.1, fun h17 => ?_⟩
    have := h.2.2
    rw [h17] at this; cases this
  · exact exec_vm vmOk_closed acc pf o s hr (h.2 hr.2.1) (hns (by rw [mode_vm_of hr]; simp))
  · exact exec_prot acc pf o s hr

end RealSegP
open RealSegP

/-- Loading a data or stack segment register in real or vm86 mode: never refused; the register has the selector and 16 times the selector as base;
its limit and attributes, all other registers (except the cached mode bits) and memory stay. -/
theorem C94_load (acc : Acc) (s : Cpu) (i : SR) (sel : BitVec 16) (ha : AgreeCore s.r) (hm : mode s.r ≠ .prot) (hi : i ≠ .cs) :
    ∃ s', instr acc (.loadSeg i sel) s = .ok () s' ∧ s'.mem = s.mem ∧
      { s'.r with hflags := s.r.hflags } = s.r.set i (paragraph (s.r.get i) sel) := by
  have hpn : peNotVm s.r = false := peNotVm_off ha hm
  have e : instr acc (.loadSeg i sel) s = movSelReal i sel s := by
    cases i <;> first | exact absurd rfl hi | (show (if peNotVm s.r = true then _ else _ : M Unit) s = _; rw [hpn]; rfl)
  refine ⟨_, e, rfl, ?_⟩
  rw [paragraph_eq]
  cases i <;> rfl

/-- A far jump in real or vm86 mode. -/
theorem C94_jump (acc : Acc) (s : Cpu) (sel : BitVec 16) (k : Nat) (eip : BitVec 32) (ha : AgreeCore s.r) (hm : mode s.r ≠ .prot) :
    instr acc (.farJmp sel k eip) s = .ok () ⟨{ s.r with cs := paragraph s.r.cs sel, eip := eip }, s.mem⟩ := by
  have hpn : peNotVm s.r = false := peNotVm_off ha hm
  show (if peNotVm s.r = true then _ else _ : M Unit) s = _
  rw [hpn, paragraph_eq]; rfl

/-- In vm86 mode every segment register has 16 times its selector as base and a limit of 64 KiB, after every history of segment loads, far
transfers, IRETs, control register writes, exceptions and interrupts, however the vm86 task was entered. -/
theorem C94_vm86 (acc : Acc) (pf : Cpu → BitVec 16 × BitVec 32) (os : List Op) (s : Cpu) (ha : AgreeCore s.r) (hv : NoVmInReal s.r)
    (hs : mode s.r = .vm86 → Vm86Segs s.r) (ho : Along acc pf syncOk os s) :
    (run acc pf os s).holds fun r => mode r = .vm86 → Vm86Segs r := by
  have vm : ∀ r : Regs, mode r = .vm86 → r.eflags[17] = true := by
    intro r hm
    unfold mode at hm
    split at hm
    · cases hm
    · split at hm
      · assumption
      · cases hm
  refine holds_mono (run_along acc pf syncOk (fun r => Coherent false r ∧ VmAll VmOk r) (fun o s h hp => exec_any acc pf o s h hp) os s
    ⟨(coherent_false _).2 ⟨ha, hv⟩, fun h17 => hs ?_⟩ ho) fun r h hm => h.2 (vm r hm)
  unfold mode
  split
  · rename_i h0
    rw [hv h0] at h17; cases h17
  · rfl

/-- A history in real mode: a segment register was not loaded, or has 16 times its selector as base and the limit and attributes it started with. -/
theorem C94_real (acc : Acc) (pf : Cpu → BitVec 16 × BitVec 32) (os : List Op) (s : Cpu) (ha : AgreeCore s.r) (hv : NoVmInReal s.r)
    (ho : Along acc pf (fun o r => mode r = .real ∧ isSync o = false) os s) :
    (run acc pf os s).holds fun r => ∀ i, RealSeg (s.r.get i) (r.get i) := by
  refine holds_mono (run_along acc pf _ (fun r => Coherent false r ∧ ∀ i, RealOk s.r i (r.get i)) ?_ os s
    ⟨(coherent_false _).2 ⟨ha, hv⟩, fun i => .inl rfl⟩ ho) fun r h => h.2
  intro o s1 h hp
  rcases (coherent_three _).1 h.1 with hr | hr | hr
  · refine holds_mono (exec_real (realOk_closed s.r) acc pf o s1 hr h.2 ?_) fun r h => ⟨h.1, h.2.1⟩
    cases o <;> first | trivial | (have := hp.2; cases this)
  · have := hp.1; rw [mode_vm_of hr] at this; cases this
  · have := hp.1; rw [mode_prot_of hr] at this; cases this

namespace RealSegP
open SegP EventP IretP
/-- Does a run end in this mode with this in DS? -/
def endsWith (m : Mode) (sel : BitVec 16) (base : BitVec 32) : Outcome → Bool
  | .done s => decide (mode s.r = m) && s.r.ds.sel == sel && s.r.ds.base == base && s.r.ds.limit == 0xFFFF#32
  | _ => false
end RealSegP

-- A kernel enters a vm86 task with IRET; the task loads DS.
example : AgreeCore IretP.user2.r ∧ mode IretP.user2.r = .prot ∧
    Along SegP.allOk (fun _ => (0#16, 0#32)) syncOk [.iret 4, .loadSeg .ds 0x1234#16] IretP.user2 ∧
    endsWith .vm86 0x1234#16 0x12340#32 (run SegP.allOk (fun _ => (0#16, 0#32)) [.iret 4, .loadSeg .ds 0x1234#16] IretP.user2) = true := by
  refine ⟨?_, by decide, ⟨fun h => (by cases h), fun _ _ => ⟨fun h => (by cases h), fun _ _ => trivial⟩⟩, by decide +kernel⟩
  constructor <;> decide

-- A fresh processor loads DS and jumps.
example : AgreeCore ModeP.reset ∧ NoVmInReal ModeP.reset ∧
    Along SegP.allOk (fun _ => (0#16, 0#32)) (fun o r => mode r = .real ∧ isSync o = false) [.loadSeg .ds 0x1234#16, .farJmp 0x100#16 2 5#32]
      ⟨ModeP.reset, fun _ => 0#8⟩ ∧
    endsWith .real 0x1234#16 0x12340#32 (run SegP.allOk (fun _ => (0#16, 0#32)) [.loadSeg .ds 0x1234#16, .farJmp 0x100#16 2 5#32]
      ⟨ModeP.reset, fun _ => 0#8⟩) = true := by
  refine ⟨?_, fun _ => by decide, ⟨⟨by decide, rfl⟩, fun s' h => ⟨?_, fun _ _ => trivial⟩⟩, by decide +kernel⟩
  · constructor <;> decide
  · cases h
    exact ⟨by decide, rfl⟩

end Verif.Seg
