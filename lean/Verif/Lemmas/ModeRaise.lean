import Verif.Lemmas.ModeExc
/- Exception delivery and the mode bits. -/
namespace Verif.Seg
open Spec

variable {fl : Bool}

theorem keeps_getR_bind {α : Type} {P : Regs → Prop} {f : Regs → M α}
    (h : ∀ r, P r → Keeps P (f r)) : Keeps P (getR >>= f) := by
  constructor
  intro s hs
  exact (h s.r hs).run s hs

theorem triple_getR_bind {α : Type} {P Q : Regs → Prop} {f : Regs → M α}
    (h : ∀ r, P r → Triple P Q (f r)) : Triple P Q (getR >>= f) := by
  constructor
  · intro s a s' hs he; exact (h s.r hs).ok s a s' hs he
  · intro s e s' hs he; exact (h s.r hs).stop s e s' hs he

theorem triple_ite {α : Type} {P Q : Regs → Prop} {c : Prop} [Decidable c] {m n : M α}
    (hm : c → Triple P Q m) (hn : ¬ c → Triple P Q n) : Triple P Q (if c then m else n) := by
  split
  · exact hm ‹_›
  · exact hn ‹_›

theorem keeps_dite' {α : Type} {P : Regs → Prop} {c : Prop} [Decidable c] {m n : M α}
    (hm : c → Keeps P m) (hn : ¬ c → Keeps P n) : Keeps P (if c then m else n) := by
  split
  · exact hm ‹_›
  · exact hn ‹_›

theorem triple_mono {α : Type} {P Q Q' : Regs → Prop} {m : M α} (h : Triple P Q m)
    (hq : ∀ r, Q r → Q' r) : Triple P Q' m :=
  ⟨fun s a s' hs he => hq _ (h.ok s a s' hs he), h.stop⟩

theorem vm_off {r : Regs} (h : r.eflags[17] = false) : ¬ (r.eflags &&& 0x20000#32 ≠ 0#32) := by
  rw [and_ne_zero_bit r.eflags 0x20000#32 17 (by omega) rfl, h]; simp
theorem vm_on {r : Regs} (h : r.eflags[17] = true) : r.eflags &&& 0x20000#32 ≠ 0#32 := by
  rw [and_ne_zero_bit r.eflags 0x20000#32 17 (by omega) rfl, h]
theorem pe_on {r : Regs} (h : r.hflags[4] = true) : r.hflags &&& H_PE ≠ 0#32 := by
  rw [and_ne_zero_bit r.hflags H_PE 4 (by omega) rfl, h]
theorem pe_off {r : Regs} (h : r.hflags[4] = false) : ¬ (r.hflags &&& H_PE ≠ 0#32) := by
  rw [and_ne_zero_bit r.hflags H_PE 4 (by omega) rfl, h]; simp

theorem Prot.pe {r : Regs} (h : Prot fl r) : r.hflags[4] = true := h.1.2.1.1.trans h.2.1

/-- Real mode with agreeing mode bits. -/
def RealC (fl : Bool) (r : Regs) : Prop := r.cr0[0] = false ∧ r.eflags[17] = false ∧
  (r.hflags[0] = false ∧ r.hflags[1] = false ∧ r.hflags[2] = false ∧ r.hflags[3] = false) ∧ CB fl r
/-- Vm86 mode with agreeing mode bits. -/
def VmC (fl : Bool) (r : Regs) : Prop := r.cr0[0] = true ∧ r.eflags[17] = true ∧
  (r.hflags[0] = true ∧ r.hflags[1] = true ∧ r.hflags[2] = false ∧ r.hflags[3] = false) ∧ CB fl r

theorem coherent_three (r : Regs) : Coherent fl r ↔ RealC fl r ∨ VmC fl r ∨ Prot fl r := by
  rw [coherent_cases]
  unfold RealC VmC Prot
  refine or_congr Iff.rfl (or_congr Iff.rfl ?_)
  constructor
  · rintro ⟨a, b, c⟩; exact ⟨c, a, b⟩
  · rintro ⟨a, b, c⟩; exact ⟨b, c, a⟩

theorem VmC.pe {r : Regs} (h : VmC fl r) : r.hflags[4] = true := h.2.2.2.1.1.trans h.1
theorem RealC.pe {r : Regs} (h : RealC fl r) : r.hflags[4] = false := h.2.2.2.1.1.trans h.1

theorem CB.drop {r : Regs} (h : CB fl r) : CB false r := ⟨h.1, fun h => absurd h (by simp)⟩

theorem Coherent.drop {r : Regs} (h : Coherent fl r) : Coherent false r :=
  ⟨⟨h.1.1, fun h => absurd h (by simp)⟩, h.2⟩

/-! Protected mode. -/

theorem keeps_deliverIdt_prot (acc : Acc) (k : Kind) (idx : Nat) (code : BitVec 16) (cr2 : BitVec 32) :
    Keeps (Prot fl) (deliverIdt acc k idx code cr2) := by
  unfold deliverIdt
  refine keeps_getR_bind fun r hr => ?_
  have hvm := vm_off hr.2.2
  refine keeps_bind (keeps_check ..) fun _ => ?_
  refine keeps_bind (keeps_rd ..) fun dv => ?_
  refine keeps_bind (keeps_check ..) fun _ => ?_
  refine keeps_bind (keeps_check ..) fun _ => ?_
  refine keeps_bind (keeps_check ..) fun _ => ?_
  refine keeps_bind (keeps_check ..) fun _ => ?_
  refine keeps_bind (keeps_check ..) fun _ => ?_
  refine keeps_bind (keeps_mapExc _ (keeps_readDesc ..)) fun p => ?_
  refine keeps_bind (keeps_check ..) fun _ => ?_
  refine keeps_bind (keeps_check ..) fun _ => ?_
  obtain ⟨dd, hdd⟩ := level_small p.2 r
  simp only [hdd]
  refine keeps_bind (keeps_setAccessed ..) fun _ => ?_
  refine keeps_dite' (fun _ => ?_) (fun _ => ?_)
  · refine keeps_dite' (fun h => absurd h hvm) (fun _ => ?_)
    refine keeps_bind (keeps_newStack ..) fun q => ?_
    refine keeps_bind (keeps_pushAll ..) fun sp => ?_
    refine keeps_bind (keeps_modR fun r h => prot_switchSs _ _ _ r h) fun _ => ?_
    exact keeps_modR fun r h => prot_finish _ _ _ _ _ _ _ _ _ r h
  · refine keeps_bind (keeps_check ..) fun _ => ?_
    refine keeps_bind (keeps_pushAll ..) fun sp => ?_
    exact keeps_modR fun r h => prot_finish _ _ _ _ _ _ _ _ _ r h

theorem keeps_deliver_prot (acc : Acc) (k : Kind) (idx : Nat) (code : BitVec 16) (cr2 : BitVec 32) :
    Keeps (Prot fl) (deliver acc k idx code cr2) := by
  unfold deliver
  refine keeps_getR_bind fun r hr => ?_
  have hvm := vm_off hr.2.2
  have hvm' : (r.eflags &&& 0x20000#32 != 0#32) = false := by
    simpa using hvm
  rw [if_pos (pe_on hr.pe)]
  simp only [hvm', Bool.false_and, Bool.and_false, Bool.false_eq_true, false_and, and_false, if_false]
  exact keeps_bind (keeps_check ..) fun _ => keeps_deliverIdt_prot ..

/-! Real mode. -/

theorem realC_int (sel : BitVec 16) (e esp eip dr7 : BitVec 32) (r : Regs) (he : e[17] = false) (h : RealC fl r) :
    RealC fl { r with
      eflags := e
      esp := esp
      cs := { r.cs with sel := sel, base := sel.setWidth 32 <<< 4 }
      eip := eip
      hflags := isZero (sel.setWidth 32 <<< 4) (zeroMask .cs) ||| (r.hflags &&& ~~~(zeroMask .cs))
      dr7 := dr7 } := by
  obtain ⟨h0, h1, hb, hc⟩ := h
  refine ⟨h0, he, ?_, ?_⟩
  · simp [zeroMask, isZero_bit, hb]
  · generalize sel.setWidth 32 <<< 4 = bb
    unfold CB at hc ⊢
    cases fl <;> simp at hc <;> simp [isZero_bit, zeroMask] <;> simp +contextual [hc]

theorem keeps_deliver_real (acc : Acc) (k : Kind) (idx : Nat) (code : BitVec 16) (cr2 : BitVec 32) :
    Keeps (RealC fl) (deliver acc k idx code cr2) := by
  unfold deliver
  refine keeps_getR_bind fun r hr => ?_
  rw [if_neg (pe_off hr.pe)]
  unfold deliverReal
  refine keeps_bind keeps_getR fun _ => ?_
  refine keeps_bind (keeps_check ..) fun _ => ?_
  refine keeps_bind (keeps_rd ..) fun v => ?_
  refine keeps_bind (keeps_pushAll ..) fun sp => ?_
  refine keeps_modR fun r h => ?_
  exact realC_int _ _ _ _ _ r (by simp [h.2.1]) h

/-! Vm86 mode. -/

theorem core_vme (sel : BitVec 16) (base e esp eip cr2 dr7 : BitVec 32) (r : Regs) (he : e[17] = true) (h : VmC fl r) :
    VmC false { r with
      eflags := e
      esp := esp
      cs := { r.cs with sel := sel, base := base }
      eip := eip
      cr2 := cr2
      dr7 := dr7 } :=
  ⟨h.1, he, h.2.2.1, h.2.2.2.1, fun h => absurd h (by simp)⟩

theorem triple_vmeRedirect (acc : Acc) (idx : Nat) (cr2 : BitVec 32) :
    Triple (VmC false) (Coherent false) (vmeRedirect acc idx cr2) := by
  unfold vmeRedirect
  refine triple_getR_bind fun r hr => ?_
  refine triple_bind (keeps_pushAll ..) fun sp => ?_
  refine triple_bind (keeps_rd ..) fun v => ?_
  refine triple_modR fun r' h => ?_
  rw [coherent_three]
  refine .inr (.inl (core_vme _ _ _ _ _ _ _ r' ?_ h))
  have := h.2.1
  split <;> simp [this]

theorem prot_vmExit (r : Regs) (sel nss : BitVec 16) (cd sd : BitVec 64) (e esp eip cr2 dr7 : BitVec 32)
    (he : e[17] = false) (h : VmC false r) : Prot false { r with
      gs := nullSeg
      fs := nullSeg
      ds := nullSeg
      es := nullSeg
      cs := ⟨sel &&& 0xFFC#16, descBase cd, descLimit cd, descFlags cd⟩
      ss := ⟨nss, descBase sd, descLimit sd, descFlags sd⟩
      hflags := ((descFlags sd &&& HID_DB) >>> 19) |||
        ((((descFlags cd &&& HID_DB) >>> 20) ||| (r.hflags &&& ~~~(H_CS32 ||| H_CPL))) &&& ~~~H_SS32)
      eflags := e
      esp := esp
      eip := eip
      cr2 := cr2
      dr7 := dr7 } := by
  obtain ⟨h0, h1, hb, hc⟩ := h
  refine ⟨?_, h0, he⟩
  unfold CB at hc
  unfold PB CB
  generalize descFlags sd = fs
  generalize descFlags cd = fc
  simp at hc
  simp [H_CPL, H_CS32, H_SS32, HID_DB]
  simp [hc]

theorem triple_fromVm86 (acc : Acc) (k : Kind) (idx : Nat) (code : BitVec 16) (cr2 : BitVec 32) (is32 : Bool)
    (eflags neip : BitVec 32) (sel : BitVec 16) (cd : BitVec 64) (dpl : Nat) :
    Triple (VmC false) (Coherent false)
      (fromVm86 acc k idx code cr2 is32 eflags neip sel cd dpl) := by
  unfold fromVm86
  refine triple_getR_bind fun r hr => ?_
  refine triple_bind (keeps_check ..) fun _ => ?_
  refine triple_bind (keeps_newStack ..) fun p => ?_
  refine triple_bind (keeps_pushAll ..) fun sp => ?_
  refine triple_modR fun r' h => ?_
  exact (prot_vmExit r' sel p.2.1 cd p.2.2 _ _ _ _ _ (by simp) h).coherent

theorem triple_stop_check {P Q : Regs → Prop} {α : Type} {f : Unit → M α} {c : Bool} {e : Stop}
    (h : c = false → Triple P Q (f ())) : Triple P Q (check c e >>= f) := by
  cases c with
  | false => exact ⟨fun s a s' hs he => (h rfl).ok s a s' hs he, fun s e s' hs he => (h rfl).stop s e s' hs he⟩
  | true =>
    constructor
    · intro s a s' hs he; cases he
    · intro s e s' hs he; cases he; exact hs

theorem triple_deliverIdt_vm (acc : Acc) (k : Kind) (idx : Nat) (code : BitVec 16) (cr2 : BitVec 32) :
    Triple (VmC false) (Coherent false) (deliverIdt acc k idx code cr2) := by
  unfold deliverIdt
  refine triple_getR_bind fun r hr => ?_
  have hvm := vm_on hr.2.1
  have hvm' : (r.eflags &&& 0x20000#32 != 0#32) = true := by simpa using hvm
  refine triple_bind (keeps_check ..) fun _ => ?_
  refine triple_bind (keeps_rd ..) fun dv => ?_
  refine triple_bind (keeps_check ..) fun _ => ?_
  refine triple_bind (keeps_check ..) fun _ => ?_
  refine triple_bind (keeps_check ..) fun _ => ?_
  refine triple_bind (keeps_check ..) fun _ => ?_
  refine triple_bind (keeps_check ..) fun _ => ?_
  refine triple_bind (keeps_mapExc _ (keeps_readDesc ..)) fun p => ?_
  refine triple_bind (keeps_check ..) fun _ => ?_
  refine triple_bind (keeps_check ..) fun _ => ?_
  refine triple_bind (keeps_setAccessed ..) fun _ => ?_
  refine triple_ite (fun _ => ?_) (fun _ => ?_)
  · refine triple_ite (fun _ => triple_fromVm86 ..) (fun h => absurd hvm h)
  · refine triple_stop_check fun h => ?_
    rw [hvm'] at h; cases h

theorem triple_deliver_vm (acc : Acc) (k : Kind) (idx : Nat) (code : BitVec 16) (cr2 : BitVec 32) :
    Triple (VmC false) (Coherent false) (deliver acc k idx code cr2) := by
  unfold deliver
  refine triple_getR_bind fun r hr => ?_
  rw [if_pos (pe_on hr.pe)]
  refine triple_bind (keeps_check ..) fun _ => ?_
  refine triple_ite (fun _ => ?_) (fun _ => triple_deliverIdt_vm ..)
  refine triple_bind (keeps_rd ..) fun _ => ?_
  refine triple_bind (keeps_rd ..) fun _ => ?_
  refine triple_ite (fun _ => triple_vmeRedirect ..) (fun _ => ?_)
  exact triple_bind (keeps_check ..) fun _ => triple_deliverIdt_vm ..

/-! Raising an exception. -/

/-- The property holds of the state an exception ends in; a triple fault and an abort end the run. -/
def Outcome.holds (P : Regs → Prop) : Outcome → Prop
  | .done s => P s.r
  | .shutdown s => P s.r
  | .abort s => P s.r
  | .outOfFuel => True

theorem raise_triple {P Q : Regs → Prop} (acc : Acc) (pf : Cpu → BitVec 16 × BitVec 32)
    (hpq : ∀ r, P r → Q r) (hd : ∀ k idx code cr2, Triple P Q (deliver acc k idx code cr2)) :
    ∀ fuel k old idx code cr2 s, P s.r → (raise acc pf fuel k old idx code cr2 s).holds Q := by
  intro fuel
  induction fuel with
  | zero => intros; trivial
  | succ n ih =>
    intro k old idx code cr2 s hs
    unfold raise
    simp only
    cases hdbl : (if k.intn = 0 ∧ k.hw = false then checkDbl old idx code else .go idx code old) with
    | shutdown => exact hpq _ hs
    | go idx' code' old' =>
      simp only
      have h := hd k idx' code' cr2
      cases hdel : deliver acc k idx' code' cr2 s with
      | ok a s' => exact h.ok s a s' hs hdel
      | stop e s' =>
        have hs' := h.stop s e s' hs hdel
        cases e with
        | exc i c => exact ih _ _ _ _ _ _ hs'
        | fault => exact ih _ _ _ _ _ _ hs'
        | abort => exact hpq _ hs'

theorem raise_prot (acc : Acc) (pf : Cpu → BitVec 16 × BitVec 32) (fuel : Nat) (k : Kind) (old : Option Nat)
    (idx : Nat) (code : BitVec 16) (cr2 : BitVec 32) (s : Cpu) (h : Prot fl s.r) :
    (raise acc pf fuel k old idx code cr2 s).holds (Prot fl) :=
  raise_triple acc pf (fun _ h => h) (fun _ _ _ _ => (keeps_deliver_prot ..).triple fun _ h => h) _ _ _ _ _ _ s h

theorem raise_real (acc : Acc) (pf : Cpu → BitVec 16 × BitVec 32) (fuel : Nat) (k : Kind) (old : Option Nat)
    (idx : Nat) (code : BitVec 16) (cr2 : BitVec 32) (s : Cpu) (h : RealC fl s.r) :
    (raise acc pf fuel k old idx code cr2 s).holds (RealC fl) :=
  raise_triple acc pf (fun _ h => h) (fun _ _ _ _ => (keeps_deliver_real ..).triple fun _ h => h) _ _ _ _ _ _ s h

theorem raise_vm (acc : Acc) (pf : Cpu → BitVec 16 × BitVec 32) (fuel : Nat) (k : Kind) (old : Option Nat)
    (idx : Nat) (code : BitVec 16) (cr2 : BitVec 32) (s : Cpu) (h : VmC fl s.r) :
    (raise acc pf fuel k old idx code cr2 s).holds (Coherent false) :=
  raise_triple (P := VmC false) acc pf (fun r h => (coherent_three r).2 (.inr (.inl h)))
    (fun _ _ _ _ => triple_deliver_vm ..) _ _ _ _ _ _ s ⟨h.1, h.2.1, h.2.2.1, h.2.2.2.drop⟩

end Verif.Seg
