import Verif.Spec.Mode
import Verif.Model.Ctrl
import Verif.Model.Exc
/- Which operations keep the mode bits in agreement with the registers. -/
namespace Verif.Seg
open Spec

theorem setWidth2_eq (x : BitVec 32) (y : BitVec 2) :
    x.setWidth 2 = y ↔ x[0] = y[0] ∧ x[1] = y[1] := by
  constructor
  · intro h; subst h; simp
  · rintro ⟨h0, h1⟩
    apply BitVec.eq_of_getLsbD_eq; intro i hi
    rcases (by omega : i = 0 ∨ i = 1) with h | h <;> subst h <;> simp [*]

theorem isZero_bit (b m : BitVec 32) (j : Nat) (hj : j < 32) :
    (isZero b m)[j] = (decide (b = 0#32) && m[j]) := by
  unfold isZero; split <;> simp [*]

/-- The property holds of the registers a program ends with, also when it stops. -/
def Ends {α : Type} (P : Regs → Prop) : Res α → Prop
  | .ok _ s => P s.r
  | .stop _ s => P s.r

/-- A program that keeps a property of the registers, also when it stops. -/
structure Keeps {α : Type} (P : Regs → Prop) (m : M α) : Prop where
  run : ∀ s, P s.r → Ends P (m s)

theorem keeps_bind {α β : Type} {P : Regs → Prop} {m : M α} {f : α → M β}
    (hm : Keeps P m) (hf : ∀ a, Keeps P (f a)) : Keeps P (m >>= f) := by
  constructor
  intro s hs
  have h := hm.run s hs
  show Ends P (match m s with | .ok a s' => f a s' | .stop e s' => .stop e s')
  cases hms : m s with
  | ok a s' => rw [hms] at h; exact (hf a).run s' h
  | stop e s' => rw [hms] at h; exact h

theorem keeps_pure {α : Type} {P : Regs → Prop} (a : α) : Keeps P (pure a : M α) := ⟨fun _ h => h⟩
theorem keeps_getR {P : Regs → Prop} : Keeps P getR := ⟨fun _ h => h⟩
theorem keeps_stop {α : Type} {P : Regs → Prop} (e : Stop) : Keeps P (stop e : M α) := ⟨fun _ h => h⟩
theorem keeps_check {P : Regs → Prop} (c : Bool) (e : Stop) : Keeps P (check c e) := by
  constructor; intro s h; unfold check; cases c <;> exact h
theorem keeps_rd {P : Regs → Prop} (acc : Acc) (a : BitVec 32) (k p : Nat) : Keeps P (rd acc a k p) := by
  constructor; intro s h; unfold rd; cases acc s a k false p <;> exact h
theorem keeps_wr {P : Regs → Prop} (acc : Acc) (a : BitVec 32) (k p v : Nat) :
    Keeps P (wr acc a k p v) := by
  constructor; intro s h; unfold wr; cases acc s a k true p <;> exact h
theorem keeps_modR {P : Regs → Prop} {f : Regs → Regs} (h : ∀ r, P r → P (f r)) : Keeps P (modR f) :=
  ⟨fun s hs => h s.r hs⟩
theorem keeps_ite {α : Type} {P : Regs → Prop} {c : Prop} [Decidable c] {m n : M α}
    (hm : Keeps P m) (hn : Keeps P n) : Keeps P (if c then m else n) := by
  split <;> assumption
theorem keeps_mapExc {α : Type} {P : Regs → Prop} {m : M α} (f : Nat → BitVec 16 → Stop)
    (hm : Keeps P m) : Keeps P (mapExc f m) := by
  constructor
  intro s hs
  have h := hm.run s hs
  unfold mapExc
  cases hms : m s with
  | ok a s' => rw [hms] at h; exact h
  | stop e s' => rw [hms] at h; cases e <;> exact h

/-- Decompose a program into its steps. -/
macro "keeps" : tactic => `(tactic| repeat' first
  | with_reducible apply keeps_bind
  | (intro _)
  | with_reducible apply keeps_pure
  | with_reducible apply keeps_getR
  | with_reducible apply keeps_stop
  | with_reducible apply keeps_check
  | with_reducible apply keeps_rd
  | with_reducible apply keeps_wr
  | with_reducible apply keeps_ite
  | with_reducible apply keeps_mapExc
  | assumption
  | split)

theorem keeps_readDesc {P : Regs → Prop} (acc : Acc) (t : Bool) (sel : BitVec 16) :
    Keeps P (readDesc acc t sel) := by unfold readDesc; keeps
theorem keeps_setAccessed {P : Regs → Prop} (acc : Acc) (d : BitVec 64) (a : BitVec 32) :
    Keeps P (setAccessed acc d a) := by unfold setAccessed; keeps
theorem keeps_checkSs {P : Regs → Prop} (acc : Acc) (sel : BitVec 16) (c : Option (BitVec 64)) :
    Keeps P (checkSs acc sel c) := by
  unfold checkSs; keeps; exact keeps_readDesc ..
theorem keeps_checkSeg {P : Regs → Prop} (acc : Acc) (sel : BitVec 16) :
    Keeps P (checkSeg acc sel) := by
  unfold checkSeg; keeps; exact keeps_readDesc ..
theorem keeps_popV {P : Regs → Prop} (acc : Acc) (k : Nat) (sp : BitVec 32) :
    Keeps P (popV acc k sp) := by unfold popV; keeps
theorem keeps_pushV {P : Regs → Prop} (acc : Acc) (k : Nat) (sp v : BitVec 32) :
    Keeps P (pushV acc k sp v) := by unfold pushV; keeps
theorem keeps_tssStack {P : Regs → Prop} (acc : Acc) (d p : Nat) :
    Keeps P (tssStack acc d p) := by unfold tssStack; keeps
theorem keeps_pushRaw {P : Regs → Prop} (acc : Acc) (k : Nat) (b m : BitVec 32) (p : Nat)
    (sp v : BitVec 32) : Keeps P (pushRaw acc k b m p sp v) := by unfold pushRaw; keeps
theorem keeps_copyParams {P : Regs → Prop} (acc : Acc) (k : Nat) (b m ob oe : BitVec 32) (n : Nat)
    (sp : BitVec 32) : Keeps P (copyParams acc k b m ob oe n sp) := by
  induction n generalizing sp with
  | zero => exact keeps_pure _
  | succ n ih => unfold copyParams; keeps; exact keeps_pushRaw ..; exact ih _
theorem keeps_pushAll {P : Regs → Prop} (acc : Acc) (k : Nat) (b m : BitVec 32) (p : Nat)
    (vs : List (BitVec 32)) (sp : BitVec 32) : Keeps P (pushAll acc k b m p vs sp) := by
  induction vs generalizing sp with
  | nil => exact keeps_pure _
  | cons v vs ih => unfold pushAll; keeps; exact keeps_pushRaw ..; exact ih _
theorem keeps_newStack {P : Regs → Prop} (acc : Acc) (x : BitVec 16) (vm : Bool) (d : Nat) :
    Keeps P (newStack acc x vm d) := by
  unfold newStack; keeps <;> first | exact keeps_tssStack .. | exact keeps_readDesc .. | exact keeps_setAccessed ..

/-- Decompose a program into its steps, helpers included. -/
macro "keepsAll" : tactic => `(tactic| repeat' first
  | with_reducible apply keeps_bind
  | (intro _)
  | with_reducible apply keeps_pure
  | with_reducible apply keeps_getR
  | with_reducible apply keeps_stop
  | with_reducible apply keeps_check
  | with_reducible apply keeps_rd
  | with_reducible apply keeps_wr
  | with_reducible apply keeps_ite
  | with_reducible apply keeps_readDesc
  | with_reducible apply keeps_setAccessed
  | with_reducible apply keeps_checkSs
  | with_reducible apply keeps_checkSeg
  | with_reducible apply keeps_popV
  | with_reducible apply keeps_pushV
  | with_reducible apply keeps_tssStack
  | with_reducible apply keeps_pushRaw
  | with_reducible apply keeps_copyParams
  | with_reducible apply keeps_pushAll
  | with_reducible apply keeps_newStack
  | with_reducible apply keeps_mapExc
  | assumption
  | split)

/-- The mode bits that do not depend on the mode; the flat-segment bits only if `fl`. -/
def CB (fl : Bool) (r : Regs) : Prop :=
  (r.hflags[4] = r.cr0[0] ∧
  r.hflags[5] = r.cr0[2] ∧ r.hflags[7] = r.cr0[5] ∧ r.hflags[9] = r.cr4[9] ∧
  r.hflags[10] = r.cr0[3] ∧ r.hflags[11] = r.cr4[10] ∧ r.hflags[15] = r.cr0[1] ∧
  r.hflags[19] = r.cr4[0] ∧ r.hflags[20] = r.cr4[1]) ∧ (fl = true →
  (r.hflags[21] = true → r.es.base = 0#32) ∧ (r.hflags[22] = true → r.cs.base = 0#32) ∧
  (r.hflags[23] = true → r.ss.base = 0#32) ∧ (r.hflags[24] = true → r.ds.base = 0#32) ∧
  (r.hflags[25] = true → r.fs.base = 0#32) ∧ (r.hflags[26] = true → r.gs.base = 0#32))

/-- The mode bits of protected mode. -/
def PB (fl : Bool) (r : Regs) : Prop :=
  (r.hflags[0] = r.cs.sel[0] ∧ r.hflags[1] = r.cs.sel[1] ∧
    r.hflags[2] = r.cs.flags[22] ∧ r.hflags[3] = r.ss.flags[22]) ∧ CB fl r

/-- The mode bits agree (the flat-segment bits only if `fl`), and VM is not set in real mode. -/
def AgreeF (fl : Bool) (r : Regs) : Prop := AgreeCore r ∧ (fl = true → AgreeFlat r)

/-- The mode bits agree (the flat-segment bits only if `fl`), and VM is not set in real mode. -/
def Coherent (fl : Bool) (r : Regs) : Prop := AgreeF fl r ∧ NoVmInReal r

theorem coherent_true (r : Regs) : Coherent true r ↔ Agree r ∧ NoVmInReal r := by
  simp [Coherent, AgreeF, Agree]
theorem coherent_false (r : Regs) : Coherent false r ↔ AgreeCore r ∧ NoVmInReal r := by
  simp [Coherent, AgreeF]

theorem agree_iff (fl : Bool) (r : Regs) : AgreeF fl r ↔
    ((r.hflags[0] = (level r)[0] ∧ r.hflags[1] = (level r)[1] ∧ r.hflags[2] = code32 r ∧
      r.hflags[3] = stack32 r) ∧ CB fl r) := by
  constructor
  · rintro ⟨⟨h0, h2, h3, h4, h5, h7, h9, h10, h11, h15, h19, h20⟩, hf⟩
    rw [setWidth2_eq] at h0
    exact ⟨⟨h0.1, h0.2, h2, h3⟩, ⟨h4, h5, h7, h9, h10, h11, h15, h19, h20⟩, fun h =>
      ⟨(hf h).es, (hf h).cs, (hf h).ss, (hf h).ds, (hf h).fs, (hf h).gs⟩⟩
  · rintro ⟨⟨h0, h1, h2, h3⟩, ⟨h4, h5, h7, h9, h10, h11, h15, h19, h20⟩, hf⟩
    refine ⟨⟨(setWidth2_eq _ _).2 ⟨h0, h1⟩, h2, h3, h4, h5, h7, h9, h10, h11, h15, h19, h20⟩, fun h => ?_⟩
    obtain ⟨g1, g2, g3, g4, g5, g6⟩ := hf h
    exact ⟨g1, g2, g3, g4, g5, g6⟩

variable {fl : Bool}

theorem agree_prot (r : Regs) (hpe : r.cr0[0] = true) (hvm : r.eflags[17] = false) :
    AgreeF fl r ↔ PB fl r := by
  have hm : mode r = .prot := by simp [Spec.mode, hpe, hvm]
  rw [agree_iff]; unfold PB
  simp [Spec.level, Spec.code32, Spec.stack32, hm]

theorem agree_vm86 (r : Regs) (hpe : r.cr0[0] = true) (hvm : r.eflags[17] = true) :
    AgreeF fl r ↔ ((r.hflags[0] = true ∧ r.hflags[1] = true ∧ r.hflags[2] = false ∧ r.hflags[3] = false) ∧
      CB fl r) := by
  have hm : mode r = .vm86 := by simp [Spec.mode, hpe, hvm]
  rw [agree_iff]
  simp [Spec.level, Spec.code32, Spec.stack32, hm]

theorem agree_real (r : Regs) (hpe : r.cr0[0] = false) :
    AgreeF fl r ↔ ((r.hflags[0] = false ∧ r.hflags[1] = false ∧ r.hflags[2] = false ∧ r.hflags[3] = false) ∧
      CB fl r) := by
  have hm : mode r = .real := by simp [Spec.mode, hpe]
  rw [agree_iff]
  simp [Spec.level, Spec.code32, Spec.stack32, hm]

/-- Protected mode (not vm86) with agreeing mode bits. -/
def Prot (fl : Bool) (r : Regs) : Prop := PB fl r ∧ r.cr0[0] = true ∧ r.eflags[17] = false

theorem Prot.coherent {r : Regs} (h : Prot fl r) : Coherent fl r :=
  ⟨(agree_prot r h.2.1 h.2.2).2 h.1, fun h0 => by rw [h.2.1] at h0; cases h0⟩

theorem prot_of_coherent {r : Regs} (h : Coherent fl r) (hm : mode r = .prot) : Prot fl r := by
  have hpe : r.cr0[0] = true := by
    cases hh : r.cr0[0]
    · simp [Spec.mode, hh] at hm
    · rfl
  have hvm : r.eflags[17] = false := by
    cases hh : r.eflags[17]
    · rfl
    · simp [Spec.mode, hpe, hh] at hm
  exact ⟨(agree_prot r hpe hvm).1 h.1, hpe, hvm⟩

theorem pb_writeSeg (i : SR) (sel : BitVec 16) (b l f : BitVec 32) (r : Regs) (h : PB fl r) :
    PB fl (writeSeg i sel b l f r) := by
  have h' := h
  unfold PB CB at h' ⊢
  cases fl <;> cases i <;> simp only [writeSeg, Regs.set]
  all_goals
    simp at h'
    simp [isZero_bit, zeroMask, H_CPL, H_CS32, H_SS32, HID_DB]
    simp +contextual [h']
    try (and_intros <;> rfl)

theorem writeSeg_cr0 (i : SR) (sel : BitVec 16) (b l f : BitVec 32) (r : Regs) :
    (writeSeg i sel b l f r).cr0 = r.cr0 := by cases i <;> rfl
theorem writeSeg_eflags (i : SR) (sel : BitVec 16) (b l f : BitVec 32) (r : Regs) :
    (writeSeg i sel b l f r).eflags = r.eflags := by cases i <;> rfl

theorem prot_writeSeg (i : SR) (sel : BitVec 16) (b l f : BitVec 32) (r : Regs) (h : Prot fl r) :
    Prot fl (writeSeg i sel b l f r) :=
  ⟨pb_writeSeg i sel b l f r h.1, by simp only [writeSeg_cr0]; exact h.2.1,
    by simp only [writeSeg_eflags]; exact h.2.2⟩

theorem keeps_loadDesc (i : SR) (sel : BitVec 16) (d : BitVec 64) : Keeps (Prot fl) (loadDesc i sel d) :=
  keeps_modR fun r h => prot_writeSeg i sel _ _ _ r h

theorem keeps_movSelPe (acc : Acc) (i : SR) (sel : BitVec 16) : Keeps (Prot fl) (movSelPe acc i sel) := by
  cases i <;> unfold movSelPe <;> keepsAll <;>
    first | exact keeps_loadDesc .. | exact keeps_modR fun r h => prot_writeSeg _ _ _ _ _ r h

theorem prot_validateSeg (i : SR) (r : Regs) (h : Prot fl r) : Prot fl (validateSeg i r) := by
  unfold validateSeg
  simp only
  split
  · exact prot_writeSeg i _ _ _ _ r h
  · exact h

theorem prot_writeEflags (e m : BitVec 32) (r : Regs) (hem : e[17] = false) (h : Prot fl r) :
    Prot fl (writeEflags e m r) := by
  refine ⟨h.1, h.2.1, ?_⟩
  have := h.2.2
  simp [writeEflags, this, hem]

theorem keeps_retPe (acc : Acc) (k : Nat) (eip : BitVec 32) (cs : BitVec 16) (sp : BitVec 32)
    (e : Option (BitVec 32 × BitVec 32)) (he : ∀ v m, e = some (v, m) → v[17] = false) :
    Keeps (Prot fl) (retPe acc k eip cs sp e) := by
  unfold retPe
  keepsAll
  all_goals first
    | exact keeps_loadDesc ..
    | (refine keeps_modR fun r h => ?_
       with_reducible apply prot_writeEflags _ _ _ (he _ _ rfl)
       exact h)
    | (refine keeps_modR fun r h => ?_
       simp only
       with_reducible refine prot_validateSeg _ _ (prot_validateSeg _ _ (prot_validateSeg _ _ (prot_validateSeg _ _ ?_)))
       exact h)
    | exact keeps_modR fun r h => h

theorem keeps_lretPe (acc : Acc) (k : Nat) : Keeps (Prot fl) (lretPe acc k) := by
  unfold lretPe; keepsAll; exact keeps_retPe acc k _ _ _ none (by intro v m h; cases h)

theorem keeps_ljmpPe (acc : Acc) (sel : BitVec 16) (k : Nat) (j : BitVec 32) :
    Keeps (Prot fl) (ljmpPe acc sel k j) := by
  unfold ljmpPe; keepsAll <;> first | exact keeps_loadDesc .. | exact keeps_modR fun r h => h

theorem keeps_lcallPe (acc : Acc) (sel : BitVec 16) (c : BitVec 32) (k : Nat) (ret : BitVec 32) :
    Keeps (Prot fl) (lcallPe acc sel c k ret) := by
  unfold lcallPe; keepsAll <;> first | exact keeps_loadDesc .. | exact keeps_modR fun r h => h

/-! Real and vm86 mode. -/

/-- Real or vm86 mode with agreeing mode bits. -/
def NotProt (fl : Bool) (r : Regs) : Prop := Coherent fl r ∧ mode r ≠ .prot

theorem mode_cases (r : Regs) : (mode r = .real ∧ r.cr0[0] = false) ∨
    (mode r = .vm86 ∧ r.cr0[0] = true ∧ r.eflags[17] = true) ∨
    (mode r = .prot ∧ r.cr0[0] = true ∧ r.eflags[17] = false) := by
  cases h0 : r.cr0[0] <;> cases h1 : r.eflags[17] <;> simp [Spec.mode, h0, h1]

theorem notProt_iff (r : Regs) : NotProt fl r ↔
    ((r.cr0[0] = false ∧ r.eflags[17] = false ∧
        (r.hflags[0] = false ∧ r.hflags[1] = false ∧ r.hflags[2] = false ∧ r.hflags[3] = false) ∧ CB fl r) ∨
     (r.cr0[0] = true ∧ r.eflags[17] = true ∧
        (r.hflags[0] = true ∧ r.hflags[1] = true ∧ r.hflags[2] = false ∧ r.hflags[3] = false) ∧ CB fl r)) := by
  unfold NotProt Coherent NoVmInReal
  rcases mode_cases r with ⟨hm, h0⟩ | ⟨hm, h0, h1⟩ | ⟨hm, h0, h1⟩
  · rw [agree_real r h0]; simp [hm, h0]; constructor <;> (rintro ⟨h, h'⟩; exact ⟨by assumption, by assumption⟩)
  · rw [agree_vm86 r h0 h1]; simp [hm, h0, h1]
  · simp [hm, h0, h1]

theorem cb_movSelReal (i : SR) (sel : BitVec 16) (r : Regs) (h : CB fl r) :
    CB fl ((match movSelReal i sel ⟨r, fun _ => 0#8⟩ with | .ok _ s => s | .stop _ s => s).r) := by
  have h' := h
  unfold CB at h' ⊢
  unfold movSelReal modR
  cases fl <;> cases i <;> simp only [Regs.set, Regs.get]
  all_goals
    simp at h'
    simp [isZero_bit, zeroMask]
    simp +contextual [h']
    try (and_intros <;> rfl)

theorem keeps_movSelReal (i : SR) (sel : BitVec 16) : Keeps (NotProt fl) (movSelReal i sel) := by
  refine keeps_modR fun r h => ?_
  rw [notProt_iff] at h ⊢
  rcases h with ⟨h0, h1, hb, hc⟩ | ⟨h0, h1, hb, hc⟩
  · refine .inl ⟨?_, ?_, ?_, cb_movSelReal i sel r hc⟩
    · cases i <;> exact h0
    · cases i <;> exact h1
    · cases i <;> simp [zeroMask, isZero_bit, hb]
  · refine .inr ⟨?_, ?_, ?_, cb_movSelReal i sel r hc⟩
    · cases i <;> exact h0
    · cases i <;> exact h1
    · cases i <;> simp [zeroMask, isZero_bit, hb]

end Verif.Seg
