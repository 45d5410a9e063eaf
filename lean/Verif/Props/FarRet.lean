import Verif.Lemmas.Oks
import Verif.Props.Seg
/-
C37: what a return to an outer privilege level leaves in DS, ES, FS and GS.
-/
namespace Verif.Seg
open Spec (AgreeCore mode level TooPrivileged)

/-- DS, ES, FS or GS. -/
def isData : SR → Bool
  | .es | .ds | .fs | .gs => true
  | _ => false

/-- The test validate_seg_helper makes: the two low bits of the access rights instead of the DPL. -/
def codeTest (f : BitVec 32) (l : BitVec 2) : Prop :=
  f.setWidth 2 < l ∧ f[12] = true ∧ (f[11] = false ∨ f[10] = false)

instance (f : BitVec 32) (l : BitVec 2) : Decidable (codeTest f l) := by unfold codeTest; infer_instance

theorem low2_lt (x y : BitVec 32) : x &&& 3#32 < y &&& 3#32 ↔ (x.setWidth 2 : BitVec 2) < y.setWidth 2 := by
  have h : ∀ z : BitVec 32, (z &&& 3#32).toNat = (z.setWidth 2 : BitVec 2).toNat := by
    intro z
    rw [BitVec.toNat_and, BitVec.toNat_setWidth]
    exact Nat.and_two_pow_sub_one_eq_mod z.toNat 2
  rw [BitVec.lt_def, BitVec.lt_def, h, h]

theorem validate_eq (i : SR) (r : Regs) (hp : Prot false r) :
    (validateSeg i r).get i = if codeTest (r.get i).flags (r.cs.sel.setWidth 2) then ⟨0#16, 0#32, 0#32, 0#32⟩ else r.get i := by
  have hl : (r.hflags.setWidth 2 : BitVec 2) = r.cs.sel.setWidth 2 := by
    rw [setWidth2_eq]; exact ⟨by have := hp.1.1.1; simpa using this, by have := hp.1.1.2.1; simpa using this⟩
  have e : (0x6000#32 >>> 13 : BitVec 32) = 3#32 := by decide
  unfold validateSeg
  simp only [e, low2_lt, hl]
  have h12 := and_ne_zero_bit (r.get i).flags 0x1000#32 12 (by omega) rfl
  have h11 := Bits.and_eq_zero (x := (r.get i).flags) (k := 0x800#32) 11 rfl (by decide)
  have h10 := Bits.and_eq_zero (x := (r.get i).flags) (k := 0x400#32) 10 rfl (by decide)
  rw [BitVec.getLsbD_eq_getElem (by omega)] at h11 h10
  by_cases hc : codeTest (r.get i).flags (r.cs.sel.setWidth 2)
  · rw [if_pos hc, if_pos ⟨hc.1, h12.2 hc.2.1, hc.2.2.imp h11.2 h10.2⟩, writeSeg_get]
  · rw [if_neg hc, if_neg (fun h => hc ⟨h.1, h12.1 h.2.1, h.2.2.imp h11.1 h10.1⟩)]

theorem validate_ne (i j : SR) (r : Regs) (h : j ≠ i) : (validateSeg i r).get j = r.get j := by
  unfold validateSeg
  simp only
  split
  · exact writeSeg_get_ne _ _ _ _ _ _ _ h
  · rfl

/-- The segment registers of `r` after a return from `r0` to code selector `cs`. -/
structure AfterRet (r0 : Regs) (cs : BitVec 16) (r : Regs) : Prop where
  sel : r.cs.sel = cs
  outer : cpl r0 < rpl cs → ∀ i, isData i = true → r.get i =
    if codeTest (r0.get i).flags (cs.setWidth 2) then ⟨0#16, 0#32, 0#32, 0#32⟩ else r0.get i
  same : ¬ cpl r0 < rpl cs → ∀ i, isData i = true → r.get i = r0.get i
  le : ¬ rpl cs < cpl r0

/-- The four checks in sequence. -/
def validateAll (r : Regs) : Regs := validateSeg .gs (validateSeg .fs (validateSeg .es (validateSeg .ds r)))

theorem validateAll_get (r : Regs) (hp : Prot false r) (i : SR) (hi : isData i = true) : (validateAll r).get i =
    if codeTest (r.get i).flags (r.cs.sel.setWidth 2) then ⟨0#16, 0#32, 0#32, 0#32⟩ else r.get i := by
  have p1 := prot_validateSeg .ds r hp
  have p2 := prot_validateSeg .es _ p1
  have p3 := prot_validateSeg .fs _ p2
  have c1 : (validateSeg .ds r).cs = r.cs := validate_ne .ds .cs r (by intro h; cases h)
  have c2 : (validateSeg .es (validateSeg .ds r)).cs = r.cs :=
    (validate_ne .es .cs _ (by intro h; cases h)).trans c1
  have c3 : (validateSeg .fs (validateSeg .es (validateSeg .ds r))).cs = r.cs :=
    (validate_ne .fs .cs _ (by intro h; cases h)).trans c2
  unfold validateAll
  cases i <;> first | (cases hi; done) | skip
  · rw [validate_ne .gs .es _ (by intro h; cases h), validate_ne .fs .es _ (by intro h; cases h), validate_eq .es _ p1,
      c1, validate_ne .ds .es _ (by intro h; cases h)]
  · rw [validate_ne .gs .ds _ (by intro h; cases h), validate_ne .fs .ds _ (by intro h; cases h),
      validate_ne .es .ds _ (by intro h; cases h), validate_eq .ds _ hp]
  · rw [validate_ne .gs .fs _ (by intro h; cases h), validate_eq .fs _ p2, c2, validate_ne .es .fs _ (by intro h; cases h),
      validate_ne .ds .fs _ (by intro h; cases h)]
  · rw [validate_eq .gs _ p3, c3, validate_ne .fs .gs _ (by intro h; cases h), validate_ne .es .gs _ (by intro h; cases h),
      validate_ne .ds .gs _ (by intro h; cases h)]

theorem validateAll_cs (r : Regs) : (validateAll r).cs = r.cs := by
  unfold validateAll
  exact (validate_ne .gs .cs _ (by intro h; cases h)).trans ((validate_ne .fs .cs _ (by intro h; cases h)).trans
    ((validate_ne .es .cs _ (by intro h; cases h)).trans (validate_ne .ds .cs r (by intro h; cases h))))

theorem oks_retPe (acc : Acc) (k : Nat) (eip : BitVec 32) (cs : BitVec 16) (sp : BitVec 32)
    (e : Option (BitVec 32 × BitVec 32)) (r0 : Regs) (hp : Prot false r0) :
    Oks (fun r => r = r0) (AfterRet r0 cs) (retPe acc k eip cs sp e) := by
  have tail : Oks (AfterRet r0 cs) (AfterRet r0 cs) (match e with
      | some (v, m) => modR (writeEflags v m)
      | none => pure () : M Unit) := by
    cases e with
    | none => exact oks_pure fun r h => h
    | some p => exact oks_modR fun r h => ⟨h.sel, h.outer, h.same, h.le⟩
  unfold retPe
  refine oks_check fun _ => ?_
  refine oks_keeps_bind (keeps_readDesc ..) fun p => ?_
  refine oks_getR fun r hr => ?_
  subst hr
  refine oks_check fun _ => ?_
  refine oks_check fun hle => ?_
  replace hle := of_decide_eq_false hle
  refine oks_check fun _ => ?_
  refine oks_check fun _ => ?_
  refine oks_ite (fun hlt => ?_) (fun hlt => ?_)
  · refine oks_keeps_bind (keeps_popV ..) fun p1 => ?_
    refine oks_keeps_bind (keeps_popV ..) fun p2 => ?_
    refine oks_keeps_bind (keeps_checkSs ..) fun p3 => ?_
    refine oks_keeps_bind (keeps_setAccessed ..) fun _ => ?_
    refine oks_keeps_bind (keeps_setAccessed ..) fun _ => ?_
    refine oks_bind (Q := fun r1 => Prot false r1 ∧ ∀ i, isData i = true → r1.get i = r.get i) (oks_modR ?_) fun _ => ?_
    · rintro r1 rfl
      refine ⟨prot_writeSeg _ _ _ _ _ _ hp, fun i hi => writeSeg_get_ne _ _ _ _ _ _ _ ?_⟩
      rintro rfl; cases hi
    refine oks_bind (Q := fun r1 => (Prot false r1 ∧ ∀ i, isData i = true → r1.get i = r.get i) ∧ r1.cs.sel = cs)
      (oks_modR ?_) fun _ => ?_
    · rintro r1 ⟨h1, h2⟩
      refine ⟨⟨prot_writeSeg _ _ _ _ _ _ h1, fun i hi => (writeSeg_get_ne _ _ _ _ _ _ _ ?_).trans (h2 i hi)⟩, rfl⟩
      rintro rfl; cases hi
    refine oks_bind (Q := AfterRet r cs) (oks_modR ?_) fun _ => tail
    rintro r1 ⟨⟨h1, h2⟩, h3⟩
    dsimp only
    generalize hq : ({ r1 with
      esp := (r1.esp &&& ~~~stackMask (r1.ss.flags &&& HID_DB != 0#32)) |||
          (p1.1 &&& stackMask (r1.ss.flags &&& HID_DB != 0#32))
      eip := eip } : Regs) = q
    have hpq : Prot false q := by subst hq; exact h1
    have hgq : ∀ i, isData i = true → q.get i = r.get i := by
      subst hq; intro i hi; rw [← h2 i hi]; cases i <;> rfl
    have hsq : q.cs.sel = cs := by subst hq; exact h3
    show AfterRet r cs (validateAll q)
    refine ⟨by rw [validateAll_cs]; exact hsq, fun _ i hi => ?_, fun hh => absurd hlt hh, hle⟩
    rw [validateAll_get q hpq i hi, hgq i hi, hsq]
  · refine oks_keeps_bind (keeps_setAccessed ..) fun _ => ?_
    refine oks_bind (Q := fun r1 => ∀ i, isData i = true → r1.get i = r.get i) (oks_modR ?_) fun _ => ?_
    · rintro r1 rfl i hi
      cases i <;> rfl
    refine oks_bind (Q := AfterRet r cs) (oks_modR ?_) fun _ => tail
    intro r1 h1
    refine ⟨rfl, fun hh => absurd hh hlt, fun _ i hi => (writeSeg_get_ne _ _ _ _ _ _ _ ?_).trans (h1 i hi), hle⟩
    rintro rfl; cases hi

theorem cs_level {r : Regs} (h : AgreeCore r) (hm : mode r = .prot) : level r = r.cs.sel.setWidth 2 := by
  unfold level; rw [hm]

theorem oks_iretPe (acc : Acc) (k : Nat) (r0 : Regs) (hp : Prot false r0) :
    Oks (fun r => r = r0) (fun r => r.eflags[17] = true ∨ ∃ cs, AfterRet r0 cs r) (iretPe acc k) := by
  unfold iretPe
  refine oks_getR fun r hr => ?_
  subst hr
  rw [if_neg (vm_off hp.2.2)]
  refine oks_check fun _ => ?_
  refine oks_keeps_bind (keeps_popV ..) fun p1 => ?_
  refine oks_keeps_bind (keeps_popV ..) fun p2 => ?_
  refine oks_keeps_bind (keeps_popV ..) fun p3 => ?_
  refine oks_ite (fun hv => ?_) fun _ => oks_mono (oks_retPe acc k _ _ _ _ r hp) fun r h => .inr ⟨_, h⟩
  unfold iretToVm86
  refine oks_keeps_bind (keeps_popV ..) fun q1 => ?_
  refine oks_keeps_bind (keeps_popV ..) fun q2 => ?_
  refine oks_keeps_bind (keeps_popV ..) fun q3 => ?_
  refine oks_keeps_bind (keeps_popV ..) fun q4 => ?_
  refine oks_keeps_bind (keeps_popV ..) fun q5 => ?_
  refine oks_keeps_bind (keeps_popV ..) fun q6 => ?_
  refine oks_modR fun r1 _ => .inl ?_
  dsimp only
  simp only [writeSegVm86_eflags]
  have := (and_ne_zero_bit p3.1 0x20000#32 17 (by omega) rfl).1 hv
  simp [writeEflags, this]

/-- A return (RETF or IRET) in protected mode that completes in protected mode. -/
def Returns (acc : Acc) (s s' : Cpu) : Prop :=
  ∃ k, instr acc (.farRet k) s = .ok () s' ∨ (instr acc (.iret k) s = .ok () s' ∧ mode s'.r = .prot)

theorem returns_after {acc : Acc} {s s' : Cpu} (h : AgreeCore s.r) (hm : mode s.r = .prot) (hr : Returns acc s s') :
    ∃ cs, AfterRet s.r cs s'.r ∧ level s'.r = cs.setWidth 2 := by
  have hp := prot_of h hm
  have key : (∃ cs, AfterRet s.r cs s'.r) ∧ mode s'.r = .prot := by
    obtain ⟨k, hr | ⟨hr, hm'⟩⟩ := hr
    · change (if peNotVm s.r = true then _ else _ : M Unit) s = _ at hr
      rw [peNotVm_prot hp, if_pos rfl] at hr
      have hk := ((keeps_lretPe (fl := false) acc k).run s hp)
      rw [hr] at hk
      refine ⟨?_, mode_prot_of hk⟩
      have : Oks (fun r => r = s.r) (fun r => ∃ cs, AfterRet s.r cs r) (lretPe acc k) := by
        unfold lretPe
        refine oks_getR fun r hr => ?_
        refine oks_keeps_bind (keeps_popV ..) fun p1 => ?_
        refine oks_keeps_bind (keeps_popV ..) fun p2 => ?_
        exact oks_mono (oks_retPe acc k _ _ _ _ s.r hp) fun r h => ⟨_, h⟩
      exact this.run s () s' rfl hr
    · change (if s.r.hflags &&& H_PE ≠ 0#32 then _ else _ : M Unit) s = _ at hr
      rw [if_pos (pe_on hp.pe)] at hr
      refine ⟨?_, hm'⟩
      rcases (oks_iretPe acc k s.r hp).run s () s' rfl hr with hv | hv
      · unfold mode at hm'
        rw [hv] at hm'
        split at hm' <;> cases hm'
      · exact hv
  obtain ⟨⟨cs, ha⟩, hm'⟩ := key
  refine ⟨cs, ha, ?_⟩
  unfold level; rw [hm', ← ha.sel]

/-- After RETF or IRET to an outer level, a data segment register that was too privileged for the new
level is null, provided bits 0-1 of its access rights (bits 16-17 of the base of its descriptor) are 0;
and every data segment register is null or unchanged.  Missing: segments whose base has one of these bits
set (`C37_keep_violation`), and that segments of sufficient privilege are kept (`C37_drop_violation`). -/
theorem C37_partial (acc : Acc) (s s' : Cpu) (h : AgreeCore s.r) (hm : mode s.r = .prot) (hr : Returns acc s s')
    (hl : level s.r < level s'.r) (i : SR) (hi : isData i = true) :
    ((s.r.get i).flags.setWidth 2 = 0#2 → TooPrivileged (s.r.get i).flags (level s'.r) →
      s'.r.get i = ⟨0#16, 0#32, 0#32, 0#32⟩) ∧
    (s'.r.get i = ⟨0#16, 0#32, 0#32, 0#32⟩ ∨ s'.r.get i = s.r.get i) := by
  obtain ⟨cs, ha, hc⟩ := returns_after h hm hr
  have ho := ha.outer (by rw [cpl_level h, rpl_eq, lt2]; unfold Spec.rpl; rw [← hc]; exact hl) i hi
  constructor
  · intro hz ht
    rw [ho, if_pos]
    refine ⟨?_, ht.1, ht.2.1⟩
    rw [hz, ← hc, BitVec.lt_def]
    have := hl
    rw [BitVec.lt_def] at this
    have e : (0#2 : BitVec 2).toNat = 0 := rfl
    omega
  · rw [ho]; split
    · exact .inl rfl
    · exact .inr rfl

/-- A return to the same level leaves the data segment registers as they are. -/
theorem C37_same_level (acc : Acc) (s s' : Cpu) (h : AgreeCore s.r) (hm : mode s.r = .prot) (hr : Returns acc s s')
    (hl : level s'.r = level s.r) (i : SR) (hi : isData i = true) : s'.r.get i = s.r.get i := by
  obtain ⟨cs, ha, hc⟩ := returns_after h hm hr
  refine ha.same ?_ i hi
  rw [cpl_level h, rpl_eq, lt2]; unfold Spec.rpl; rw [← hc, hl]
  exact BitVec.lt_irrefl _

namespace SegP
/-- The stack of a return to 0x23:0x1234 with SS:ESP = 0x1B:0x9000, at 0x8000. -/
def retMem : Guest.Mem := fun a =>
  if a = 0x8000#32 then 0x34#8 else if a = 0x8001#32 then 0x12#8 else if a = 0x8004#32 then 0x23#8
  else if a = 0x8009#32 then 0x90#8 else if a = 0x800C#32 then 0x1B#8 else gdt a
/-- A kernel whose DS is a DPL 0 data segment with base 0x30000 and whose ES is a DPL 3 data segment with
base 0. -/
def retKern : Cpu := ⟨{ kern.r with
  ds := ⟨0x10#16, 0x30000#32, 0xFFFF#32, 0x409303#32⟩
  es := ⟨0x1B#16, 0#32, 0xFFFFFFFF#32, 0xCFF300#32⟩
  fs := ⟨0x10#16, 0#32, 0xFFFFFFFF#32, 0xCF9300#32⟩ }, retMem⟩
end SegP
open SegP

/-- A kernel that returns to CPL 3 with a DPL 0 data segment of base 0x30000 in DS leaves it in DS: the
user program can access it. -/
theorem C37_keep_violation : AgreeCore retKern.r ∧ mode retKern.r = .prot ∧
    TooPrivileged retKern.r.ds.flags 3#2 ∧
    okWith (fun r => r.cs.sel == 0x23#16 && r.ds.sel == 0x10#16 && r.ds.base == 0x30000#32)
      (instr allOk (.farRet 4) retKern) = true := by
  refine ⟨?_, by decide, ?_, by decide +kernel⟩
  · constructor <;> decide
  · unfold TooPrivileged; decide

/-- The same return drops ES although it holds a DPL 3 data segment. -/
theorem C37_drop_violation : ¬ TooPrivileged retKern.r.es.flags 3#2 ∧ retKern.r.es.sel ≠ 0#16 ∧
    okWith (fun r => r.cs.sel == 0x23#16 && r.es.sel == 0#16) (instr allOk (.farRet 4) retKern) = true := by
  refine ⟨?_, by decide, by decide +kernel⟩
  unfold TooPrivileged; decide

-- FS holds a flat DPL 0 segment and is nulled: the hypotheses of `C37_partial` are met.
example : TooPrivileged retKern.r.fs.flags 3#2 ∧ (retKern.r.fs.flags.setWidth 2 : BitVec 2) = 0#2 ∧
    okWith (fun r => r.cs.sel == 0x23#16 && r.fs.sel == 0#16 && level r == 3#2) (instr allOk (.farRet 4) retKern) = true := by
  refine ⟨?_, by decide, by decide +kernel⟩
  unfold TooPrivileged; decide

end Verif.Seg
