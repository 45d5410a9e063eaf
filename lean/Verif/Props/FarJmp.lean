import Verif.Lemmas.Oks
import Verif.Props.Seg
/-
C38: far jumps in protected mode.  C67: far calls through call gates.
-/
namespace Verif.Seg
open Spec (AgreeCore mode level nullSel errOf descAt descAddr Holds withRpl isGate gateSel gateOff)

theorem withRpl_eq (sel : BitVec 16) (l : BitVec 2) :
    (selErr sel ||| ((l.setWidth 64 : BitVec 64).setWidth 16 : BitVec 16)) = withRpl sel l := by
  rw [selErr_eq]
  unfold errOf withRpl
  apply BitVec.eq_of_toNat_eq
  have hs := sel.isLt
  have hl := l.isLt
  rw [BitVec.toNat_or, BitVec.toNat_ofNat, BitVec.toNat_ofNat, BitVec.toNat_setWidth, BitVec.toNat_setWidth]
  rw [Nat.mod_eq_of_lt (a := l.toNat) (by omega), Nat.mod_eq_of_lt (a := l.toNat) (by omega),
    Nat.mod_eq_of_lt (a := sel.toNat / 4 * 4) (by omega), Nat.mod_eq_of_lt (a := sel.toNat / 4 * 4 + l.toNat) (by omega)]
  have := Nat.shiftLeft_add_eq_or_of_lt (b := l.toNat) (i := 2) (by omega) (sel.toNat / 4)
  rw [Nat.shiftLeft_eq] at this
  exact this.symm

theorem withRpl_low (sel : BitVec 16) (l : BitVec 2) : (withRpl sel l).setWidth 2 = l := by
  apply BitVec.eq_of_toNat_eq
  have hs := sel.isLt
  have hl := l.isLt
  unfold withRpl
  rw [BitVec.toNat_setWidth, BitVec.toNat_ofNat]
  omega

theorem dTy_eq (d : BitVec 64) : dTy d = (d.extractLsb' 40 4 : BitVec 4).setWidth 64 := by
  unfold dTy
  apply BitVec.eq_of_getLsbD_eq; intro i hi
  simp only [BitVec.getLsbD_setWidth, BitVec.getLsbD_ushiftRight, BitVec.getLsbD_and,
    BitVec.getLsbD_extractLsb', hi, decide_true, Bool.true_and]
  by_cases h : i < 4
  · have m1 : ∀ i : Fin 4, (0xF0000000000#64 : BitVec 64).getLsbD (40 + i.val) = true := by decide
    rw [m1 ⟨i, h⟩]; simp [h]
  · have : (0xF0000000000 : Nat).testBit (40 + i) = false :=
      Nat.testBit_lt_two_pow (Nat.lt_of_lt_of_le (by decide : 0xF0000000000 < 2 ^ 44)
        (Nat.pow_le_pow_right (by omega) (by omega)))
    simp [h, BitVec.getLsbD_ofNat, this]

theorem tyTable : ∀ t : BitVec 4, (!((t.setWidth 64 : BitVec 64) == 4#64 || (t.setWidth 64 : BitVec 64) == 12#64)) = false ↔
    t = 4#4 ∨ t = 12#4 := by decide

theorem gateSel_eq (d : BitVec 64) : ((d &&& 0xFFFF0000#64) >>> 16).setWidth 16 = gateSel d := by
  unfold gateSel
  apply BitVec.eq_of_getLsbD_eq; intro i hi
  have m1 : ∀ i : Fin 64, (0xFFFF0000#64 : BitVec 64).getLsbD i.val = decide (16 ≤ i.val ∧ i.val < 32) := by decide
  simp only [BitVec.getLsbD_setWidth, BitVec.getLsbD_ushiftRight, BitVec.getLsbD_and,
    BitVec.getLsbD_extractLsb', hi, decide_true, Bool.true_and]
  rw [m1 ⟨16 + i, by omega⟩]
  have : 16 + i < 32 := by omega
  simp [this]

theorem gateOff_eq (d : BitVec 64) : (((d &&& 0xFFFF000000000000#64) >>> 32) ||| (d &&& 0xFFFF#64)).setWidth 32 = gateOff d := by
  unfold gateOff
  apply BitVec.eq_of_getLsbD_eq; intro i hi
  have m1 : ∀ i : Fin 64, (0xFFFF000000000000#64 : BitVec 64).getLsbD i.val = decide (48 ≤ i.val) := by decide
  have m2 : ∀ i : Fin 64, (0xFFFF#64 : BitVec 64).getLsbD i.val = decide (i.val < 16) := by decide
  simp only [BitVec.getLsbD_setWidth, BitVec.getLsbD_or, BitVec.getLsbD_ushiftRight, BitVec.getLsbD_and,
    BitVec.getLsbD_append, BitVec.getLsbD_extractLsb', hi, decide_true, Bool.true_and]
  rw [m1 ⟨32 + i, by omega⟩, m2 ⟨i, by omega⟩]
  by_cases h : i < 16
  · have : ¬ 48 ≤ 32 + i := by omega
    simp [h, this]
  · have h1 : 48 ≤ 32 + i := by omega
    have h2 : 48 + (i - 16) = 32 + i := by omega
    have h3 : i - 16 < 16 := by omega
    simp [h, h1, h2, h3]

/-- What a far transfer to a code segment leaves: CS holds the segment with the given RPL, and EIP. -/
def AtTarget (sel : BitVec 16) (l : BitVec 2) (d : BitVec 64) (eip : BitVec 32) (r : Regs) : Prop :=
  Holds r.cs (withRpl sel l) d ∧ r.eip = eip

/-- The jump after the descriptor was read, direct case. -/
theorem oks_jmpDirect (acc : Acc) (sel : BitVec 16) (k : Nat) (jmp : BitVec 32) (r0 : Regs) (a : BitVec 32) (d : BitVec 64)
    (h : AgreeCore r0) (P : Prop) (hP : Spec.isCode d = true →
      (Spec.conforming d = true → Spec.dpl d ≤ level r0) →
      (Spec.conforming d = false → Spec.rpl sel ≤ level r0 ∧ Spec.dpl d = level r0) → Spec.present d = true → P) :
    Oks (fun r => r = r0) (fun r => P ∧ AtTarget sel (level r0) d (if k = 2 then jmp &&& 0xFFFF#32 else jmp) r) (do
      check (!dCode d) (.exc GP (selErr sel))
      if dConf d then check (decide (cpl r0 < dDpl d)) (.exc GP (selErr sel))
      else check (decide (cpl r0 < rpl sel) || dDpl d != cpl r0) (.exc GP (selErr sel))
      check (!dP d) (.exc NP (selErr sel))
      setAccessed acc d a
      loadDesc .cs (selErr sel ||| (cpl r0).setWidth 16) d
      modR fun r => { r with eip := if k = 2 then jmp &&& 0xFFFF#32 else jmp } : M Unit) := by
  have hc := cpl_level h
  have fin : Oks (fun r => r = r0) (AtTarget sel (level r0) d (if k = 2 then jmp &&& 0xFFFF#32 else jmp)) (do
      setAccessed acc d a
      loadDesc .cs (selErr sel ||| (cpl r0).setWidth 16) d
      modR fun r => { r with eip := if k = 2 then jmp &&& 0xFFFF#32 else jmp } : M Unit) := by
    refine oks_keeps_bind (keeps_setAccessed ..) fun _ => ?_
    refine oks_bind (Q := fun r => Holds r.cs (withRpl sel (level r0)) d) (oks_modR ?_) fun _ => oks_modR ?_
    · intro r _
      rw [hc, withRpl_eq]
      exact holds_write .cs _ d r
    · intro r hr; exact ⟨hr, rfl⟩
  refine oks_check fun h1 => ?_
  rw [dCode_eq, not_eq_false'] at h1
  have gen : ∀ (c : Bool) , (c = false → (Spec.conforming d = true → Spec.dpl d ≤ level r0) ∧
      (Spec.conforming d = false → Spec.rpl sel ≤ level r0 ∧ Spec.dpl d = level r0)) →
      Oks (fun r => r = r0) (fun r => P ∧ AtTarget sel (level r0) d (if k = 2 then jmp &&& 0xFFFF#32 else jmp) r) (do
      check c (.exc GP (selErr sel))
      check (!dP d) (.exc NP (selErr sel))
      setAccessed acc d a
      loadDesc .cs (selErr sel ||| (cpl r0).setWidth 16) d
      modR fun r => { r with eip := if k = 2 then jmp &&& 0xFFFF#32 else jmp } : M Unit) := by
    intro c hcc
    refine oks_check fun h2 => ?_
    refine oks_check fun h3 => ?_
    rw [dP_eq, not_eq_false'] at h3
    exact oks_mono fin fun r hr => ⟨hP h1 (hcc h2).1 (hcc h2).2 h3, hr⟩
  rw [dConf_eq]
  cases hf : Spec.conforming d with
  | true =>
    rw [hf] at gen
    refine gen _ fun h2 => ⟨fun _ => ?_, fun h => by cases h⟩
    rw [hc, dDpl_eq] at h2
    simp only [lt2, decide_eq_false_iff_not] at h2
    exact BitVec.not_lt.1 h2
  | false =>
    rw [hf] at gen
    refine gen _ fun h2 => ⟨fun h => (by cases h), fun _ => ?_⟩
    rw [hc, dDpl_eq, rpl_eq] at h2
    simp only [lt2, Bool.or_eq_false_iff, decide_eq_false_iff_not, bne_eq_false_iff_eq, eq2] at h2
    exact ⟨BitVec.not_lt.1 h2.1, h2.2⟩

theorem code_check {d : BitVec 64} (h : (dS d && dCode d) = true) : Spec.isSeg d = true ∧ Spec.isCode d = true := by
  rw [dS_eq, dCode_eq] at h; simpa using h

theorem gatePriv {d : BitVec 64} {sel : BitVec 16} {r : Regs} (h : AgreeCore r)
    (hp : (decide (dDpl d < cpl r) || decide (dDpl d < rpl sel)) = false) :
    level r ≤ Spec.dpl d ∧ Spec.rpl sel ≤ Spec.dpl d := by
  rw [cpl_level h, dDpl_eq, rpl_eq] at hp
  simp only [lt2, Bool.or_eq_false_iff, decide_eq_false_iff_not] at hp
  exact ⟨BitVec.not_lt.1 hp.1, BitVec.not_lt.1 hp.2⟩

/-- A call gate that may be used with a selector at the current level, and the code segment it names. -/
structure GateOk (s : Cpu) (sel : BitVec 16) : Prop where
  gate : isGate (descAt s sel)
  present : Spec.present (descAt s sel) = true
  cpl : level s.r ≤ Spec.dpl (descAt s sel)
  rpl : Spec.rpl sel ≤ Spec.dpl (descAt s sel)
  notNull : ¬ nullSel (gateSel (descAt s sel))
  code : Spec.isSeg (descAt s (gateSel (descAt s sel))) = true ∧
    Spec.isCode (descAt s (gateSel (descAt s sel))) = true
  codePresent : Spec.present (descAt s (gateSel (descAt s sel))) = true

/-- A far jump in protected mode that completes. -/
structure JmpDone (s : Cpu) (sel : BitVec 16) (k : Nat) (jmp : BitVec 32) (r : Regs) : Prop where
  direct : Spec.isSeg (descAt s sel) = true →
    (Spec.isCode (descAt s sel) = true ∧ Spec.present (descAt s sel) = true ∧
      (Spec.conforming (descAt s sel) = true → Spec.dpl (descAt s sel) ≤ level s.r) ∧
      (Spec.conforming (descAt s sel) = false → Spec.rpl sel ≤ level s.r ∧ Spec.dpl (descAt s sel) = level s.r)) ∧
    AtTarget sel (level s.r) (descAt s sel) (if k = 2 then jmp &&& 0xFFFF#32 else jmp) r
  gate : Spec.isSeg (descAt s sel) = false → GateOk s sel ∧
    (Spec.conforming (descAt s (gateSel (descAt s sel))) = true →
      Spec.dpl (descAt s (gateSel (descAt s sel))) ≤ level s.r) ∧
    (Spec.conforming (descAt s (gateSel (descAt s sel))) = false →
      Spec.dpl (descAt s (gateSel (descAt s sel))) = level s.r) ∧
    Holds r.cs (withRpl sel (level s.r)) (descAt s (gateSel (descAt s sel)))

theorem from_ljmp (acc : Acc) (sel : BitVec 16) (k : Nat) (jmp : BitVec 32) (s : Cpu) (h : AgreeCore s.r) :
    From s (JmpDone s sel k jmp) (ljmpPe acc sel k jmp) := by
  have hc := cpl_level h
  unfold ljmpPe
  refine from_getR ?_
  refine from_check fun hn => ?_
  refine from_readDesc fun d hd ho => ?_
  refine from_ite (fun hs => ?_) fun hs => ?_
  · rw [dS_eq] at hs
    refine from_mono (from_oks (oks_jmpDirect acc sel k jmp s.r _ d h (Spec.isCode d = true ∧ Spec.present d = true ∧
      (Spec.conforming d = true → Spec.dpl d ≤ level s.r) ∧
      (Spec.conforming d = false → Spec.rpl sel ≤ level s.r ∧ Spec.dpl d = level s.r)) fun h1 h2 h3 h4 => ⟨h1, h4, h2, h3⟩)) fun r hr => ?_
    subst hd
    exact ⟨fun _ => hr, fun hf => by rw [hs] at hf; cases hf⟩
  · rw [dS_eq] at hs
    have hs' : Spec.isSeg d = false := by cases hh : Spec.isSeg d <;> simp_all
    refine from_check fun _ => ?_
    refine from_check fun ht => ?_
    rw [dTy_eq, tyTable] at ht
    refine from_check fun hp => ?_
    refine from_check fun hpr => ?_
    rw [dP_eq, not_eq_false'] at hpr
    dsimp only
    rw [gateSel_eq]
    refine from_check fun hn2 => ?_
    refine from_readDesc fun cd hcd ho2 => ?_
    refine from_check fun hcc => ?_
    refine from_check fun hpc => ?_
    rw [dP_eq, not_eq_false'] at hpc
    simp only [Bool.or_eq_false_iff] at hcc
    obtain ⟨⟨hc1, hc2⟩, hc3⟩ := hcc
    rw [not_eq_false'] at hc1
    rw [dConf_eq, hc, dDpl_eq] at hc2 hc3
    have hnn : ¬ nullSel (gateSel d) := fun hh => by
      rw [(isNull_iff _).2 hh] at hn2; cases hn2
    refine from_oks (oks_keeps_bind (keeps_setAccessed ..) fun _ => ?_)
    refine oks_bind (Q := fun r => Holds r.cs (withRpl sel (level s.r)) cd) (oks_modR ?_) fun _ => oks_modR ?_
    · intro r _
      rw [hc, withRpl_eq]
      exact holds_write .cs _ cd r
    · intro r hr
      subst hd
      subst hcd
      refine ⟨fun hf => (by rw [hs'] at hf; cases hf), fun _ => ⟨⟨⟨hs', ht⟩, hpr, (gatePriv h hp).1, (gatePriv h hp).2, hnn,
        code_check hc1, hpc⟩, fun hf => ?_, fun hf => ?_, hr⟩⟩
      · rw [hf] at hc2
        simp only [lt2, Bool.true_and, decide_eq_false_iff_not] at hc2
        exact BitVec.not_lt.1 hc2
      · rw [hf] at hc3
        simp only [Bool.not_false, Bool.true_and, bne_eq_false_iff_eq, eq2] at hc3
        exact hc3

theorem jmp_done {acc : Acc} {s s' : Cpu} {sel : BitVec 16} {k : Nat} {jmp : BitVec 32} (h : AgreeCore s.r)
    (hm : mode s.r = .prot) (hr : instr acc (.farJmp sel k jmp) s = .ok () s') : JmpDone s sel k jmp s'.r := by
  change (if peNotVm s.r = true then _ else _ : M Unit) s = _ at hr
  rw [peNotVm_prot (prot_of h hm), if_pos rfl] at hr
  exact (from_ljmp acc sel k jmp s h).run () s' hr

/-- JMP FAR to a code segment that completes was allowed by the privilege rules and ends with CS holding
that segment with RPL = CPL, and EIP the offset of the instruction; the level does not change. -/
theorem C38_direct (acc : Acc) (s s' : Cpu) (sel : BitVec 16) (k : Nat) (jmp : BitVec 32) (h : AgreeCore s.r)
    (hm : mode s.r = .prot) (hr : instr acc (.farJmp sel k jmp) s = .ok () s') (hs : Spec.isSeg (descAt s sel) = true) :
    Spec.isCode (descAt s sel) = true ∧ Spec.present (descAt s sel) = true ∧
    (Spec.conforming (descAt s sel) = true → Spec.dpl (descAt s sel) ≤ level s.r) ∧
    (Spec.conforming (descAt s sel) = false → Spec.rpl sel ≤ level s.r ∧ Spec.dpl (descAt s sel) = level s.r) ∧
    Holds s'.r.cs (withRpl sel (level s.r)) (descAt s sel) ∧
    s'.r.eip = (if k = 2 then jmp &&& 0xFFFF#32 else jmp) := by
  obtain ⟨⟨h1, h2, h3, h4⟩, h5, h6⟩ := (jmp_done h hm hr).direct hs
  exact ⟨h1, h2, h3, h4, h5, h6⟩

/-- JMP FAR through a call gate that completes uses a gate allowed by the privilege rules, and the base,
limit and rights cached in CS are those of the code segment the gate names, which is usable at the current
level.  Missing: the selector in CS and EIP must come from the gate (`C38_gate_violation`). -/
theorem C38_gate_partial (acc : Acc) (s s' : Cpu) (sel : BitVec 16) (k : Nat) (jmp : BitVec 32) (h : AgreeCore s.r)
    (hm : mode s.r = .prot) (hr : instr acc (.farJmp sel k jmp) s = .ok () s') (hs : Spec.isSeg (descAt s sel) = false) :
    GateOk s sel ∧
    (Spec.conforming (descAt s (gateSel (descAt s sel))) = true →
      Spec.dpl (descAt s (gateSel (descAt s sel))) ≤ level s.r) ∧
    (Spec.conforming (descAt s (gateSel (descAt s sel))) = false →
      Spec.dpl (descAt s (gateSel (descAt s sel))) = level s.r) ∧
    s'.r.cs.base = Spec.base (descAt s (gateSel (descAt s sel))) ∧
    s'.r.cs.limit.toNat = Spec.limit (descAt s (gateSel (descAt s sel))) ∧
    s'.r.cs.flags = Spec.rights (descAt s (gateSel (descAt s sel))) := by
  obtain ⟨h1, h2, h3, h4⟩ := (jmp_done h hm hr).gate hs
  exact ⟨h1, h2, h3, h4.base, h4.limit, h4.rights⟩

open SegP in
/-- A far jump through the call gate 0x28, whose target is 8:0x12345678, ends at 0x28:0xAAAA: both the
selector and the offset are those of the instruction. -/
theorem C38_gate_violation : AgreeCore kern.r ∧ mode kern.r = .prot ∧ isGate (descAt kern 0x28#16) ∧
    gateSel (descAt kern 0x28#16) = 8#16 ∧ gateOff (descAt kern 0x28#16) = 0x12345678#32 ∧
    okWith (fun r => r.cs.sel == 0x28#16 && r.eip == 0xAAAA#32) (instr allOk (.farJmp 0x28#16 4 0xAAAA#32) kern) = true := by
  refine ⟨kern_core.1, kern_core.2.1, ⟨by decide +kernel, .inr (by decide +kernel)⟩, by decide +kernel, by decide +kernel,
    by decide +kernel⟩

open SegP in
-- A direct jump that completes.
example : okWith (fun r => r.cs.sel == 8#16 && r.eip == 0xAAAA#32) (instr allOk (.farJmp 8#16 4 0xAAAA#32) kern) = true := by
  decide +kernel

/-! C67 -/

/-- A far call in protected mode that completes. -/
structure CallDone (s : Cpu) (sel : BitVec 16) (call : BitVec 32) (r : Regs) : Prop where
  direct : Spec.isSeg (descAt s sel) = true →
    (Spec.isCode (descAt s sel) = true ∧ Spec.present (descAt s sel) = true ∧
      (Spec.conforming (descAt s sel) = true → Spec.dpl (descAt s sel) ≤ level s.r) ∧
      (Spec.conforming (descAt s sel) = false → Spec.rpl sel ≤ level s.r ∧ Spec.dpl (descAt s sel) = level s.r)) ∧
    AtTarget sel (level s.r) (descAt s sel) call r
  gate : Spec.isSeg (descAt s sel) = false → GateOk s sel ∧
    Spec.dpl (descAt s (gateSel (descAt s sel))) ≤ level s.r ∧
    AtTarget (gateSel (descAt s sel)) (Spec.dpl (descAt s (gateSel (descAt s sel))))
      (descAt s (gateSel (descAt s sel))) (gateOff (descAt s sel)) r

theorem from_lcall (acc : Acc) (sel : BitVec 16) (k : Nat) (call ret : BitVec 32) (s : Cpu) (h : AgreeCore s.r) :
    From s (CallDone s sel call) (lcallPe acc sel call k ret) := by
  have hc := cpl_level h
  unfold lcallPe
  refine from_getR ?_
  refine from_check fun hn => ?_
  refine from_readDesc fun d hd ho => ?_
  refine from_ite (fun hs => ?_) fun hs => ?_
  · rw [dS_eq] at hs
    refine from_check fun h1 => ?_
    rw [dCode_eq, not_eq_false'] at h1
    have fin : (Spec.present d = true → (Spec.conforming d = true → Spec.dpl d ≤ level s.r) →
      (Spec.conforming d = false → Spec.rpl sel ≤ level s.r ∧ Spec.dpl d = level s.r) → From s (CallDone s sel call) (do
        let sp ← pushV acc k s.r.esp (s.r.cs.sel.setWidth 32)
        let sp ← pushV acc k sp ret
        setAccessed acc d (descAddr s.r sel)
        loadDesc .cs (selErr sel ||| (cpl s.r).setWidth 16) d
        modR fun r => { r with esp := sp, eip := call } : M Unit)) := by
      intro hpr hd1 hd2
      refine from_oks ?_
      refine oks_keeps_bind (keeps_pushV ..) fun sp1 => ?_
      refine oks_keeps_bind (keeps_pushV ..) fun sp2 => ?_
      refine oks_keeps_bind (keeps_setAccessed ..) fun _ => ?_
      refine oks_bind (Q := fun r => Holds r.cs (withRpl sel (level s.r)) d) (oks_modR ?_) fun _ => oks_modR ?_
      · intro r _
        rw [hc, withRpl_eq]
        exact holds_write .cs _ d r
      · intro r hr
        subst hd
        exact ⟨fun _ => ⟨⟨h1, hpr, hd1, hd2⟩, hr, rfl⟩, fun hf => by rw [hs] at hf; cases hf⟩
    refine from_ite (fun hf => ?_) fun hf => ?_
    · rw [dConf_eq] at hf
      refine from_check fun h2 => from_check fun h3 => ?_
      rw [dP_eq, not_eq_false'] at h3
      rw [hc, dDpl_eq] at h2
      simp only [lt2, decide_eq_false_iff_not] at h2
      exact fin h3 (fun _ => BitVec.not_lt.1 h2) (fun hh => by rw [hf] at hh; cases hh)
    · rw [dConf_eq] at hf
      refine from_check fun h2 => from_check fun h3 => ?_
      rw [dP_eq, not_eq_false'] at h3
      rw [hc, dDpl_eq, rpl_eq] at h2
      simp only [lt2, Bool.or_eq_false_iff, decide_eq_false_iff_not, bne_eq_false_iff_eq, eq2] at h2
      exact fin h3 (fun hh => absurd hh hf) (fun _ => ⟨BitVec.not_lt.1 h2.1, h2.2⟩)
  · rw [dS_eq] at hs
    have hs' : Spec.isSeg d = false := by cases hh : Spec.isSeg d <;> simp_all
    refine from_check fun _ => ?_
    refine from_check fun ht => ?_
    rw [dTy_eq, tyTable] at ht
    refine from_check fun hp => ?_
    refine from_check fun hpr => ?_
    rw [dP_eq, not_eq_false'] at hpr
    dsimp only
    rw [gateSel_eq, gateOff_eq]
    refine from_check fun hn2 => ?_
    refine from_readDesc fun cd hcd ho2 => ?_
    refine from_check fun hcc => ?_
    refine from_check fun hpc => ?_
    rw [dP_eq, not_eq_false'] at hpc
    simp only [Bool.or_eq_false_iff] at hcc
    obtain ⟨hc1, hc2⟩ := hcc
    rw [not_eq_false'] at hc1
    rw [hc, dDpl_eq] at hc2
    simp only [lt2, decide_eq_false_iff_not] at hc2
    have hnn : ¬ nullSel (gateSel d) := fun hh => by
      rw [(isNull_iff _).2 hh] at hn2; cases hn2
    have fin : ∀ sp : BitVec 32, Oks (fun _ => True) (CallDone s sel call) (do
        setAccessed acc cd (descAddr s.r (gateSel d))
        loadDesc .cs (selErr (gateSel d) ||| (dDpl cd).setWidth 16) cd
        modR fun r => { r with esp := sp, eip := gateOff d } : M Unit) := by
      intro sp
      refine oks_bind (Q := fun _ => True) ⟨fun _ _ _ _ _ => trivial⟩ fun _ => ?_
      refine oks_bind (Q := fun r => Holds r.cs (withRpl (gateSel d) (Spec.dpl cd)) cd) (oks_modR ?_) fun _ => oks_modR ?_
      · intro r _
        rw [dDpl_eq, withRpl_eq]
        exact holds_write .cs _ cd r
      · intro r hr
        subst hd
        subst hcd
        exact ⟨fun hf => (by rw [hs'] at hf; cases hf), fun _ => ⟨⟨⟨hs', ht⟩, hpr, (gatePriv h hp).1, (gatePriv h hp).2, hnn,
          code_check hc1, hpc⟩, BitVec.not_lt.1 hc2, hr, rfl⟩⟩
    refine from_oks (oks_ite (fun _ => ?_) fun _ => ?_)
    · refine oks_any fun p => ?_
      refine oks_any fun _ => ?_
      refine oks_any fun _ => ?_
      refine oks_any fun _ => ?_
      refine oks_any fun _ => ?_
      refine oks_any fun _ => ?_
      refine oks_any fun _ => ?_
      refine oks_any fun _ => ?_
      refine oks_any fun _ => ?_
      refine oks_any fun sp => ?_
      refine oks_any fun _ => ?_
      refine oks_any fun _ => ?_
      exact fin sp
    · refine oks_any fun _ => ?_
      refine oks_any fun sp => ?_
      refine oks_bind (Q := fun _ => True) ⟨fun _ _ _ _ _ => trivial⟩ fun _ => ?_
      refine oks_bind (Q := fun r => Holds r.cs (withRpl (gateSel d) (Spec.dpl cd)) cd) (oks_modR ?_) fun _ => oks_modR ?_
      · intro r _
        rw [dDpl_eq, withRpl_eq]
        exact holds_write .cs _ cd r
      · intro r hr
        subst hd
        subst hcd
        exact ⟨fun hf => (by rw [hs'] at hf; cases hf), fun _ => ⟨⟨⟨hs', ht⟩, hpr, (gatePriv h hp).1, (gatePriv h hp).2, hnn,
          code_check hc1, hpc⟩, BitVec.not_lt.1 hc2, hr, rfl⟩⟩

theorem call_done {acc : Acc} {s s' : Cpu} {sel : BitVec 16} {k : Nat} {call ret : BitVec 32} (h : AgreeCore s.r)
    (hm : mode s.r = .prot) (hr : instr acc (.farCall sel k call ret) s = .ok () s') : CallDone s sel call s'.r := by
  change (if peNotVm s.r = true then _ else _ : M Unit) s = _ at hr
  rw [peNotVm_prot (prot_of h hm), if_pos rfl] at hr
  exact (from_lcall acc sel k call ret s h).run () s' hr

/-- CALL FAR to a code segment that completes was allowed by the privilege rules and ends with CS holding
that segment with RPL = CPL, and EIP the offset of the instruction. -/
theorem C67_direct (acc : Acc) (s s' : Cpu) (sel : BitVec 16) (k : Nat) (call ret : BitVec 32) (h : AgreeCore s.r)
    (hm : mode s.r = .prot) (hr : instr acc (.farCall sel k call ret) s = .ok () s') (hs : Spec.isSeg (descAt s sel) = true) :
    Spec.isCode (descAt s sel) = true ∧ Spec.present (descAt s sel) = true ∧
    (Spec.conforming (descAt s sel) = true → Spec.dpl (descAt s sel) ≤ level s.r) ∧
    (Spec.conforming (descAt s sel) = false → Spec.rpl sel ≤ level s.r ∧ Spec.dpl (descAt s sel) = level s.r) ∧
    Holds s'.r.cs (withRpl sel (level s.r)) (descAt s sel) ∧ s'.r.eip = call := by
  obtain ⟨⟨h1, h2, h3, h4⟩, h5, h6⟩ := (call_done h hm hr).direct hs
  exact ⟨h1, h2, h3, h4, h5, h6⟩

/-- CALL FAR through a call gate that completes uses a gate allowed by the privilege rules and ends at the
offset stored in the gate, in the code segment the gate names, which is at least as privileged as the
caller; EIP and the cached segment do not depend on the offset in the instruction. -/
theorem C67_gate_target (acc : Acc) (s s' : Cpu) (sel : BitVec 16) (k : Nat) (call ret : BitVec 32) (h : AgreeCore s.r)
    (hm : mode s.r = .prot) (hr : instr acc (.farCall sel k call ret) s = .ok () s') (hs : Spec.isSeg (descAt s sel) = false) :
    GateOk s sel ∧
    Spec.dpl (descAt s (gateSel (descAt s sel))) ≤ level s.r ∧
    s'.r.cs.sel.toNat / 4 = (gateSel (descAt s sel)).toNat / 4 ∧
    s'.r.cs.base = Spec.base (descAt s (gateSel (descAt s sel))) ∧
    s'.r.cs.limit.toNat = Spec.limit (descAt s (gateSel (descAt s sel))) ∧
    s'.r.cs.flags = Spec.rights (descAt s (gateSel (descAt s sel))) ∧
    s'.r.eip = gateOff (descAt s sel) := by
  obtain ⟨h1, h2, h3, h4⟩ := (call_done h hm hr).gate hs
  refine ⟨h1, h2, ?_, h3.base, h3.limit, h3.rights, h4⟩
  rw [h3.sel]
  generalize gateSel (descAt s sel) = x
  generalize Spec.dpl (descAt s x) = y
  have := x.isLt
  have := y.isLt
  unfold withRpl
  rw [BitVec.toNat_ofNat]
  omega

/-- The new CPL is the DPL of a non-conforming target.  Missing: a conforming target must not change the
CPL (`C67_conforming_violation`). -/
theorem C67_level_partial (acc : Acc) (s s' : Cpu) (sel : BitVec 16) (k : Nat) (call ret : BitVec 32) (h : AgreeCore s.r)
    (hm : mode s.r = .prot) (hr : instr acc (.farCall sel k call ret) s = .ok () s') :
    (Spec.isSeg (descAt s sel) = true → level s'.r = level s.r) ∧
    (Spec.isSeg (descAt s sel) = false → Spec.conforming (descAt s (gateSel (descAt s sel))) = false →
      level s'.r = Spec.dpl (descAt s (gateSel (descAt s sel)))) := by
  have hd := call_done h hm hr
  have hp := prot_of h hm
  have hm' : mode s'.r = .prot := by
    change (if peNotVm s.r = true then _ else _ : M Unit) s = _ at hr
    rw [peNotVm_prot hp, if_pos rfl] at hr
    have := (keeps_lcallPe (fl := false) acc sel call k ret).run s hp
    rw [hr] at this
    exact mode_prot_of this
  have hl : level s'.r = s'.r.cs.sel.setWidth 2 := by unfold level; rw [hm']
  refine ⟨fun hs => ?_, fun hs _ => ?_⟩
  · rw [hl, (hd.direct hs).2.1.sel, withRpl_low]
  · rw [hl, (hd.gate hs).2.2.1.sel, withRpl_low]

namespace SegP
/-- As `user`, with descriptor 8 a conforming code segment of DPL 0. -/
def confUser : Cpu := ⟨user.r, fun a => if a = 0x200D#32 then 0x9F#8 else gdt a⟩
end SegP

open SegP in
/-- A program at CPL 3 that calls through a gate to a conforming code segment of DPL 0 continues at CPL 0
with its own stack. -/
theorem C67_conforming_violation : AgreeCore confUser.r ∧ mode confUser.r = .prot ∧ level confUser.r = 3#2 ∧
    Spec.conforming (descAt confUser (gateSel (descAt confUser 0x28#16))) = true ∧
    okWith (fun r => level r == 0#2 && r.ss.sel == confUser.r.ss.sel) (instr allOk (.farCall 0x28#16 4 0#32 0#32) confUser) = true := by
  refine ⟨user_core.1, user_core.2.1, user_core.2.2, by decide +kernel, by decide +kernel⟩

open SegP in
-- A call through the gate from the kernel (same level) completes at 8:0x12345678.
example : okWith (fun r => r.cs.sel == 8#16 && r.eip == 0x12345678#32) (instr allOk (.farCall 0x28#16 4 0#32 0#32) kern) = true ∧
    Spec.isSeg (descAt kern 0x28#16) = false := by
  refine ⟨by decide +kernel, by decide +kernel⟩

end Verif.Seg
