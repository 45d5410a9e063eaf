import Verif.Model.SysSeg
import Verif.Spec.SysSeg
import Verif.Props.Gate
import Verif.Props.IretResume
/- C79: system segment registers, descriptor table registers and selector checks. -/
namespace Verif.Seg
open Spec Guest

theorem bind_readDescT {β : Type} (acc : Acc) (sel : BitVec 16) (f : BitVec 32 × BitVec 64 → M β) (s : Cpu) :
    (readDesc acc true sel >>= f) s =
      if sel[2] = true then .stop (.exc 13 (errOf sel)) s
      else if outside s.r sel then .stop (.exc 13 (Spec.errOf sel)) s
      else if acc s (Spec.descAddr s.r sel) 8 false 2 = true then f (Spec.descAddr s.r sel, Spec.descAt s sel) s
      else .stop .fault s := by
  have h : ∀ b, sel[2] = b → (true && (sel &&& 4#16 != 0#16)) = b := by intro b hb; rw [ti_eq, hb]; rfl
  cases hb : sel[2] with
  | true =>
    rw [if_pos rfl]
    apply bind_of_stop
    show (check (true && (sel &&& 4#16 != 0#16)) (.exc GP (selErr sel)) >>= _) s = _
    rw [h true hb, bind_check, if_pos rfl, selErr_eq]
  | false =>
    rw [if_neg (by simp), ← bind_readDesc]
    have : readDesc acc true sel = readDesc acc false sel := by
      unfold readDesc
      simp only [h false hb, Bool.false_and]
    rw [this]

theorem kind_eq (d : BitVec 64) : ((d &&& 0x100000000000#64) >>> 40) ||| dTy d = (kindOf d).setWidth 64 := by
  unfold dTy kindOf
  bits64

theorem kind_beq (d : BitVec 64) (k : BitVec 5) : (((d &&& 0x100000000000#64) >>> 40) ||| dTy d == k.setWidth 64) = (kindOf d == k) := by
  rw [kind_eq]
  rw [Bool.eq_iff_iff, beq_iff_eq, beq_iff_eq]
  constructor
  · intro h
    have := congrArg (BitVec.setWidth 5) h
    simpa [BitVec.setWidth_setWidth_of_le] using this
  · rintro rfl; rfl

theorem vm_eq (r : Regs) : (r.eflags &&& 0x20000#32 != 0#32) = r.eflags[17] := by
  have := and_ne_zero_bit r.eflags 0x20000#32 17 (by omega) rfl
  cases h : r.eflags[17] <;> simp_all

theorem cpl_zero {r : Regs} (h : AgreeCore r) : (r.hflags &&& H_CPL != 0#32) = decide (level r ≠ 0#2) := by
  rw [hcpl_level h]
  generalize level r = l
  revert l; decide

/-- The tail of LTR, after the descriptor was read. -/
def ltrTail (acc : Acc) (sel : BitVec 16) (a : BitVec 32) (d : BitVec 64) : M Unit := do
  let t := ((d &&& 0x100000000000#64) >>> 40) ||| dTy d
  check (!(t == 1#64 || t == 9#64)) (.exc GP (selErr sel))
  check (!dP d) (.exc NP (selErr sel))
  wr acc a 8 2 (d ||| 0x20000000000#64).toNat
  modR fun r => { r with tr := ⟨sel, descBase d, descLimit d, descFlags d⟩ }

theorem ltr_eq (acc : Acc) (sel : BitVec 16) : instr acc (.ltr sel) = (getR >>= fun r =>
    check (r.eflags &&& 0x20000#32 != 0#32) (.exc 6 0#16) >>= fun _ => check (r.hflags &&& H_CPL != 0#32) (.exc GP 0#16) >>= fun _ =>
    check (isNull sel) (.exc GP 0#16) >>= fun _ => readDesc acc true sel >>= fun p => ltrTail acc sel p.1 p.2) := rfl

/-- The tail of LLDT. -/
def lldtTail (sel : BitVec 16) (d : BitVec 64) : M Unit := do
  let t := ((d &&& 0x100000000000#64) >>> 40) ||| dTy d
  check (t != 2#64) (.exc GP (selErr sel))
  check (!dP d) (.exc NP (selErr sel))
  modR fun r => { r with ldtr := ⟨sel, descBase d, descLimit d, descFlags d⟩ }

theorem lldt_eq (acc : Acc) (sel : BitVec 16) : instr acc (.lldt sel) = (getR >>= fun r =>
    check (r.eflags &&& 0x20000#32 != 0#32) (.exc 6 0#16) >>= fun _ => check (r.hflags &&& H_CPL != 0#32) (.exc GP 0#16) >>= fun _ =>
    if isNull sel then modR fun r => { r with ldtr := ⟨0#16, 0#32, 0#32, 0#32⟩ }
    else readDesc acc false sel >>= fun p => lldtTail sel p.2) := rfl

theorem ltrTail_run (acc : Acc) (sel : BitVec 16) (a : BitVec 32) (d : BitVec 64) (s : Cpu) : ltrTail acc sel a d s =
    if (kindOf d == 1#5 || kindOf d == 9#5) = false then .stop (.exc 13 (errOf sel)) s
    else if present d = false then .stop (.exc 11 (errOf sel)) s
    else if acc s a 8 true 2 = true then
      .ok () ⟨{ s.r with tr := ⟨sel, descBase d, descLimit d, descFlags d⟩ }, store s.mem a 8 (d ||| 0x20000000000#64).toNat⟩
    else .stop .fault s := by
  unfold ltrTail
  dsimp only
  rw [show (1#64 : BitVec 64) = (1#5 : BitVec 5).setWidth 64 from rfl, show (9#64 : BitVec 64) = (9#5 : BitVec 5).setWidth 64 from rfl,
    kind_beq, kind_beq, bind_check]
  cases h : (kindOf d == 1#5 || kindOf d == 9#5) with
  | false => rw [if_pos (show (!false) = true from rfl), if_pos (show (false = false) from rfl), selErr_eq]
  | true =>
    rw [if_neg (by simp), if_neg (by simp), bind_check, dP_eq]
    cases h : present d with
    | false => rw [if_pos (show (!false) = true from rfl), if_pos (show (false = false) from rfl), selErr_eq]
    | true =>
      rw [if_neg (by simp), if_neg (by simp)]
      by_cases hc : acc s a 8 true 2 = true
      · rw [if_pos hc]
        rw [bind_of_ok (a := ()) (s' := { s with mem := store s.mem a 8 (d ||| 0x20000000000#64).toNat }) (by unfold wr; rw [if_pos hc])]
        rfl
      · rw [if_neg hc]
        exact bind_of_stop (by unfold wr; rw [if_neg hc])

theorem lldtTail_run (sel : BitVec 16) (d : BitVec 64) (s : Cpu) : lldtTail sel d s =
    if (kindOf d == 2#5) = false then .stop (.exc 13 (errOf sel)) s
    else if present d = false then .stop (.exc 11 (errOf sel)) s
    else .ok () ⟨{ s.r with ldtr := ⟨sel, descBase d, descLimit d, descFlags d⟩ }, s.mem⟩ := by
  unfold lldtTail
  dsimp only
  rw [bne, show (2#64 : BitVec 64) = (2#5 : BitVec 5).setWidth 64 from rfl, kind_beq, bind_check]
  cases h : (kindOf d == 2#5) with
  | false => rw [if_pos (show (!false) = true from rfl), if_pos (show (false = false) from rfl), selErr_eq]
  | true =>
    rw [if_neg (by simp), if_neg (by simp), bind_check, dP_eq]
    cases h : present d with
    | false => rw [if_pos (show (!false) = true from rfl), if_pos (show (false = false) from rfl), selErr_eq]
    | true => rw [if_neg (by simp), if_neg (by simp)]; rfl

theorem mode_vm {r : Regs} (hm : mode r ≠ .real) : (r.eflags[17] = true) ↔ mode r ≠ .prot := by
  unfold mode at *
  cases h0 : r.cr0[0] <;> cases h1 : r.eflags[17] <;> simp_all

theorem out_iff (r : Regs) (sel : BitVec 16) (hf : TableFits r sel) :
    outside r sel ↔ ¬ sel.toNat / 8 * 8 + 7 ≤ (tableLimit r sel).toNat := outside_iff r sel hf

/-- C79: LTR accepts exactly the selectors of present, available task state segments in the GDT, at level 0 and in protected mode;
it loads TR from the descriptor and marks it busy, and nothing else changes; otherwise it raises the exception of the table and
changes nothing. Partial: in real mode, where it is undefined, it is executed. -/
theorem C79_ltr_partial (acc : Acc) (s : Cpu) (sel : BitVec 16) (h : AgreeCore s.r) (hm : mode s.r ≠ .real) (hf : TableFits s.r sel)
    (hacc : acc s (descAddr s.r sel) 8 false 2 = true) :
    (∀ i c, ltrFault s sel = some (i, c) → instr acc (.ltr sel) s = .stop (.exc i c) s) ∧
    (ltrFault s sel = none → if acc s (descAddr s.r sel) 8 true 2 = true then
      ∃ s', instr acc (.ltr sel) s = .ok () s' ∧ Holds s'.r.tr sel (descAt s sel) ∧ { s'.r with tr := s.r.tr } = s.r ∧
        s'.mem = store s.mem (descAddr s.r sel) 8 (descAt s sel ||| BitVec.twoPow 64 41).toNat
      else instr acc (.ltr sel) s = .stop .fault s) := by
  rw [ltr_eq, bind_getR, bind_check, vm_eq]
  unfold ltrFault sysFault
  by_cases hv : s.r.eflags[17] = true
  · rw [if_pos hv, if_pos ((mode_vm hm).1 hv)]
    exact ⟨fun i c x => by cases x; rfl, fun x => by cases x⟩
  rw [if_neg hv, if_neg (fun x => hv ((mode_vm hm).2 x)), bind_check, cpl_zero h]
  by_cases hl : level s.r ≠ 0#2
  · rw [if_pos (decide_eq_true hl), if_pos hl]
    exact ⟨fun i c x => by cases x; rfl, fun x => by cases x⟩
  rw [if_neg (show ¬ decide (level s.r ≠ 0#2) = true by simpa using hl), if_neg hl, bind_check]
  by_cases hn : sel.toNat < 4
  · rw [if_pos ((isNull_iff sel).2 hn), if_pos hn]
    exact ⟨fun i c x => by cases x; rfl, fun x => by cases x⟩
  rw [if_neg (fun x => hn ((isNull_iff sel).1 x)), if_neg hn, bind_readDescT]
  by_cases ht : sel[2] = true
  · rw [if_pos ht, if_pos ht]
    exact ⟨fun i c x => by cases x; rfl, fun x => by cases x⟩
  rw [if_neg ht, if_neg ht]
  by_cases ho : outside s.r sel
  · rw [if_pos ho, if_pos ((out_iff s.r sel hf).1 ho)]
    exact ⟨fun i c x => by cases x; rfl, fun x => by cases x⟩
  rw [if_neg ho, if_neg (fun x => ho ((out_iff s.r sel hf).2 x)), if_pos hacc]
  generalize descAt s sel = d
  dsimp only
  rw [ltrTail_run]
  generalize hk : kindOf d = k
  by_cases hk' : (k == 1#5 || k == 9#5) = false
  · rw [if_pos hk', if_pos hk']
    exact ⟨fun i c x => by cases x; rfl, fun x => by cases x⟩
  rw [if_neg hk', if_neg hk']
  by_cases hp : present d = false
  · rw [if_pos hp, if_pos hp]
    exact ⟨fun i c x => by cases x; rfl, fun x => by cases x⟩
  rw [if_neg hp, if_neg hp]
  refine ⟨fun i c x => (by cases x), fun _ => ?_⟩
  by_cases hw : acc s (descAddr s.r sel) 8 true 2 = true
  · simp only [if_pos hw]
    exact ⟨_, rfl, holds_desc _ _, rfl, rfl⟩
  · simp only [if_neg hw]

/-- C79: LLDT of a null selector empties the LDT; otherwise it accepts exactly the selectors of present LDTs; nothing but LDTR changes.
Partial: in real mode it is executed, and a selector with the table bit set is looked up in the current LDT instead of being refused. -/
theorem C79_lldt_partial (acc : Acc) (s : Cpu) (sel : BitVec 16) (h : AgreeCore s.r) (hm : mode s.r ≠ .real) (hf : TableFits s.r sel)
    (hacc : acc s (descAddr s.r sel) 8 false 2 = true) (hti : sel[2] = false) :
    (∀ i c, lldtFault s sel = some (i, c) → instr acc (.lldt sel) s = .stop (.exc i c) s) ∧
    (lldtFault s sel = none → ∃ s', instr acc (.lldt sel) s = .ok () s' ∧ s'.mem = s.mem ∧ { s'.r with ldtr := s.r.ldtr } = s.r ∧
      if sel.toNat < 4 then s'.r.ldtr.sel = 0#16 ∧ s'.r.ldtr.limit = 0#32 else Holds s'.r.ldtr sel (descAt s sel)) := by
  rw [lldt_eq, bind_getR, bind_check, vm_eq]
  unfold lldtFault sysFault
  by_cases hv : s.r.eflags[17] = true
  · rw [if_pos hv, if_pos ((mode_vm hm).1 hv)]
    exact ⟨fun i c x => by cases x; rfl, fun x => by cases x⟩
  rw [if_neg hv, if_neg (fun x => hv ((mode_vm hm).2 x)), bind_check, cpl_zero h]
  by_cases hl : level s.r ≠ 0#2
  · rw [if_pos (decide_eq_true hl), if_pos hl]
    exact ⟨fun i c x => by cases x; rfl, fun x => by cases x⟩
  rw [if_neg (show ¬ decide (level s.r ≠ 0#2) = true by simpa using hl), if_neg hl]
  by_cases hn : sel.toNat < 4
  · rw [if_pos ((isNull_iff sel).2 hn), if_pos hn]
    refine ⟨fun i c x => (by cases x), fun _ => ⟨_, rfl, rfl, rfl, ?_⟩⟩
    rw [if_pos hn]
    exact ⟨rfl, rfl⟩
  rw [if_neg (fun x => hn ((isNull_iff sel).1 x)), if_neg hn, bind_readDesc, if_neg (by rw [hti]; simp)]
  by_cases ho : outside s.r sel
  · rw [if_pos ho, if_pos ((out_iff s.r sel hf).1 ho)]
    exact ⟨fun i c x => by cases x; rfl, fun x => by cases x⟩
  rw [if_neg ho, if_neg (fun x => ho ((out_iff s.r sel hf).2 x)), if_pos hacc]
  generalize descAt s sel = d
  dsimp only
  rw [lldtTail_run]
  generalize hk : kindOf d = k
  by_cases hk' : (k == 2#5) = false
  · rw [if_pos hk', if_pos hk']
    exact ⟨fun i c x => by cases x; rfl, fun x => by cases x⟩
  rw [if_neg hk', if_neg hk']
  by_cases hp : present d = false
  · rw [if_pos hp, if_pos hp]
    exact ⟨fun i c x => by cases x; rfl, fun x => by cases x⟩
  rw [if_neg hp, if_neg hp]
  refine ⟨fun i c x => (by cases x), fun _ => ⟨_, rfl, rfl, rfl, ?_⟩⟩
  rw [if_neg hn]
  exact holds_desc _ _

/-- The test of VERR and VERW on a descriptor. -/
def verTest (isVerr : Bool) (l : BitVec 2) (sel : BitVec 16) (d : BitVec 64) : Bool :=
  !(!dS d || (d &&& 0xC0000000000#64 != 0xC0000000000#64 && (decide (dDpl d < l.setWidth 64) || decide (dDpl d < rpl sel)))) &&
    if isVerr then d &&& 0xA0000000000#64 != 0x80000000000#64 else d &&& 0xA0000000000#64 == 0x20000000000#64

theorem two_bits (d m : BitVec 64) (i j : Nat) (hi : i < 64) (hj : j < 64) (hm : m = BitVec.twoPow 64 i ||| BitVec.twoPow 64 j) (hij : i ≠ j)
    (k : BitVec 64) (bi bj : Bool) (hk : k = (if bi then BitVec.twoPow 64 i else 0#64) ||| (if bj then BitVec.twoPow 64 j else 0#64)) :
    (d &&& m == k) = (d[i] == bi && d[j] == bj) := by
  have e : d &&& m = (if d[i] then BitVec.twoPow 64 i else 0#64) ||| (if d[j] then BitVec.twoPow 64 j else 0#64) := by
    rw [hm, BitVec.and_or_distrib_left, BitVec.and_twoPow, BitVec.and_twoPow, BitVec.getLsbD_eq_getElem hi, BitVec.getLsbD_eq_getElem hj]
  rw [e, hk]
  have key : ∀ a b : Bool, ((if a then BitVec.twoPow 64 i else 0#64) ||| (if b then BitVec.twoPow 64 j else 0#64))[i] = a ∧
      ((if a then BitVec.twoPow 64 i else 0#64) ||| (if b then BitVec.twoPow 64 j else 0#64))[j] = b := by
    intro a b
    cases a <;> cases b <;> simp [BitVec.getElem_twoPow, hij, Ne.symm hij]
  rw [Bool.eq_iff_iff, beq_iff_eq, Bool.and_eq_true, beq_iff_eq, beq_iff_eq]
  constructor
  · intro h
    have h1 := congrArg (fun x : BitVec 64 => x[i]) h
    have h2 := congrArg (fun x : BitVec 64 => x[j]) h
    simp only [(key _ _).1, (key _ _).2] at h1 h2
    exact ⟨h1, h2⟩
  · rintro ⟨h1, h2⟩; rw [h1, h2]

theorem verTest_read (l : BitVec 2) (sel : BitVec 16) (d : BitVec 64) :
    verTest true l sel d = true ↔ Readable d ∧ DataPriv sel d l := by
  unfold verTest Readable DataPriv
  rw [bne, bne, two_bits d 0xC0000000000#64 43 42 (by omega) (by omega) rfl (by omega) 0xC0000000000#64 true true rfl,
    two_bits d 0xA0000000000#64 43 41 (by omega) (by omega) rfl (by omega) 0x80000000000#64 true false rfl, dS_eq, dDpl_eq, rpl_eq]
  simp only [lt2, le2]
  show _ ↔ (isSeg d = true ∧ (d[43] = true → d[41] = true)) ∧ ((d[43] = true ∧ d[42] = true) ∨ _)
  cases isSeg d <;> cases d[43] <;> cases d[42] <;> cases d[41] <;>
    by_cases h1 : Spec.dpl d < l <;> by_cases h2 : Spec.dpl d < Spec.rpl sel <;> simp [h1, h2]

theorem verTest_write (l : BitVec 2) (sel : BitVec 16) (d : BitVec 64) :
    verTest false l sel d = true ↔ isSeg d = true ∧ isCode d = false ∧ Spec.rw d = true ∧ Spec.rpl sel ≤ Spec.dpl d ∧ l ≤ Spec.dpl d := by
  unfold verTest
  rw [bne, two_bits d 0xC0000000000#64 43 42 (by omega) (by omega) rfl (by omega) 0xC0000000000#64 true true rfl,
    two_bits d 0xA0000000000#64 43 41 (by omega) (by omega) rfl (by omega) 0x20000000000#64 false true rfl, dS_eq, dDpl_eq, rpl_eq]
  simp only [lt2, le2]
  show _ ↔ isSeg d = true ∧ d[43] = false ∧ d[41] = true ∧ _
  cases isSeg d <;> cases d[43] <;> cases d[42] <;> cases d[41] <;>
    by_cases h1 : Spec.dpl d < l <;> by_cases h2 : Spec.dpl d < Spec.rpl sel <;> simp [h1, h2]

theorem verrw_eq (acc : Acc) (b : Bool) (sel : BitVec 16) (s : Cpu) (hacc : acc s (descAddr s.r sel) 8 false 2 = true)
    (hn : ¬ isNull sel = true) (ho : ¬ outside s.r sel) (h : AgreeCore s.r) (d : BitVec 64) (hd : descAt s sel = d) :
    verrw acc b sel s = .ok (verTest b (level s.r) sel d) s := by
  unfold verrw
  rw [if_neg hn, readDesc_eq, if_neg ho, if_pos hacc, hd]
  dsimp only
  rw [cpl_level h]
  unfold verTest
  generalize (!dS d || (d &&& 0xC0000000000#64 != 0xC0000000000#64 &&
    (decide (dDpl d < (level s.r).setWidth 64) || decide (dDpl d < rpl sel)))) = x
  cases x <;> cases b <;> rfl

theorem verrw_no (acc : Acc) (b : Bool) (sel : BitVec 16) (s : Cpu) (hf : TableFits s.r sel) (hn : ¬ Names s sel) :
    verrw acc b sel s = .ok false s := by
  unfold verrw
  by_cases h : isNull sel = true
  · rw [if_pos h]
  · rw [if_neg h, readDesc_eq, if_pos]
    exact (outside_iff s.r sel hf).2 fun x => hn ⟨fun y => h ((isNull_iff sel).2 y), x⟩

theorem verx_eq (acc : Acc) (b : Bool) (sel : BitVec 16) (s : Cpu) (hm : mode s.r = .prot) : verx acc b sel s = verrw acc b sel s := by
  unfold verx
  rw [bind_getR, bind_check, vm_eq, if_neg]
  intro hx
  exact (mode_vm (by rw [hm]; simp)).1 hx hm

/-- C79: VERR sets ZF exactly if the selector names a segment that can be read at this level, and never faults on a selector. -/
theorem C79_verr (acc : Acc) (s : Cpu) (sel : BitVec 16) (h : AgreeCore s.r) (hm : mode s.r = .prot) (hf : TableFits s.r sel)
    (hacc : acc s (descAddr s.r sel) 8 false 2 = true) :
    ∃ z, verx acc true sel s = .ok z s ∧
      (z = true ↔ Names s sel ∧ Readable (descAt s sel) ∧ DataPriv sel (descAt s sel) (level s.r)) := by
  rw [verx_eq acc _ sel s hm]
  by_cases hn : Names s sel
  · have ho : ¬ outside s.r sel := fun x => (outside_iff s.r sel hf).1 x hn.2
    generalize hd : descAt s sel = d
    refine ⟨_, verrw_eq acc true sel s hacc (fun x => hn.1 ((isNull_iff sel).1 x)) ho h d hd, ?_⟩
    rw [verTest_read]
    exact ⟨fun x => ⟨hn, x⟩, fun x => x.2⟩
  · exact ⟨false, verrw_no acc true sel s hf hn, by constructor <;> intro x; (cases x); exact absurd x.1 hn⟩

/-- C79: VERW sets ZF exactly if the selector names a data segment that can be written at this level. -/
theorem C79_verw (acc : Acc) (s : Cpu) (sel : BitVec 16) (h : AgreeCore s.r) (hm : mode s.r = .prot) (hf : TableFits s.r sel)
    (hacc : acc s (descAddr s.r sel) 8 false 2 = true) :
    ∃ z, verx acc false sel s = .ok z s ∧
      (z = true ↔ Names s sel ∧ isSeg (descAt s sel) = true ∧ isCode (descAt s sel) = false ∧ Spec.rw (descAt s sel) = true ∧
        Spec.rpl sel ≤ Spec.dpl (descAt s sel) ∧ level s.r ≤ Spec.dpl (descAt s sel)) := by
  rw [verx_eq acc _ sel s hm]
  by_cases hn : Names s sel
  · have ho : ¬ outside s.r sel := fun x => (outside_iff s.r sel hf).1 x hn.2
    generalize hd : descAt s sel = d
    refine ⟨_, verrw_eq acc false sel s hacc (fun x => hn.1 ((isNull_iff sel).1 x)) ho h d hd, ?_⟩
    rw [verTest_write]
    exact ⟨fun x => ⟨hn, x⟩, fun x => x.2⟩
  · exact ⟨false, verrw_no acc false sel s hf hn, by constructor <;> intro x; (cases x); exact absurd x.1 hn⟩

/-- C79: what VERR allows can be loaded: a selector VERR accepts, of a present segment, does not raise an exception when it is loaded
into DS (other than a page fault of the tables). -/
theorem C79_verr_load (acc : Acc) (s : Cpu) (i : SR) (sel : BitVec 16) (h : AgreeCore s.r) (hm : mode s.r = .prot) (hf : TableFits s.r sel)
    (hs : i ≠ .ss) (hc : i ≠ .cs)
    (hrd : acc s (descAddr s.r sel) 8 false 2 = true) (hwr : acc s (descAddr s.r sel) 8 true 2 = true)
    (hv : verx acc true sel s = .ok true s) (hp : present (descAt s sel) = true) :
    ∃ s', instr acc (.loadSeg i sel) s = .ok () s' := by
  obtain ⟨z, hz, hiff⟩ := C79_verr acc s sel h hm hf hrd
  rw [hv] at hz
  cases hz
  obtain ⟨hn, h1, h2⟩ := hiff.1 rfl
  exact (C36_data_accept acc s i sel h hm hn.1 hs hc hf hn.2 hrd hwr).1 h1 h2 hp

/-- C79: ARPL raises the RPL of the destination to that of the source, reports whether it did, and never lowers it or changes
another bit. -/
theorem C79_arpl (dst src : BitVec 16) :
    ((arpl dst src).2 = true ↔ dst.toNat % 4 < src.toNat % 4) ∧
    ((arpl dst src).1 = none ↔ (arpl dst src).2 = false) ∧
    ((arpl dst src).1.getD dst).toNat = dst.toNat / 4 * 4 + max (dst.toNat % 4) (src.toNat % 4) := by
  have hlow : ∀ x : BitVec 16, (x &&& 3#16).toNat = x.toNat % 4 := by
    intro x; rw [BitVec.toNat_and]; exact Nat.and_two_pow_sub_one_eq_mod x.toNat 2
  have hc : (dst &&& 3#16 < src &&& 3#16) ↔ dst.toNat % 4 < src.toNat % 4 := by rw [BitVec.lt_def, hlow, hlow]
  unfold arpl
  by_cases h : dst &&& 3#16 < src &&& 3#16
  · rw [if_pos h]
    refine ⟨by simp [hc.1 h], by simp, ?_⟩
    show ((dst &&& ~~~3#16) ||| (src &&& 3#16)).toNat = _
    have e : (dst &&& ~~~3#16) ||| (src &&& 3#16) = (dst &&& ~~~3#16) + (src &&& 3#16) := by
      rw [BitVec.add_eq_or_of_and_eq_zero]
      bits16
    have e2 : (dst &&& ~~~3#16).toNat = dst.toNat / 4 * 4 := by
      have : dst &&& ~~~3#16 = selErr dst := rfl
      rw [this, selErr_eq]
      unfold errOf
      rw [BitVec.toNat_ofNat]
      have := dst.isLt
      omega
    rw [e, BitVec.toNat_add, e2, hlow]
    have := hc.1 h
    have := dst.isLt
    omega
  · rw [if_neg h]
    have h' : ¬ dst.toNat % 4 < src.toNat % 4 := fun x => h (hc.2 x)
    refine ⟨by simp; omega, by simp, ?_⟩
    show dst.toNat = _
    omega

theorem bind_wr {β : Type} (acc : Acc) (a : BitVec 32) (k p v : Nat) (f : Unit → M β) (s : Cpu) :
    (wr acc a k p v >>= f) s = if acc s a k true p = true then f () { s with mem := store s.mem a k v } else .stop .fault s := by
  simp only [bind, wr]
  cases acc s a k true p <;> rfl

theorem load_store_far (m : Mem) (a b : BitVec 32) (k v j : Nat) (h : ∀ i, i < j → k ≤ (b + BitVec.ofNat 32 i - a).toNat) :
    load (store m a k v) b j = load m b j := by
  apply load_congr
  intro i hi
  exact store_other m a k v _ (h i hi)

/-- C79: SGDT and SIDT store the 16 bit limit and the base of their register at the operand, and change nothing else; a program above
level 0 gets #GP instead if CR4.UMIP is set. -/
theorem C79_sgdt (acc : Acc) (s s' : Cpu) (idt : Bool) (a : BitVec 32) (h : AgreeCore s.r) :
    (level s.r ≠ 0#2 ∧ s.r.cr4[11] = true → sgdt acc idt a s = .stop (.exc 13 0#16) s) ∧
    (sgdt acc idt a s = .ok () s' → s'.r = s.r ∧
      load s'.mem a 2 = (if idt then s.r.idtLimit else s.r.gdtLimit).toNat % 65536 ∧
      load s'.mem (a + 2#32) 4 = (if idt then s.r.idtBase else s.r.gdtBase).toNat ∧
      ∀ x, 6 ≤ (x - a).toNat → s'.mem x = s.mem x) := by
  have hu : umip s.r = true ↔ level s.r ≠ 0#2 ∧ s.r.cr4[11] = true := by
    unfold umip
    rw [cpl_zero h]
    have := and_ne_zero_bit s.r.cr4 0x800#32 11 (by omega) rfl
    rw [Bool.and_eq_true, bne_iff_ne, this, decide_eq_true_eq]
  unfold sgdt
  rw [bind_getR, bind_check]
  refine ⟨fun x => by rw [if_pos (hu.2 x)], fun hr => ?_⟩
  generalize (if idt = true then s.r.idtLimit else s.r.gdtLimit) = lim at hr ⊢
  generalize (if idt = true then s.r.idtBase else s.r.gdtBase) = base at hr ⊢
  split at hr
  · cases hr
  rw [bind_wr] at hr
  split at hr
  case isFalse => cases hr
  unfold wr at hr
  split at hr
  case isFalse => cases hr
  cases hr
  refine ⟨rfl, ?_, ?_, ?_⟩
  · show load (store _ (a + 2#32) 4 _) a 2 = _
    rw [load_store_far, load_store _ _ _ _ _ (by omega) (by omega)]
    intro i hi
    have : a + BitVec.ofNat 32 i - (a + 2#32) = BitVec.ofNat 32 i - 2#32 := by grind
    rw [this]
    have : i = 0 ∨ i = 1 := by omega
    rcases this with rfl | rfl <;> decide
  · show load (store _ (a + 2#32) 4 _) (a + 2#32) 4 = _
    rw [load_store _ _ _ _ _ (by omega) (by omega)]
    exact Nat.mod_eq_of_lt base.isLt
  · intro x hx
    show store (store s.mem a 2 _) (a + 2#32) 4 _ x = _
    rw [store_other, store_other]
    · omega
    · have e : x - (a + 2#32) = (x - a) - 2#32 := by grind
      rw [e, BitVec.toNat_sub]
      have := (x - a).isLt
      show 4 ≤ (2 ^ 32 - 2 + (x - a).toNat) % 2 ^ 32
      omega

theorem lgdt_base (w b : Nat) (hw : w = 2 ∨ w = 4) :
    (if w = 2 then BitVec.ofNat 32 b &&& 0xFFFFFF#32 else BitVec.ofNat 32 b : BitVec 32).toNat = b % (if w = 2 then 2 ^ 24 else 2 ^ 32) := by
  rcases hw with rfl | rfl
  · rw [if_pos rfl, if_pos rfl, BitVec.toNat_and, BitVec.toNat_ofNat]
    rw [show (0xFFFFFF#32 : BitVec 32).toNat = 2 ^ 24 - 1 from rfl, Nat.and_two_pow_sub_one_eq_mod]
    omega
  · simp only [show ¬ (4 : Nat) = 2 by decide, if_false]
    rw [BitVec.toNat_ofNat]

theorem lgdtSet_spec (s : Cpu) (idt : Bool) (B L : BitVec 32) :
    ∃ s', modR (lgdtSet idt B L) s = .ok () s' ∧ s'.mem = s.mem ∧
      (if idt then s'.r.idtLimit else s'.r.gdtLimit) = L ∧ (if idt then s'.r.idtBase else s'.r.gdtBase) = B ∧
      (if idt then { s'.r with idtBase := s.r.idtBase, idtLimit := s.r.idtLimit }
        else { s'.r with gdtBase := s.r.gdtBase, gdtLimit := s.r.gdtLimit }) = s.r := by
  cases idt with
  | true => exact ⟨⟨lgdtSet true B L s.r, s.mem⟩, rfl, rfl, rfl, rfl, rfl⟩
  | false => exact ⟨⟨lgdtSet false B L s.r, s.mem⟩, rfl, rfl, rfl, rfl, rfl⟩

/-- C79: LGDT and LIDT are refused above level 0; otherwise they load limit and base (24 bits of it with 16 bit operands) from the operand
and change nothing else, or page fault and change nothing. -/
theorem C79_lgdt (acc : Acc) (s : Cpu) (idt : Bool) (w : Nat) (hw : w = 2 ∨ w = 4) (a : BitVec 32) (h : AgreeCore s.r) :
    (level s.r ≠ 0#2 → lgdt acc idt w a s = .stop (.exc 13 0#16) s) ∧
    (level s.r = 0#2 → lgdt acc idt w a s = .stop .fault s ∨ ∃ s', lgdt acc idt w a s = .ok () s' ∧ s'.mem = s.mem ∧
      (if idt then s'.r.idtLimit else s'.r.gdtLimit).toNat = load s.mem a 2 ∧
      (if idt then s'.r.idtBase else s'.r.gdtBase).toNat = load s.mem (a + 2#32) 4 % (if w = 2 then 2 ^ 24 else 2 ^ 32) ∧
      (if idt then { s'.r with idtBase := s.r.idtBase, idtLimit := s.r.idtLimit }
        else { s'.r with gdtBase := s.r.gdtBase, gdtLimit := s.r.gdtLimit }) = s.r) := by
  unfold lgdt
  rw [bind_getR, bind_check, cpl_zero h]
  refine ⟨fun x => by rw [if_pos (decide_eq_true x)], fun x => ?_⟩
  rw [if_neg (show ¬ decide (level s.r ≠ 0#2) = true by simpa using x), bind_rd]
  by_cases h1 : acc s a 2 false 0 = true
  case neg => rw [if_neg h1]; exact Or.inl rfl
  rw [if_pos h1, bind_rd]
  by_cases h2 : acc s (a + 2#32) 4 false 0 = true
  case neg => rw [if_neg h2]; exact Or.inl rfl
  rw [if_pos h2]
  refine Or.inr ?_
  have l1 := load_lt s.mem a 2
  revert l1
  generalize load s.mem a 2 = lim
  generalize load s.mem (a + 2#32) 4 = b
  intro l1
  have hl : (BitVec.ofNat 32 lim).toNat = lim := by rw [BitVec.toNat_ofNat]; omega
  obtain ⟨s', e, m, q1, q2, q3⟩ := lgdtSet_spec s idt
    (if w = 2 then BitVec.ofNat 32 b &&& 0xFFFFFF#32 else BitVec.ofNat 32 b) (BitVec.ofNat 32 lim)
  refine ⟨s', e, m, ?_, ?_, q3⟩
  · rw [q1, hl]
  · rw [q2, lgdt_base w b hw]

/-- C79: LGDT (with 32 bit operands) of what SGDT stored restores the register, and likewise LIDT and SIDT. -/
theorem C79_sgdt_lgdt (acc : Acc) (s s1 s2 : Cpu) (idt : Bool) (a : BitVec 32) (h : AgreeCore s.r)
    (hl : (if idt then s.r.idtLimit else s.r.gdtLimit).toNat < 65536)
    (h1 : sgdt acc idt a s = .ok () s1) (h2 : lgdt acc idt 4 a s1 = .ok () s2) : s2.r = s.r := by
  obtain ⟨r1, l1, b1, -⟩ := (C79_sgdt acc s s1 idt a h).2 h1
  have hlv : level s1.r = 0#2 := by
    by_cases hx : level s1.r = 0#2
    · exact hx
    · have := (C79_lgdt acc s1 idt 4 (Or.inr rfl) a (r1 ▸ h)).1 hx
      rw [this] at h2; cases h2
  rcases (C79_lgdt acc s1 idt 4 (Or.inr rfl) a (r1 ▸ h)).2 hlv with hx | ⟨s', e, -, hlim, hbase, hrest⟩
  · rw [hx] at h2; cases h2
  rw [h2] at e
  cases e
  rw [l1, Nat.mod_eq_of_lt hl] at hlim
  rw [b1] at hbase
  simp only [show ¬ (4 : Nat) = 2 by decide, if_false] at hbase
  rw [Nat.mod_eq_of_lt (BitVec.isLt _)] at hbase
  rw [r1] at hrest
  obtain ⟨r2, m2⟩ := s2
  obtain ⟨r, m⟩ := s
  cases idt with
  | true =>
    have e1 := BitVec.eq_of_toNat_eq hlim
    have e2 := BitVec.eq_of_toNat_eq hbase
    simp only [if_true] at e1 e2 hrest
    rw [← hrest]
    simp only at e1 e2 ⊢
    rw [← e1, ← e2]
  | false =>
    have e1 := BitVec.eq_of_toNat_eq hlim
    have e2 := BitVec.eq_of_toNat_eq hbase
    simp only [Bool.false_eq_true, if_false] at e1 e2 hrest
    rw [← hrest]
    simp only at e1 e2 ⊢
    rw [← e1, ← e2]

/-- C79: STR after a successful LTR gives the selector. -/
theorem C79_str (acc : Acc) (s s' : Cpu) (sel : BitVec 16) (hr : instr acc (.ltr sel) s = .ok () s') :
    sldtReg true s' = .ok (sel.setWidth 32) s' := by
  rw [ltr_eq, bind_getR, bind_check] at hr
  split at hr
  · cases hr
  rename_i hv
  rw [bind_check] at hr
  split at hr
  · cases hr
  rename_i hc
  rw [bind_check] at hr
  split at hr
  · cases hr
  rw [bind_readDescT] at hr
  split at hr
  · cases hr
  split at hr
  · cases hr
  split at hr
  case isFalse => cases hr
  generalize descAt s sel = d at hr
  dsimp only at hr
  rw [ltrTail_run] at hr
  split at hr
  · cases hr
  split at hr
  · cases hr
  split at hr
  case isFalse => cases hr
  cases hr
  have hu : umip s.r = false := by
    unfold umip
    rw [Bool.not_eq_true] at hc
    rw [hc]; rfl
  rw [Bool.not_eq_true] at hv
  have e1 : ∀ (c : Cpu), (c.r.eflags &&& 0x20000#32 != 0#32) = false → umip c.r = false → sldtReg true c = .ok (c.r.tr.sel.setWidth 32) c := by
    intro c q1 q2
    unfold sldtReg
    rw [bind_getR, bind_check, q1, bind_check, q2]
    rfl
  exact e1 _ hv hu

namespace SysP
open SegP EventP
/-- A kernel with an available TSS at 0x28 and an LDT at 0x30 in its GDT; the LDT (base 0x4000) has an LDT descriptor at index 1. -/
def sysMem : Guest.Mem := fun a =>
  if a = 0x2028#32 then 0x67#8 else if a = 0x202B#32 then 0x30#8 else if a = 0x202D#32 then 0x89#8
  else if a = 0x2030#32 then 0x1F#8 else if a = 0x2033#32 then 0x40#8 else if a = 0x2035#32 then 0x82#8
  else if a = 0x4008#32 then 0x1F#8 else if a = 0x400B#32 then 0x50#8 else if a = 0x400D#32 then 0x82#8 else EventP.mem a
def sysK : Cpu := ⟨{ kprog.r with ldtr := ⟨0x30#16, 0x4000#32, 0x1F#32, 0x8200#32⟩ }, sysMem⟩
end SysP
open SysP SegP EventP

example : AgreeCore sysK.r ∧ mode sysK.r = .prot ∧ ltrFault sysK 0x28#16 = none ∧ lldtFault sysK 0x30#16 = none ∧
    ltrFault sysK 0x30#16 = some (13, 0x30#16) ∧ lldtFault sysK 0x0F#16 = some (13, 0x0C#16) ∧ TableFits sysK.r 0x28#16 := by
  refine ⟨?_, by decide, by decide +kernel, by decide +kernel, by decide +kernel, by decide +kernel, ?_⟩
  · constructor <;> decide
  · unfold TableFits; decide
example : completed (instr allOk (.ltr 0x28#16) sysK) = true ∧ (endState (instr allOk (.ltr 0x28#16) sysK)).r.tr.base = 0x3000#32 ∧
    kindOf (descAt (endState (instr allOk (.ltr 0x28#16) sysK)) 0x28#16) = 11#5 := by decide +kernel
example : Names prog 0x1B#16 ∧ Names prog 0x10#16 := by
  unfold Names nullSel InTable; decide +kernel
example : verx allOk true 0x1B#16 prog = .ok true prog ∧ verx allOk false 0x23#16 prog = .ok false prog ∧
    verx allOk true 0x10#16 prog = .ok false prog := by
  refine ⟨?_, ?_, ?_⟩ <;> rfl
example : arpl 0x18#16 0x1B#16 = (some 0x1B#16, true) ∧ arpl 0x1B#16 0x10#16 = (none, false) := by decide
example : completed (sgdt allOk false 0x5000#32 sysK) = true ∧
    completed (lgdt allOk false 4 0x5000#32 (endState (sgdt allOk false 0x5000#32 sysK))) = true := by decide +kernel

/-- LLDT accepts a selector with the table bit set: it finds the LDT descriptor inside the current LDT. -/
theorem C79_lldt_ti_violation : lldtFault sysK 0xC#16 = some (13, 0xC#16) ∧ completed (instr allOk (.lldt 0xC#16) sysK) = true ∧
    (endState (instr allOk (.lldt 0xC#16) sysK)).r.ldtr.base = 0x5000#32 := by decide +kernel

/-- In real mode LTR is executed instead of being undefined. -/
theorem C79_real_violation : let s : Cpu := ⟨{ ModeP.reset with gdtBase := 0x2000#32, gdtLimit := 0x3F#32 }, sysMem⟩
    mode s.r = .real ∧ ltrFault s 0x28#16 = some (6, 0#16) ∧ completed (instr allOk (.ltr 0x28#16) s) = true := by decide +kernel

/-- C79: at level 0, or without CR4.UMIP, SGDT and SIDT complete exactly if the program itself may write the six bytes of the operand (the limit, then,
with the limit stored, the base), and page fault otherwise; they raise no other exception. -/
theorem C79_sgdt_access (acc : Acc) (s : Cpu) (idt : Bool) (a : BitVec 32) (h : AgreeCore s.r) (hu : level s.r = 0#2 ∨ s.r.cr4[11] = false) :
    let own : Nat := 0
    let mid : Cpu := { s with mem := store s.mem a 2 (if idt then s.r.idtLimit else s.r.gdtLimit).toNat }
    ((acc s a 2 true own = true ∧ acc mid (a + 2#32) 4 true own = true) ↔ ∃ s', sgdt acc idt a s = .ok () s') ∧
    ((∀ s', sgdt acc idt a s ≠ .ok () s') → ∃ s', sgdt acc idt a s = .stop .fault s' ∧ s'.r = s.r) := by
  intro own mid
  have hn : umip s.r = false := by
    unfold umip
    rw [cpl_zero h]
    have := and_ne_zero_bit s.r.cr4 0x800#32 11 (by omega) rfl
    rw [Bool.and_eq_false_iff]
    rcases hu with x | x
    · exact Or.inl (by simpa using x)
    · refine Or.inr ?_
      rw [bne_eq_false_iff_eq]
      refine Decidable.byContradiction fun y => ?_
      rw [this.1 y] at x; cases x
  unfold sgdt
  rw [bind_getR, bind_check, if_neg (by rw [hn]; decide), bind_wr]
  by_cases h1 : acc s a 2 true 0 = true
  case neg =>
    rw [if_neg h1]
    exact ⟨⟨fun x => absurd x.1 h1, fun ⟨_, x⟩ => by cases x⟩, fun _ => ⟨s, rfl, rfl⟩⟩
  rw [if_pos h1]
  unfold wr
  change (_ ∧ acc mid (a + 2#32) 4 true 0 = true ↔ ∃ s', (if acc mid (a + 2#32) 4 true 0 = true then _ else Res.stop Stop.fault mid) = _) ∧
    ((∀ s', (if acc mid (a + 2#32) 4 true 0 = true then _ else Res.stop Stop.fault mid) ≠ _) →
      ∃ s', (if acc mid (a + 2#32) 4 true 0 = true then _ else Res.stop Stop.fault mid) = _ ∧ _)
  by_cases h2 : acc mid (a + 2#32) 4 true 0 = true
  · rw [if_pos h2]
    exact ⟨⟨fun _ => ⟨_, rfl⟩, fun _ => ⟨h1, h2⟩⟩, fun x => absurd rfl (x _)⟩
  · rw [if_neg h2]
    exact ⟨⟨fun x => absurd x.2 h2, fun ⟨_, x⟩ => by cases x⟩, fun _ => ⟨mid, rfl, rfl⟩⟩

/-- C79: SLDT and STR to a register are undefined (#UD) in virtual-8086 mode; elsewhere a program above level 0 gets #GP if CR4.UMIP is set,
and otherwise they give the selector and change nothing. -/
theorem C79_sldt (s : Cpu) (tr : Bool) (h : AgreeCore s.r) :
    (s.r.eflags[17] = true → sldtReg tr s = .stop (.exc 6 0#16) s) ∧
    (s.r.eflags[17] = false → level s.r ≠ 0#2 → s.r.cr4[11] = true → sldtReg tr s = .stop (.exc 13 0#16) s) ∧
    (s.r.eflags[17] = false → (level s.r = 0#2 ∨ s.r.cr4[11] = false) →
      sldtReg tr s = .ok ((if tr then s.r.tr.sel else s.r.ldtr.sel).setWidth 32) s) := by
  have hv : (s.r.eflags &&& 0x20000#32 != 0#32) = s.r.eflags[17] := by
    have := and_ne_zero_bit s.r.eflags 0x20000#32 17 (by omega) rfl
    rw [Bool.eq_iff_iff, bne_iff_ne, this]
  have hu : umip s.r = true ↔ level s.r ≠ 0#2 ∧ s.r.cr4[11] = true := by
    unfold umip
    rw [cpl_zero h]
    have := and_ne_zero_bit s.r.cr4 0x800#32 11 (by omega) rfl
    rw [Bool.and_eq_true, bne_iff_ne, this, decide_eq_true_eq]
  unfold sldtReg
  rw [bind_getR, bind_check, hv]
  refine ⟨fun x => by rw [if_pos x], fun x l u => ?_, fun x l => ?_⟩
  · rw [if_neg (by rw [x]; decide), bind_check, if_pos (hu.2 ⟨l, u⟩)]
  · rw [if_neg (by rw [x]; decide), bind_check, if_neg]
    · rfl
    · rw [hu]
      rintro ⟨l1, l2⟩
      rcases l with y | y
      · exact l1 y
      · rw [y] at l2; cases l2

/-- Hypotheses met: STR in a task of virtual-8086 mode, at level 3 with CR4.UMIP, and in the kernel. -/
example : sldtReg true { sysK with r := { sysK.r with eflags := 0x20002#32 } } = .stop (.exc 6 0#16) { sysK with r := { sysK.r with eflags := 0x20002#32 } } ∧
    sldtReg false sysK = .ok 0x30#32 sysK := by
  refine ⟨?_, ?_⟩ <;> rfl

end Verif.Seg
