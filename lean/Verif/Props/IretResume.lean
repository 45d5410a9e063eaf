import Verif.Props.IntRet
import Verif.Props.FarRet
/-
C73 continued: IRET undoes the delivery of an event.
-/
namespace Verif.Seg
open Guest (load store)
open Spec (Returnable ReturnableStack HandlerDone Resumed FaultOr gateAt stackAddr stackItem flagsWord FlagsWf iopl mode level stack32 AgreeCore)

theorem pop_item (acc : Acc) (s : Cpu) (h : AgreeCore s.r) (n : Nat) (sp : BitVec 32)
    (hsp : sp &&& stackMask (stack32 s.r) = (s.r.esp + BitVec.ofNat 32 (4 * n)) &&& stackMask (stack32 s.r)) :
    ∃ sp' : BitVec 32, sp' &&& stackMask (stack32 s.r) = (s.r.esp + BitVec.ofNat 32 (4 * (n + 1))) &&& stackMask (stack32 s.r) ∧
      ∀ {β : Type} (f : BitVec 32 × BitVec 32 → M β), (popV acc 4 sp >>= f) s =
        if acc s (stackAddr s.r 4 n) 4 false 0 = true then f (BitVec.ofNat 32 (stackItem s 4 n), sp') s else .stop .fault s := by
  refine ⟨(sp &&& stackMask (stack32 s.r)) + 4#32, ?_, fun f => ?_⟩
  · rw [hsp]; exact pop_next _ _ _
  · rw [bind_popV4 acc sp f s h, hsp, ← stackAddr_eq]; rfl

theorem faultOr_acc {Q : Cpu → Prop} {c : Prop} [Decidable c] {x : Res Unit} {s : Cpu} (h : Spec.FaultOr Q x) :
    Spec.FaultOr Q (if c then x else .stop .fault s) := by
  split
  · exact h
  · trivial

theorem faultOr_setAccessed {Q : Cpu → Prop} {acc : Acc} {d : BitVec 64} {a : BitVec 32} {f : Unit → M Unit} {s : Cpu}
    (h : ∀ m, Spec.FaultOr Q (f () ⟨s.r, m⟩)) : Spec.FaultOr Q ((setAccessed acc d a >>= f) s) := by
  cases hh : setAccessed acc d a s with
  | ok u s' =>
    rw [bind_of_ok hh]
    obtain ⟨r', m'⟩ := s'
    have := (setAccessed_ok hh).1
    simp only at this
    subst this
    exact h m'
  | stop e s' =>
    rw [bind_of_stop hh]
    obtain ⟨-, rfl⟩ := setAccessed_stop hh
    trivial

theorem bind_loadDesc {β : Type} (i : SR) (sel : BitVec 16) (d : BitVec 64) (f : Unit → M β) (s : Cpu) :
    (loadDesc i sel d >>= f) s = f () ⟨writeSeg i sel (descBase d) (descLimit d) (descFlags d) s.r, s.mem⟩ := rfl

/-- ESP and EIP after a return, on a stack with B bit `b`. -/
def retPoint (b : Bool) (sp eip : BitVec 32) (r : Regs) : Regs :=
  { r with esp := (r.esp &&& ~~~stackMask b) ||| (sp &&& stackMask b), eip := eip }

/-- The return to the same level. -/
def retSame (acc : Acc) (eip sp v em : BitVec 32) (cs : BitVec 16) (a : BitVec 32) (d : BitVec 64) : M Unit := do
  setAccessed acc d a
  modR fun r => retPoint (r.hflags &&& H_SS32 != 0#32) sp eip r
  loadDesc .cs cs d
  modR (writeEflags v em)

/-- The end of a return to an outer level. -/
def retLoad (acc : Acc) (eip nesp v em : BitVec 32) (ss cs : BitVec 16) (a sa : BitVec 32) (d sd : BitVec 64) : M Unit := do
  setAccessed acc sd sa
  setAccessed acc d a
  loadDesc .ss ss sd
  loadDesc .cs cs d
  modR fun r => validateAll (retPoint (r.ss.flags &&& HID_DB != 0#32) nesp eip r)
  modR (writeEflags v em)

/-- The return to an outer level. -/
def retOuter (acc : Acc) (eip sp v em : BitVec 32) (cs : BitVec 16) (a : BitVec 32) (d : BitVec 64) : M Unit :=
  popV acc 4 sp >>= fun p => popV acc 4 p.2 >>= fun q => checkSs acc (q.1.setWidth 16) (some (rpl cs)) >>= fun t =>
    retLoad acc eip p.1 v em (q.1.setWidth 16) cs a t.1 d t.2

def retTail (acc : Acc) (eip sp v em : BitVec 32) (cs : BitVec 16) (a : BitVec 32) (d : BitVec 64) : M Unit := do
  let r ← getR
  check (!(dS d && dCode d)) (.exc GP (selErr cs))
  check (decide (rpl cs < cpl r)) (.exc GP (selErr cs))
  check (dConf d && decide (rpl cs < dDpl d)) (.exc GP (selErr cs))
  check (!dP d) (.exc NP (selErr cs))
  if cpl r < rpl cs then retOuter acc eip sp v em cs a d else retSame acc eip sp v em cs a d

theorem retPe_eq (acc : Acc) (eip sp v em : BitVec 32) (cs : BitVec 16) :
    retPe acc 4 eip cs sp (some (v, em)) =
      (check (isNull cs) (.exc GP 0#16) >>= fun _ => readDesc acc false cs >>= fun p => retTail acc eip sp v em cs p.1 p.2) := rfl

theorem retTail_run (acc : Acc) (eip sp v em : BitVec 32) (cs : BitVec 16) (a : BitVec 32) (d : BitVec 64) (s : Cpu)
    (hsc : (!(dS d && dCode d)) = false) (hle : decide (rpl cs < cpl s.r) = false) (hc : (dConf d && decide (rpl cs < dDpl d)) = false)
    (hpp : (!dP d) = false) : retTail acc eip sp v em cs a d s =
      (if cpl s.r < rpl cs then retOuter acc eip sp v em cs a d else retSame acc eip sp v em cs a d) s := by
  rw [retTail.eq_1, bind_getR, hsc, hle, hc, hpp]
  simp only [bind_check, Bool.false_eq_true, if_false]

theorem retSame_run {Q : Cpu → Prop} (acc : Acc) (eip sp v em : BitVec 32) (cs : BitVec 16) (a : BitVec 32) (d : BitVec 64) (s : Cpu)
    (h : ∀ m, Q ⟨writeEflags v em (writeSeg .cs cs (descBase d) (descLimit d) (descFlags d)
        (retPoint (s.r.hflags &&& H_SS32 != 0#32) sp eip s.r)), m⟩) :
    Spec.FaultOr Q (retSame acc eip sp v em cs a d s) := by
  rw [retSame.eq_1]
  exact faultOr_setAccessed h

theorem faultOr_ok {Q : Cpu → Prop} {s : Cpu} (h : Q s) : FaultOr Q (.ok () s) := h

theorem retLoad_run {Q : Cpu → Prop} (acc : Acc) (eip nesp v em : BitVec 32) (ss cs : BitVec 16) (a sa : BitVec 32) (d sd : BitVec 64) (s : Cpu)
    (h : ∀ m, Q ⟨writeEflags v em (validateAll (retPoint (descFlags sd &&& HID_DB != 0#32) nesp eip
        (writeSeg .cs cs (descBase d) (descLimit d) (descFlags d)
          (writeSeg .ss ss (descBase sd) (descLimit sd) (descFlags sd) s.r)))), m⟩) :
    Spec.FaultOr Q (retLoad acc eip nesp v em ss cs a sa d sd s) := by
  rw [retLoad.eq_1]
  apply faultOr_setAccessed
  intro m
  apply faultOr_setAccessed
  intro m
  rw [bind_loadDesc, bind_loadDesc]
  exact h m

theorem retSs_run {Q : Cpu → Prop} (acc : Acc) (eip nesp v em : BitVec 32) (ss cs : BitVec 16) (a : BitVec 32) (d sd : BitVec 64) (s : Cpu)
    (hs : ReturnableStack s ss (Spec.rpl cs)) (hsd : Spec.descAt s ss = sd)
    (h : ∀ m, Q ⟨writeEflags v em (validateAll (retPoint (descFlags sd &&& HID_DB != 0#32) nesp eip
        (writeSeg .cs cs (descBase d) (descLimit d) (descFlags d)
          (writeSeg .ss ss (descBase sd) (descLimit sd) (descFlags sd) s.r)))), m⟩) :
    Spec.FaultOr Q ((checkSs acc ss (some (rpl cs)) >>= fun t => retLoad acc eip nesp v em ss cs a t.1 d t.2) s) := by
  have hck := checkSs_eq acc ss (Spec.rpl cs) s hsd (some (rpl cs)) (by rw [Option.getD_some, rpl_eq])
  have hseg := hs.seg
  have hpr := hs.present
  rw [hsd] at hseg hpr
  rw [if_neg hs.notNull, if_neg (by rw [outside_iff _ _ hs.fits]; exact fun hn => hn hs.inTable)] at hck
  by_cases hacc : acc s (Spec.descAddr s.r ss) 8 false 2 = true
  · rw [if_pos hacc, if_pos hseg, if_pos hpr] at hck
    rw [bind_of_ok hck]
    exact retLoad_run acc eip _ v em ss cs a _ d sd s h
  · rw [if_neg hacc] at hck
    rw [bind_of_stop hck]
    trivial

theorem retOuter_run {Q : Cpu → Prop} (acc : Acc) (eip sp v em : BitVec 32) (cs : BitVec 16) (a : BitVec 32) (d sd : BitVec 64) (s : Cpu)
    (n : Nat) (hsp : sp &&& stackMask (stack32 s.r) = (s.r.esp + BitVec.ofNat 32 (4 * n)) &&& stackMask (stack32 s.r))
    (ha : AgreeCore s.r) (ss : BitVec 16) (nesp ssv : BitVec 32) (hn : BitVec.ofNat 32 (stackItem s 4 n) = nesp)
    (hv : BitVec.ofNat 32 (stackItem s 4 (n + 1)) = ssv) (hss : ssv.setWidth 16 = ss)
    (hs : ReturnableStack s ss (Spec.rpl cs)) (hsd : Spec.descAt s ss = sd)
    (h : ∀ m, Q ⟨writeEflags v em (validateAll (retPoint (descFlags sd &&& HID_DB != 0#32) nesp eip
        (writeSeg .cs cs (descBase d) (descLimit d) (descFlags d)
          (writeSeg .ss ss (descBase sd) (descLimit sd) (descFlags sd) s.r)))), m⟩) :
    Spec.FaultOr Q (retOuter acc eip sp v em cs a d s) := by
  obtain ⟨sp1, hsp1, hp1⟩ := pop_item acc s ha n sp hsp
  obtain ⟨sp2, -, hp2⟩ := pop_item acc s ha (n + 1) sp1 hsp1
  rw [hn] at hp1
  rw [hv] at hp2
  have := retSs_run acc eip nesp v em ss cs a d sd s hs hsd h
  rw [retOuter.eq_1, hp1]
  apply faultOr_acc
  rw [hp2, hss]
  apply faultOr_acc
  exact this

theorem ret_hyps {s : Cpu} {cs : BitVec 16} {d : BitVec 64} (hd : Spec.descAt s cs = d) (hr : Returnable s cs) :
    (!(dS d && dCode d)) = false ∧ (dConf d && decide (rpl cs < dDpl d)) = false ∧ (!dP d) = false := by
  refine ⟨?_, ?_, ?_⟩
  · rw [dS_eq, dCode_eq, ← hd, hr.seg, hr.code]; rfl
  · have := hr.level
    rw [hd] at this
    rw [dDpl_eq, dConf_eq, rpl_eq, Bool.and_eq_false_iff, decide_eq_false_iff_not, lt2]
    cases hcf : Spec.conforming d
    · exact .inl rfl
    · exact .inr (by rw [BitVec.not_lt]; exact this hcf)
  · rw [dP_eq, ← hd, hr.present]; rfl

theorem retPe_run {Q : Cpu → Prop} (acc : Acc) (eip sp v em : BitVec 32) (cs : BitVec 16) (s : Cpu) (d : BitVec 64)
    (hd : Spec.descAt s cs = d) (hr : Returnable s cs) (hle : ¬ rpl cs < cpl s.r)
    (h : ∀ a, Spec.FaultOr Q ((if cpl s.r < rpl cs then retOuter acc eip sp v em cs a d else retSame acc eip sp v em cs a d) s)) :
    Spec.FaultOr Q (retPe acc 4 eip cs sp (some (v, em)) s) := by
  obtain ⟨h1, h2, h3⟩ := ret_hyps hd hr
  rw [retPe_eq, bind_check, if_neg (by rw [isNull_iff]; exact hr.notNull), bind_readDesc, hd,
    if_neg (by rw [outside_iff _ _ hr.fits]; exact fun hn => hn hr.inTable)]
  apply faultOr_acc
  rw [retTail_run acc eip sp v em cs _ d s h1 (decide_eq_false hle) h2 h3]
  exact h _

/-- What IRET does after popping the return address: to the same level. -/
theorem retPe_same {Q : Cpu → Prop} (acc : Acc) (eip sp v em : BitVec 32) (cs : BitVec 16) (s : Cpu) (d : BitVec 64)
    (hd : Spec.descAt s cs = d) (ha : AgreeCore s.r) (hr : Returnable s cs) (hl : Spec.rpl cs = level s.r)
    (h : ∀ m, Q ⟨writeEflags v em (writeSeg .cs cs (descBase d) (descLimit d) (descFlags d)
        (retPoint (stack32 s.r) sp eip s.r)), m⟩) :
    Spec.FaultOr Q (retPe acc 4 eip cs sp (some (v, em)) s) := by
  have hlv : cpl s.r = (level s.r).setWidth 64 := cpl_level ha
  have hrl : rpl cs = (level s.r).setWidth 64 := by rw [rpl_eq, hl]
  have hlt : ¬ cpl s.r < rpl cs := by rw [hlv, hrl]; exact BitVec.lt_irrefl _
  have hlt' : ¬ rpl cs < cpl s.r := by rw [hlv, hrl]; exact BitVec.lt_irrefl _
  apply retPe_run acc eip sp v em cs s d hd hr hlt'
  intro a
  rw [if_neg hlt]
  apply retSame_run
  rw [ss32_eq ha]
  exact h

/-- What IRET does after popping the return address: to an outer level. -/
theorem retPe_outer {Q : Cpu → Prop} (acc : Acc) (eip sp v em : BitVec 32) (cs : BitVec 16) (s : Cpu) (d sd : BitVec 64)
    (hd : Spec.descAt s cs = d) (n : Nat)
    (hsp : sp &&& stackMask (stack32 s.r) = (s.r.esp + BitVec.ofNat 32 (4 * n)) &&& stackMask (stack32 s.r))
    (ha : AgreeCore s.r) (hr : Returnable s cs) (hl : level s.r < Spec.rpl cs) (ss : BitVec 16)
    (nesp ssv : BitVec 32) (hn : BitVec.ofNat 32 (stackItem s 4 n) = nesp)
    (hv : BitVec.ofNat 32 (stackItem s 4 (n + 1)) = ssv) (hss : ssv.setWidth 16 = ss) (hs : ReturnableStack s ss (Spec.rpl cs)) (hsd : Spec.descAt s ss = sd)
    (h : ∀ m, Q ⟨writeEflags v em (validateAll (retPoint (descFlags sd &&& HID_DB != 0#32) nesp eip
        (writeSeg .cs cs (descBase d) (descLimit d) (descFlags d)
          (writeSeg .ss ss (descBase sd) (descLimit sd) (descFlags sd) s.r)))), m⟩) :
    Spec.FaultOr Q (retPe acc 4 eip cs sp (some (v, em)) s) := by
  have hlv : cpl s.r = (level s.r).setWidth 64 := cpl_level ha
  have hlt : cpl s.r < rpl cs := by rw [hlv, rpl_eq, lt2]; exact hl
  have hlt' : ¬ rpl cs < cpl s.r := by rw [BitVec.not_lt]; exact BitVec.le_of_lt hlt
  apply retPe_run acc eip sp v em cs s d hd hr hlt'
  intro a
  rw [if_pos hlt]
  exact retOuter_run acc eip sp v em cs a d sd s n hsp ha ss nesp ssv hn hv hss hs hsd h

theorem maskBits : ∀ (z o : Bool) (j : Fin 32),
    ((if o = true then (if z = true then 0x254500#32 ||| 0x1A3000#32 else 0x254500#32) ||| 0x200#32
      else if z = true then 0x254500#32 ||| 0x1A3000#32 else 0x254500#32) : BitVec 32)[j.val] =
      (decide (j.val = 8 ∨ j.val = 10 ∨ j.val = 14 ∨ j.val = 16 ∨ j.val = 18 ∨ j.val = 21) ||
        (z && decide (j.val = 12 ∨ j.val = 13 ∨ j.val = 17 ∨ j.val = 19 ∨ j.val = 20)) || (o && decide (j.val = 9))) := by
  decide +kernel

theorem iretMask_eq (r : Regs) : iretMask 4 r =
    if decide (r.hflags &&& H_CPL ≤ (r.eflags &&& 0x3000#32) >>> 12) = true then
      (if decide (r.hflags &&& H_CPL = 0#32) = true then 0x254500#32 ||| 0x1A3000#32 else 0x254500#32) ||| 0x200#32
    else if decide (r.hflags &&& H_CPL = 0#32) = true then 0x254500#32 ||| 0x1A3000#32 else 0x254500#32 := by
  unfold iretMask
  simp only [decide_eq_true_eq, show ¬ (4 : Nat) = 2 by decide, if_false]

theorem iretMask_bit (r : Regs) (i : Nat) (h : i < 32) : (iretMask 4 r)[i] =
      (decide (i = 8 ∨ i = 10 ∨ i = 14 ∨ i = 16 ∨ i = 18 ∨ i = 21) ||
        (decide (r.hflags &&& H_CPL = 0#32) && decide (i = 12 ∨ i = 13 ∨ i = 17 ∨ i = 19 ∨ i = 20)) ||
        (decide (r.hflags &&& H_CPL ≤ (r.eflags &&& 0x3000#32) >>> 12) && decide (i = 9))) := by
  simp only [iretMask_eq]
  exact maskBits _ _ ⟨i, h⟩

theorem hcpl_level {r : Regs} (h : AgreeCore r) : r.hflags &&& H_CPL = (level r).setWidth 32 := by
  rw [← h.level]
  show r.hflags &&& 3#32 = _
  bits32

theorem iopl_eq (e : BitVec 32) : (e &&& 0x3000#32) >>> 12 = (e.extractLsb' 12 2 : BitVec 2).setWidth 32 := by
  bits32

theorem le2_32 (x y : BitVec 2) : (x.setWidth 32 : BitVec 32) ≤ y.setWidth 32 ↔ x ≤ y := by
  rw [BitVec.le_def, BitVec.le_def, BitVec.toNat_setWidth, BitVec.toNat_setWidth]
  have := x.isLt
  have := y.isLt
  rw [Nat.mod_eq_of_lt (by omega), Nat.mod_eq_of_lt (by omega)]

theorem arithBits : ∀ j : Fin 32, (0x8D5#32 : BitVec 32)[j.val] =
    decide (j.val = 0 ∨ j.val = 2 ∨ j.val = 4 ∨ j.val = 6 ∨ j.val = 7 ∨ j.val = 11) := by decide
theorem oneBit : ∀ j : Fin 32, (2#32 : BitVec 32)[j.val] = decide (j.val = 1) := by decide

theorem wf_sys {r : Regs} (h : FlagsWf r) (i : Nat) (hi : i < 32)
    (hb : i = 0 ∨ i = 2 ∨ i = 4 ∨ i = 6 ∨ i = 7 ∨ i = 11) : r.eflags[i] = false := by
  have := congrArg (fun x : BitVec 32 => x[i]) h.sys
  simp only [BitVec.getElem_and, arithBits ⟨i, hi⟩, hb, decide_true, Bool.and_true, BitVec.getElem_zero] at this
  exact this

theorem wf_arith {r : Regs} (h : FlagsWf r) (i : Nat) (hi : i < 32)
    (hb : ¬ (i = 0 ∨ i = 2 ∨ i = 4 ∨ i = 6 ∨ i = 7 ∨ i = 11)) : r.arith[i] = false := by
  have := congrArg (fun x : BitVec 32 => x[i]) h.arith
  simp only [BitVec.getElem_and, BitVec.getElem_not, arithBits ⟨i, hi⟩, hb, decide_false, Bool.not_false, Bool.and_true, BitVec.getElem_zero] at this
  exact this

/-- The arithmetic flags come back. -/
theorem ret_arith {r : Regs} (h : FlagsWf r) : flagsWord r &&& 0x8D5#32 = r.arith := by
  apply BitVec.eq_of_getElem_eq
  intro i hi
  unfold flagsWord
  rw [BitVec.getElem_and, BitVec.getElem_or, arithBits ⟨i, hi⟩]
  by_cases hb : i = 0 ∨ i = 2 ∨ i = 4 ∨ i = 6 ∨ i = 7 ∨ i = 11
  · simp [wf_sys h i hi hb, hb]
  · simp [wf_arith h i hi hb, hb]

/-- The system flags come back. -/
theorem ret_flags {s s1 s2 : Cpu} {g : BitVec 64} {c : Nat} (hw : FlagsWf s.r) (hm : mode s.r = .prot) (he : Spec.Entered s s1 g)
    (hd : HandlerDone s1 s2 c) (hif : level s1.r ≤ iopl s.r ∨ s2.r.eflags[9] = s.r.eflags[9]) :
    ((s2.r.eflags &&& ~~~iretMask 4 s2.r) ||| (flagsWord s.r &&& iretMask 4 s2.r)) ||| 2#32 = s.r.eflags := by
  have hvm : s.r.eflags[17] = false := by
    unfold mode at hm
    split at hm
    · cases hm
    · split at hm
      · cases hm
      · rename_i h
        cases hh : s.r.eflags[17]
        · rfl
        · exact absurd hh h
  have keep : ∀ (i : Nat) (h : i < 32), i ≠ 8 → i ≠ 9 → i ≠ 10 → i ≠ 14 → i ≠ 16 → s2.r.eflags[i] = s.r.eflags[i] := by
    intro i hi h8 h9 h10 h14 h16
    rw [hd.flags i hi h8 h9 h10, he.flags i hi]
    by_cases h17 : i = 17
    · subst h17; simp [hvm]
    · simp [h8, h9, h14, h16, h17]
  have hio : iopl s2.r = iopl s.r := by
    unfold iopl
    apply BitVec.eq_of_getElem_eq
    intro i hi
    rw [BitVec.getElem_extractLsb', BitVec.getElem_extractLsb', BitVec.getLsbD_eq_getElem (by omega), BitVec.getLsbD_eq_getElem (by omega)]
    exact keep _ _ (by omega) (by omega) (by omega) (by omega) (by omega)
  apply BitVec.eq_of_getElem_eq
  intro i hi
  rw [BitVec.getElem_or, BitVec.getElem_or, BitVec.getElem_and, BitVec.getElem_and, BitVec.getElem_not, oneBit ⟨i, hi⟩]
  unfold flagsWord
  rw [BitVec.getElem_or]
  by_cases h1 : i = 1
  · subst h1; simp [hw.one]
  by_cases hb : i = 0 ∨ i = 2 ∨ i = 4 ∨ i = 6 ∨ i = 7 ∨ i = 11
  · have hm0 : (iretMask 4 s2.r)[i] = false := by
      rw [iretMask_bit]
      rcases hb with h | h | h | h | h | h <;> subst h <;> simp
    rw [hm0, keep i hi (by omega) (by omega) (by omega) (by omega) (by omega)]
    simp [h1]
  rw [wf_arith hw i hi hb]
  by_cases hs : i = 8 ∨ i = 10 ∨ i = 14 ∨ i = 16
  · have hm0 : (iretMask 4 s2.r)[i] = true := by
      rw [iretMask_bit]
      rcases hs with h | h | h | h <;> subst h <;> simp
    simp [hm0, h1]
  by_cases h9 : i = 9
  · subst h9
    by_cases hl : level s1.r ≤ iopl s.r
    · have hm0 : (iretMask 4 s2.r)[9] = true := by
        rw [iretMask_bit, hcpl_level hd.agree, iopl_eq]
        have : (level s2.r).setWidth 32 ≤ ((s2.r.eflags.extractLsb' 12 2 : BitVec 2).setWidth 32 : BitVec 32) := by
          rw [le2_32, hd.same_level]
          have h := hio
          unfold iopl at h
          rw [h]
          exact hl
        simp [this]
      simp [hm0]
    · have := hif.resolve_left hl
      rw [this]
      cases (iretMask 4 s2.r)[9] <;> cases s.r.eflags[9] <;> rfl
  · rw [keep i hi (by omega) h9 (by omega) (by omega) (by omega)]
    cases (iretMask 4 s2.r)[i] <;> cases s.r.eflags[i] <;> simp [h1]


/-- IRET in protected mode, after the check of NT. -/
def iretPops (acc : Acc) (r : Regs) : M Unit :=
  popV acc 4 r.esp >>= fun p => popV acc 4 p.2 >>= fun q => popV acc 4 q.2 >>= fun t =>
    if t.1 &&& 0x20000#32 ≠ 0#32 then iretToVm86 acc p.1 (q.1.setWidth 16) t.1 t.2
    else retPe acc 4 p.1 (q.1.setWidth 16) t.2 (some (t.1, iretMask 4 r))

theorem iretPe_eq (acc : Acc) : iretPe acc 4 = (getR >>= fun r =>
    if r.eflags &&& 0x20000#32 ≠ 0#32 then
      (if (r.eflags &&& 0x3000#32) >>> 12 = 3#32 then iretReal acc 4 else stop (.exc GP 0#16))
    else check (r.eflags &&& 0x4000#32 != 0#32) .abort >>= fun _ => iretPops acc r) := rfl

theorem iretPe_run {Q : Cpu → Prop} (acc : Acc) (s : Cpu) (hp : Prot false s.r) (ha : AgreeCore s.r) (hnt : s.r.eflags[14] = false)
    (eip csv e : BitVec 32) (h0 : BitVec.ofNat 32 (stackItem s 4 0) = eip) (h1 : BitVec.ofNat 32 (stackItem s 4 1) = csv)
    (h2 : BitVec.ofNat 32 (stackItem s 4 2) = e) (he : ¬ e &&& 0x20000#32 ≠ 0#32)
    (h : ∀ sp, sp &&& stackMask (stack32 s.r) = (s.r.esp + BitVec.ofNat 32 (4 * 3)) &&& stackMask (stack32 s.r) →
      FaultOr Q (retPe acc 4 eip (csv.setWidth 16) sp (some (e, iretMask 4 s.r)) s)) :
    FaultOr Q (instr acc (.iret 4) s) := by
  obtain ⟨sp1, hsp1, hp1⟩ := pop_item acc s ha 0 s.r.esp (by simp)
  obtain ⟨sp2, hsp2, hp2⟩ := pop_item acc s ha 1 sp1 hsp1
  obtain ⟨sp3, hsp3, hp3⟩ := pop_item acc s ha 2 sp2 hsp2
  rw [h0] at hp1
  rw [h1] at hp2
  rw [h2] at hp3
  have hpe : instr acc (.iret 4) s = iretPe acc 4 s := by
    show (if s.r.hflags &&& H_PE ≠ 0#32 then iretPe acc 4 else iretReal acc 4) s = _
    rw [if_pos (pe_on hp.pe)]
  have hvm : ¬ s.r.eflags &&& 0x20000#32 ≠ 0#32 := vm_off hp.2.2
  have hn : (s.r.eflags &&& 0x4000#32 != 0#32) = false := by
    have := and_ne_zero_bit s.r.eflags 0x4000#32 14 (by omega) rfl
    rw [hnt] at this
    simpa using this
  rw [hpe, iretPe_eq, bind_getR, if_neg hvm, bind_check, hn, if_neg (by simp), iretPops.eq_1, hp1]
  apply faultOr_acc
  rw [hp2]
  apply faultOr_acc
  rw [hp3]
  apply faultOr_acc
  simp only
  rw [if_neg he]
  exact h sp3 hsp3

theorem validateSeg_core (i : SR) (hi : isData i = true) (r : Regs) : (validateSeg i r).esp = r.esp ∧ (validateSeg i r).eip = r.eip ∧
    (validateSeg i r).eflags = r.eflags ∧ (validateSeg i r).cr0 = r.cr0 ∧ (validateSeg i r).ss = r.ss := by
  unfold validateSeg
  extract_lets
  split
  · cases i <;> first | (cases hi; done) | exact ⟨rfl, rfl, rfl, rfl, rfl⟩
  · exact ⟨rfl, rfl, rfl, rfl, rfl⟩

theorem validateAll_core (r : Regs) : (validateAll r).esp = r.esp ∧ (validateAll r).eip = r.eip ∧
    (validateAll r).eflags = r.eflags ∧ (validateAll r).cr0 = r.cr0 ∧ (validateAll r).ss = r.ss := by
  obtain ⟨a1, a2, a3, a4, a5⟩ := validateSeg_core .ds rfl r
  obtain ⟨b1, b2, b3, b4, b5⟩ := validateSeg_core .es rfl (validateSeg .ds r)
  obtain ⟨c1, c2, c3, c4, c5⟩ := validateSeg_core .fs rfl (validateSeg .es (validateSeg .ds r))
  obtain ⟨d1, d2, d3, d4, d5⟩ := validateSeg_core .gs rfl (validateSeg .fs (validateSeg .es (validateSeg .ds r)))
  unfold validateAll
  exact ⟨by rw [d1, c1, b1, a1], by rw [d2, c2, b2, a2], by rw [d3, c3, b3, a3], by rw [d4, c4, b4, a4], by rw [d5, c5, b5, a5]⟩

theorem append_nat {n m : Nat} (x : BitVec n) (y : BitVec m) : (x ++ y).toNat = x.toNat * 2 ^ m + y.toNat := by
  rw [BitVec.toNat_append, ← Nat.shiftLeft_add_eq_or_of_lt y.isLt, Nat.shiftLeft_eq]

theorem esp_high (e y : BitVec 32) :
    ((e &&& ~~~stackMask false) ||| (y &&& stackMask false)).extractLsb' 16 16 = e.extractLsb' 16 16 := by
  apply BitVec.eq_of_getLsbD_eq
  intro i hi
  have h1 : (stackMask false).getLsbD (16 + i) = false := by
    have : ∀ i : Fin 16, (0xFFFF#32).getLsbD (16 + i.val) = false := by decide
    exact this ⟨i, hi⟩
  have h2 : 16 + i < 32 := by omega
  simp only [BitVec.getLsbD_extractLsb', BitVec.getLsbD_or, BitVec.getLsbD_and, BitVec.getLsbD_not, hi, h1, h2]
  simp

theorem halves (x : BitVec 32) : x.extractLsb' 16 16 ++ (x.setWidth 16 : BitVec 16) = x := by
  apply BitVec.eq_of_getLsbD_eq
  intro i hi
  rw [BitVec.getLsbD_append]
  by_cases hl : i < 16
  · simp [hl]
  · simp only [hl, BitVec.getLsbD_extractLsb']
    have : i - 16 < 16 := by omega
    have h3 : 16 + (i - 16) = i := by omega
    simp [this, h3]

theorem esp_after (b : Bool) (e : BitVec 32) (sp n : BitVec 32) (h : sp &&& stackMask b = (e + n) &&& stackMask b) :
    (e &&& ~~~stackMask b) ||| (sp &&& stackMask b) =
      if b = true then e + n else e.extractLsb' 16 16 ++ ((e + n).setWidth 16 : BitVec 16) := by
  rw [h]
  cases b
  · rw [if_neg (by simp)]
    generalize e + n = y
    rw [← halves ((e &&& ~~~stackMask false) ||| (y &&& stackMask false)), esp_high, esp_low]
  · rw [if_pos rfl, esp_full]

theorem high_append (x : BitVec 32) (y : BitVec 16) : (x.extractLsb' 16 16 ++ y : BitVec 32).extractLsb' 16 16 = x.extractLsb' 16 16 := by
  apply BitVec.eq_of_toNat_eq
  rw [BitVec.extractLsb'_toNat, append_nat, Nat.shiftRight_eq_div_pow]
  have := y.isLt
  have := (x.extractLsb' 16 16).isLt
  omega

theorem espAfter_add {r1 r2 : Regs} (hb : stack32 r2 = stack32 r1) (c n : Nat) (he : r2.esp = Spec.espAfter r1 4 c) :
    Spec.espAfter r2 4 n = Spec.espAfter r1 4 (c + n) := by
  unfold Spec.espAfter at *
  rw [hb, he]
  have hadd : BitVec.ofNat 32 (4 * (c + n)) = BitVec.ofNat 32 (4 * c) + BitVec.ofNat 32 (4 * n) := by
    rw [Nat.mul_add, BitVec.ofNat_add]
  rw [hadd]
  generalize BitVec.ofNat 32 (4 * c) = x
  generalize BitVec.ofNat 32 (4 * n) = y
  by_cases h : stack32 r1 = true
  · simp only [h, if_true, BitVec.add_assoc]
  · simp only [h, if_false, Bool.false_eq_true]
    rw [high_append]
    congr 1
    apply BitVec.eq_of_toNat_eq
    rw [BitVec.toNat_setWidth, BitVec.toNat_setWidth, BitVec.toNat_add, append_nat, BitVec.toNat_setWidth,
      BitVec.toNat_add, BitVec.toNat_add, BitVec.toNat_add]
    omega


theorem item_val {n : Nat} {x : BitVec 32} (h : n = x.toNat % 256 ^ 4) : BitVec.ofNat 32 n = x := by
  rw [h]
  apply BitVec.eq_of_toNat_eq
  rw [BitVec.toNat_ofNat]
  have := x.isLt
  omega

theorem item_sel {n : Nat} {x : BitVec 16} (h : n = x.toNat) : ((BitVec.ofNat 32 n).setWidth 16 : BitVec 16) = x := by
  rw [h]
  apply BitVec.eq_of_toNat_eq
  rw [BitVec.toNat_setWidth, BitVec.toNat_ofNat]
  have := x.isLt
  omega

theorem wcs_core (sel : BitVec 16) (b l f : BitVec 32) (r : Regs) : (writeSeg .cs sel b l f r).eflags = r.eflags ∧
    (writeSeg .cs sel b l f r).cr0 = r.cr0 ∧ (writeSeg .cs sel b l f r).eip = r.eip ∧ (writeSeg .cs sel b l f r).esp = r.esp ∧
    (writeSeg .cs sel b l f r).ss = r.ss ∧ (writeSeg .cs sel b l f r).cs = ⟨sel, b, l, f⟩ := ⟨rfl, rfl, rfl, rfl, rfl, rfl⟩
theorem wss_core (sel : BitVec 16) (b l f : BitVec 32) (r : Regs) : (writeSeg .ss sel b l f r).eflags = r.eflags ∧
    (writeSeg .ss sel b l f r).cr0 = r.cr0 ∧ (writeSeg .ss sel b l f r).esp = r.esp ∧
    (writeSeg .ss sel b l f r).ss = ⟨sel, b, l, f⟩ := ⟨rfl, rfl, rfl, rfl⟩
theorem point_core (b : Bool) (sp eip : BitVec 32) (r : Regs) : (retPoint b sp eip r).eflags = r.eflags ∧
    (retPoint b sp eip r).cr0 = r.cr0 ∧ (retPoint b sp eip r).eip = eip ∧ (retPoint b sp eip r).ss = r.ss ∧
    (retPoint b sp eip r).cs = r.cs ∧ (retPoint b sp eip r).esp = (r.esp &&& ~~~stackMask b) ||| (sp &&& stackMask b) :=
  ⟨rfl, rfl, rfl, rfl, rfl, rfl⟩
theorem flags_core (v em : BitVec 32) (r : Regs) : (writeEflags v em r).cr0 = r.cr0 ∧
    (writeEflags v em r).eip = r.eip ∧ (writeEflags v em r).ss = r.ss ∧ (writeEflags v em r).cs = r.cs ∧ (writeEflags v em r).esp = r.esp ∧
    (writeEflags v em r).eflags = ((r.eflags &&& ~~~em) ||| (v &&& em)) ||| 2#32 ∧ (writeEflags v em r).arith = v &&& 0x8D5#32 :=
  ⟨rfl, rfl, rfl, rfl, rfl, rfl, rfl⟩
theorem holds_desc (sel : BitVec 16) (d : BitVec 64) : Spec.Holds ⟨sel, descBase d, descLimit d, descFlags d⟩ sel d :=
  ⟨rfl, descBase_eq d, descLimit_eq d, descFlags_eq d⟩

theorem db_eq (sd : BitVec 64) : (descFlags sd &&& HID_DB != 0#32) = dDB sd := by
  have h := and_ne_zero_bit (descFlags sd) HID_DB 22 (by omega) rfl
  rw [dDB_bit] at h
  cases hh : dDB sd <;> simpa [hh] using h

theorem mode_prot_mk {r : Regs} (h1 : r.cr0[0] = true) (h2 : r.eflags[17] = false) : mode r = .prot := by
  unfold mode; rw [h1, h2]; rfl

/-- The registers after a return to the same level. -/
theorem same_regs {r2 r : Regs} {fl ar fw em eip sp esp : BitVec 32} {sel : BitVec 16} {d : BitVec 64} {b : Bool}
    (hx : r = writeEflags fw em (writeSeg .cs sel (descBase d) (descLimit d) (descFlags d) (retPoint b sp eip r2)))
    (hfl : ((r2.eflags &&& ~~~em) ||| (fw &&& em)) ||| 2#32 = fl) (har : fw &&& 0x8D5#32 = ar) (hvm : fl[17] = false)
    (hcr : r2.cr0[0] = true) (he : (r2.esp &&& ~~~stackMask b) ||| (sp &&& stackMask b) = esp) :
    mode r = .prot ∧ level r = sel.setWidth 2 ∧ r.eip = eip ∧ r.eflags = fl ∧ r.arith = ar ∧ Spec.Holds r.cs sel d ∧
      r.ss = r2.ss ∧ r.esp = esp := by
  obtain ⟨p1, p2, p3, p4, p5, p6⟩ := point_core b sp eip r2
  generalize retPoint b sp eip r2 = x at *
  obtain ⟨q1, q2, q3, q4, q5, q6⟩ := wcs_core sel (descBase d) (descLimit d) (descFlags d) x
  generalize writeSeg .cs sel (descBase d) (descLimit d) (descFlags d) x = y at *
  obtain ⟨f1, f2, f3, f4, f5, f6, f7⟩ := flags_core fw em y
  rw [← hx] at f1 f2 f3 f4 f5 f6 f7
  have hf : r.eflags = fl := by rw [f6, q1, p1, hfl]
  have hc : r.cr0[0] = true := by
    have : r.cr0 = r2.cr0 := by rw [f1, q2, p2]
    rw [this]; exact hcr
  have hm : mode r = .prot := mode_prot_mk hc (by rw [hf]; exact hvm)
  have hcs : r.cs = ⟨sel, descBase d, descLimit d, descFlags d⟩ := by rw [f4, q6]
  refine ⟨hm, ?_, by rw [f2, q3, p3], hf, by rw [f7, har], by rw [hcs]; exact holds_desc _ _, by rw [f3, q5, p4], by rw [f5, q4, p6, he]⟩
  rw [level_prot hm, hcs]

/-- The registers after a return to an outer level. -/
theorem outer_regs {r2 r : Regs} {fl ar fw em eip nesp : BitVec 32} {sel ss : BitVec 16} {d sd : BitVec 64}
    (hx : r = writeEflags fw em (validateAll (retPoint (descFlags sd &&& HID_DB != 0#32) nesp eip
      (writeSeg .cs sel (descBase d) (descLimit d) (descFlags d) (writeSeg .ss ss (descBase sd) (descLimit sd) (descFlags sd) r2)))))
    (hfl : ((r2.eflags &&& ~~~em) ||| (fw &&& em)) ||| 2#32 = fl) (har : fw &&& 0x8D5#32 = ar) (hvm : fl[17] = false)
    (hcr : r2.cr0[0] = true) :
    mode r = .prot ∧ level r = sel.setWidth 2 ∧ r.eip = eip ∧ r.eflags = fl ∧ r.arith = ar ∧ Spec.Holds r.cs sel d ∧
      Spec.Holds r.ss ss sd ∧ r.esp = (r2.esp &&& ~~~stackMask (dDB sd)) ||| (nesp &&& stackMask (dDB sd)) := by
  rw [db_eq] at hx
  obtain ⟨w1, w2, w3, w4⟩ := wss_core ss (descBase sd) (descLimit sd) (descFlags sd) r2
  generalize writeSeg .ss ss (descBase sd) (descLimit sd) (descFlags sd) r2 = w at *
  obtain ⟨q1, q2, q3, q4, q5, q6⟩ := wcs_core sel (descBase d) (descLimit d) (descFlags d) w
  generalize writeSeg .cs sel (descBase d) (descLimit d) (descFlags d) w = y at *
  obtain ⟨p1, p2, p3, p4, p5, p6⟩ := point_core (dDB sd) nesp eip y
  generalize retPoint (dDB sd) nesp eip y = x at *
  obtain ⟨v1, v2, v3, v4, v5⟩ := validateAll_core x
  have vc := validateAll_cs x
  generalize validateAll x = z at *
  obtain ⟨f1, f2, f3, f4, f5, f6, f7⟩ := flags_core fw em z
  rw [← hx] at f1 f2 f3 f4 f5 f6 f7
  have hf : r.eflags = fl := by rw [f6, v3, p1, q1, w1, hfl]
  have hc : r.cr0[0] = true := by
    have : r.cr0 = r2.cr0 := by rw [f1, v4, p2, q2, w2]
    rw [this]; exact hcr
  have hm : mode r = .prot := mode_prot_mk hc (by rw [hf]; exact hvm)
  have hcs : r.cs = ⟨sel, descBase d, descLimit d, descFlags d⟩ := by rw [f4, vc, p5, q6]
  have hss : r.ss = ⟨ss, descBase sd, descLimit sd, descFlags sd⟩ := by rw [f3, v5, p4, q5, w4]
  refine ⟨hm, ?_, by rw [f2, v2, p3], hf, by rw [f7, har], by rw [hcs]; exact holds_desc _ _, by rw [hss]; exact holds_desc _ _,
    by rw [f5, v1, p6, q4, w3]⟩
  rw [level_prot hm, hcs]

/-- An event is delivered in protected mode through a 32 bit gate, the handler pops the error code and executes IRET with
its frame and system flags intact: IRET resumes the interrupted program, unless one of its memory accesses page faults. -/
theorem C73_iret_resumes (acc acc' : Acc) (k : Kind) (idx : Nat) (code : BitVec 16) (cr2 : BitVec 32) (s s1 s2 : Cpu)
    (ha : AgreeCore s.r) (hm : mode s.r = .prot) (hw : FlagsWf s.r) (hg : (gateAt s idx)[43] = true)
    (h : deliver acc k idx code cr2 s = .ok () s1)
    (hd : HandlerDone s1 s2 (if (k.intn == 0 && !k.hw && Spec.codeVector idx) = true then 1 else 0))
    (hr : Returnable s2 s.r.cs.sel) (hs : level s1.r < level s.r → ReturnableStack s2 s.r.ss.sel (level s.r))
    (hif : level s1.r ≤ iopl s.r ∨ s2.r.eflags[9] = s.r.eflags[9]) :
    FaultOr (Resumed s s1 s2) (instr acc' (.iret 4) s2) := by
  obtain ⟨hent, hfr⟩ := C73_event_frame acc k idx code cr2 s s1 ha hm h
  rw [hg, if_pos rfl] at hfr
  have hfr : Spec.Framed s s1 4 (if (k.intn == 0 && !k.hw && Spec.codeVector idx) = true then 1 else 0) := by
    split at hfr
    · rw [if_pos ‹_›]; exact hfr.1
    · rw [if_neg ‹_›]; exact hfr
  generalize (if (k.intn == 0 && !k.hw && Spec.codeVector idx) = true then 1 else 0) = c at *
  clear h
  have hp2 := prot_of hd.agree hd.prot
  have hvm : s.r.eflags[17] = false := by
    unfold mode at hm
    split at hm
    · cases hm
    · split at hm
      · cases hm
      · rename_i h
        cases hh : s.r.eflags[17]
        · rfl
        · exact absurd hh h
  have hnt : s2.r.eflags[14] = false := by
    rw [hd.flags 14 (by omega) (by omega) (by omega) (by omega), hent.flags 14 (by omega)]; simp
  have i0 : BitVec.ofNat 32 (stackItem s2 4 0) = s.r.eip := item_val ((hd.frame 0 (by omega)).trans hfr.eip)
  have i1 : ((BitVec.ofNat 32 (stackItem s2 4 1)).setWidth 16 : BitVec 16) = s.r.cs.sel := item_sel ((hd.frame 1 (by omega)).trans hfr.cs)
  have i2 : BitVec.ofNat 32 (stackItem s2 4 2) = flagsWord s.r := item_val ((hd.frame 2 (by omega)).trans hfr.flags)
  have hvm2 : ¬ flagsWord s.r &&& 0x20000#32 ≠ 0#32 := by
    have h := and_ne_zero_bit (flagsWord s.r) 0x20000#32 17 (by omega) rfl
    have e : (flagsWord s.r)[17] = false := by
      unfold flagsWord
      rw [BitVec.getElem_or, hvm, wf_arith hw 17 (by omega) (by omega)]; rfl
    rw [e] at h
    simpa using h
  have hl : Spec.rpl s.r.cs.sel = level s.r := (level_prot hm).symm
  have hfl := ret_flags hw hm hent hd hif
  have har := ret_arith hw
  have hcr : s2.r.cr0[0] = true := by
    have := hd.prot
    unfold mode at this
    split at this
    · cases this
    · rename_i h; simpa using h
  generalize hem : iretMask 4 s2.r = em at *
  apply iretPe_run acc' s2 hp2 hd.agree hnt _ _ _ i0 rfl i2 hvm2
  rw [i1, hem]
  generalize flagsWord s.r = fw at *
  intro sp hsp
  by_cases hin : level s1.r < level s.r
  · have hin2 : level s2.r < Spec.rpl s.r.cs.sel := by rw [hd.same_level, hl]; exact hin
    have hret := hs hin
    rw [← hl] at hret
    have i3 : BitVec.ofNat 32 (stackItem s2 4 3) = s.r.esp := item_val ((hd.frame 3 (by omega)).trans (hfr.esp hin))
    have i4 : ((BitVec.ofNat 32 (stackItem s2 4 4)).setWidth 16 : BitVec 16) = s.r.ss.sel :=
      item_sel ((hd.frame 4 (by omega)).trans (hfr.ss hin))
    generalize hd1 : Spec.descAt s2 s.r.cs.sel = d
    generalize hd2 : Spec.descAt s2 s.r.ss.sel = sd
    apply retPe_outer acc' s.r.eip sp fw em s.r.cs.sel s2 d sd hd1 3 hsp hd.agree hr hin2 s.r.ss.sel _ _ i3 rfl i4 hret hd2
    intro m
    generalize hx : writeEflags fw em _ = x
    obtain ⟨o1, o2, o3, o4, o5, o6, o7, o8⟩ := outer_regs hx.symm hfl har hvm hcr
    refine ⟨o1, o2.trans (level_prot hm).symm, o3, o4, o5, by rw [hd1]; exact o6, fun hn => absurd hin hn, fun _ => ⟨by rw [hd2]; exact o7, ?_, ?_⟩⟩
    · intro hb
      have : dDB sd = true := by
        unfold dDB
        rw [bit64b sd 0x40000000000000#64 54 (by omega) rfl, ← hd2, hb]
      exact o8.trans (by rw [this, esp_full])
    · have : (x.esp.setWidth 16 : BitVec 16) = s.r.esp.setWidth 16 := by
        rw [o8]
        cases dDB sd
        · exact esp_low _ _
        · rw [esp_full]
      exact this
  · have heq : level s1.r = level s.r := BitVec.le_antisymm hent.inner (BitVec.not_lt.mp hin)
    have hrl : Spec.rpl s.r.cs.sel = level s2.r := by rw [hd.same_level, heq, hl]
    have hb : stack32 s2.r = stack32 s1.r := by
      unfold stack32; rw [hd.prot, hent.mode, hd.ss]
    have hesp : (s2.r.esp &&& ~~~stackMask (stack32 s2.r)) ||| (sp &&& stackMask (stack32 s2.r)) = s.r.esp := by
      rw [esp_after _ _ _ _ hsp, ← (hfr.same hin).2, ← espAfter_add hb c 3 hd.esp]
      rfl
    generalize hd1 : Spec.descAt s2 s.r.cs.sel = d
    apply retPe_same acc' s.r.eip sp fw em s.r.cs.sel s2 d hd1 hd.agree hr hrl
    intro m
    generalize hx : writeEflags fw em _ = x
    obtain ⟨o1, o2, o3, o4, o5, o6, o7, o8⟩ := same_regs hx.symm hfl har hvm hcr hesp
    exact ⟨o1, o2.trans (level_prot hm).symm, o3, o4, o5, by rw [hd1]; exact o6,
      fun _ => ⟨by rw [← (hfr.same hin).1, ← hd.ss]; exact o7, o8⟩, fun hn => absurd hn hin⟩


namespace EventP
open SegP

/-- GDT at 0x2000: 0x08 flat code and 0x10 flat data of DPL 0, 0x18 flat data and 0x20 flat code of DPL 3; IDT at 0x1000:
vector 13 is a 32 bit interrupt gate to 8:0x1234, vector 3 a 32 bit trap gate of DPL 3 to 8:0x5678,
vector 4 a 16 bit trap gate to 8:0x5678; TSS at 0x3000: ESP0 =
0x9000, SS0 = 0x10. -/
def mem : Guest.Mem := ModeP.memOf
  [(0x2008, 0xFF), (0x2009, 0xFF), (0x200D, 0x9B), (0x200E, 0xCF),
   (0x2010, 0xFF), (0x2011, 0xFF), (0x2015, 0x93), (0x2016, 0xCF),
   (0x2018, 0xFF), (0x2019, 0xFF), (0x201D, 0xF3), (0x201E, 0xCF),
   (0x2020, 0xFF), (0x2021, 0xFF), (0x2025, 0xFB), (0x2026, 0xCF),
   (0x1068, 0x34), (0x1069, 0x12), (0x106A, 8), (0x106D, 0x8E),
   (0x1018, 0x78), (0x1019, 0x56), (0x101A, 8), (0x101D, 0xEF),
   (0x1020, 0x78), (0x1021, 0x56), (0x1022, 8), (0x1025, 0x87),
   (0x3005, 0x90), (0x3008, 0x10)]

/-- A user program with IF, TF and DF set, carry and zero flag set. -/
def prog : Cpu := ⟨{ ModeP.kernel with
  gdtLimit := 0x3F#32
  cs := ⟨0x23#16, 0#32, 0xFFFFFFFF#32, 0xCFFB00#32⟩
  ss := ⟨0x1B#16, 0#32, 0xFFFFFFFF#32, 0xCFF300#32⟩
  eip := 0x401000#32
  esp := 0x7000#32
  eflags := 0x702#32
  arith := 0x41#32
  hflags := 0x1E0001F#32 }, mem⟩

/-- The state a run ends in. -/
def endState : Res Unit → Cpu
  | .ok _ s => s
  | .stop _ s => s
/-- Did it complete? -/
def completed : Res Unit → Bool
  | .ok _ _ => true
  | _ => false
theorem of_completed {x : Res Unit} (h : completed x = true) : x = .ok () (endState x) := by
  cases x with
  | ok u s => rfl
  | stop e s => cases h

/-- The first instruction of its #GP handler. -/
def entry : Cpu := endState (deliver allOk .exn 13 0x18#16 0#32 prog)
/-- The handler is about to return: it popped the error code, cleared DF, set IF, changed the arithmetic flags and
memory. -/
def done : Cpu := ⟨{ entry.r with esp := entry.r.esp + 4#32, eflags := 0x202#32, arith := 0x80#32 },
  fun a => if a = 0x5000#32 then 7#8 else entry.mem a⟩

/-- A kernel program interrupted by hardware on its own stack. -/
def kprog : Cpu := ⟨{ ModeP.kernel with gdtLimit := 0x3F#32, eip := 0x100#32, eflags := 0x202#32, arith := 1#32 }, mem⟩
/-- The first instruction of the handler of INT 3 in the kernel. -/
def kentry : Cpu := endState (deliver allOk ⟨1, false⟩ 3 0#16 0#32 kprog)

/-- The kernel with its stack above 64 KiB, and the first instruction of its 16 bit handler. -/
def kprog16 : Cpu := ⟨{ kprog.r with esp := 0x18000#32 }, mem⟩
def kentry16 : Cpu := endState (deliver allOk ⟨3, false⟩ 4 0#16 0#32 kprog16)

/-- A vm86 program with DF set, the first instruction of its #GP handler, and the handler about to return after it
popped the error code and cleared DF. -/
def vprog : Cpu := ⟨{ ModeP.task with gdtLimit := 0x3F#32, eip := 0x20#32, esp := 0x200#32, eflags := 0x20402#32 }, mem⟩
def ventry : Cpu := endState (deliver allOk .exn 13 0#16 0#32 vprog)
def vdone : Cpu := ⟨{ ventry.r with esp := ventry.r.esp + 4#32, eflags := ventry.r.eflags &&& ~~~0x400#32 }, ventry.mem⟩

end EventP
open EventP SegP

theorem entry_ok : deliver allOk .exn 13 0x18#16 0#32 prog = .ok () entry := of_completed (by decide +kernel)
theorem kentry_ok : deliver allOk ⟨1, false⟩ 3 0#16 0#32 kprog = .ok () kentry := of_completed (by decide +kernel)

-- A #GP in a user program: the handler runs at level 0, the error code is on its stack, and the frame below.
example : AgreeCore prog.r ∧ mode prog.r = .prot ∧ level entry.r = 0#2 ∧ entry.r.eip = 0x1234#32 ∧ stackItem entry 4 0 = 0x18 ∧
    stackItem entry 4 1 = 0x401000 ∧ stackItem entry 4 2 = 0x23 ∧ stackItem entry 4 3 = 0x743 ∧ stackItem entry 4 4 = 0x7000 ∧
    stackItem entry 4 5 = 0x1B := by
  refine ⟨?_, by decide, by decide +kernel, by decide +kernel, by decide +kernel, by decide +kernel, by decide +kernel, by decide +kernel,
    by decide +kernel, by decide +kernel⟩
  constructor <;> decide

theorem entry_flags : entry.r.eflags = 0x402#32 := by decide +kernel

theorem done_bits : ∀ j : Fin 32, j.val ≠ 8 → j.val ≠ 9 → j.val ≠ 10 → (0x202#32 : BitVec 32)[j.val] = (0x402#32 : BitVec 32)[j.val] := by
  decide

theorem entry_done : HandlerDone entry done 1 := by
  refine ⟨?_, by decide +kernel, by decide +kernel, rfl, by decide +kernel, ?_, ?_⟩
  · constructor <;> decide +kernel
  · intro i hi h8 h9 h10
    have h1 : done.r.eflags = 0x202#32 := rfl
    simp only [h1, entry_flags]
    exact done_bits ⟨i, hi⟩ h8 h9 h10
  · have : ∀ j : Fin 5, stackItem done 4 j.val = stackItem entry 4 (1 + j.val) := by decide +kernel
    intro i hi
    exact this ⟨i, hi⟩

-- The hypotheses of `C73_iret_resumes` are met by that handler, and its IRET completes.
example : FlagsWf prog.r ∧ (gateAt prog 13)[43] = true ∧ Returnable done prog.r.cs.sel ∧
    (level entry.r < level prog.r ∧ ReturnableStack done prog.r.ss.sel (level prog.r)) ∧ level entry.r ≤ iopl prog.r ∧
    okWith (fun r => r.eip == 0x401000#32 && r.cs.sel == 0x23#16 && r.esp == 0x7000#32 && r.eflags == 0x702#32 && r.arith == 0x41#32)
      (instr allOk (.iret 4) done) = true := by
  refine ⟨by constructor <;> decide, by decide +kernel, ?_, ⟨by decide +kernel, ?_⟩, by decide +kernel, by decide +kernel⟩
  · constructor
    · unfold Spec.nullSel; decide
    · unfold Spec.TableFits; decide +kernel
    · unfold Spec.InTable; decide +kernel
    all_goals decide +kernel
  · constructor
    · unfold Spec.nullSel; decide
    · unfold Spec.TableFits; decide +kernel
    · unfold Spec.InTable; decide +kernel
    · unfold Spec.StackSeg; decide +kernel
    · decide +kernel

-- A trap gate entered from the kernel itself keeps IF and the stack.
example : AgreeCore kprog.r ∧ mode kprog.r = .prot ∧ ¬ level kentry.r < level kprog.r ∧ kentry.r.eip = 0x5678#32 ∧
    kentry.r.eflags = 0x202#32 ∧ kentry.r.esp = 0x8000#32 - 12#32 := by
  refine ⟨?_, by decide, by decide +kernel, by decide +kernel, by decide +kernel, by decide +kernel⟩
  constructor <;> decide

/-- On a 32 bit stack above 64 KiB a handler entered through a 16 bit gate cannot return: the frame is at 0x17FFA, as it should
be, but the 16 bit IRET takes it from 0x7FFA. -/
theorem C73_iret16_violation : completed (deliver allOk ⟨3, false⟩ 4 0#16 0#32 kprog16) = true ∧ stack32 kentry16.r = true ∧
    stackItem kentry16 2 0 = 0x100 ∧ stackItem kentry16 2 1 = 8 ∧ stackItem kentry16 2 2 = 0x203 ∧ stackAddr kentry16.r 2 0 = 0x17FFA#32 ∧
    completed (instr allOk (.iret 2) kentry16) = false := by
  refine ⟨?_, ?_, ?_, ?_, ?_, ?_, ?_⟩ <;> decide +kernel

/-- The DF of a vm86 program is not restored by the IRET of a handler that cleared it, although it is in the frame. -/
theorem C73_vm86_violation : completed (deliver allOk .exn 13 0#16 0#32 vprog) = true ∧ mode vprog.r = .vm86 ∧
    stackItem vdone 4 0 = 0x20 ∧ stackItem vdone 4 1 = 0x100 ∧ stackItem vdone 4 2 = 0x20402 ∧
    okWith (fun r => mode r == .vm86 && r.eip == 0x20#32 && r.eflags == 0x20002#32) (instr allOk (.iret 4) vdone) = true := by
  refine ⟨?_, ?_, ?_, ?_, ?_, ?_⟩ <;> decide +kernel

end Verif.Seg
