import Verif.Props.IretResume
import Verif.Props.FarJmp
/-
RETF in pieces, as in Props/IretResume for IRET.
-/
namespace Verif.Seg.Rf
open Guest (load store)
open Spec (Returnable ReturnableStack FaultOr stackAddr stackItem mode level stack32 AgreeCore)

/-- The return to the same level. -/
def retSame (acc : Acc) (eip sp : BitVec 32) (cs : BitVec 16) (a : BitVec 32) (d : BitVec 64) : M Unit := do
  setAccessed acc d a
  modR fun r => retPoint (r.hflags &&& H_SS32 != 0#32) sp eip r
  loadDesc .cs cs d

/-- The end of a return to an outer level. -/
def retLoad (acc : Acc) (eip nesp : BitVec 32) (ss cs : BitVec 16) (a sa : BitVec 32) (d sd : BitVec 64) : M Unit := do
  setAccessed acc sd sa
  setAccessed acc d a
  loadDesc .ss ss sd
  loadDesc .cs cs d
  modR fun r => validateAll (retPoint (r.ss.flags &&& HID_DB != 0#32) nesp eip r)

/-- The return to an outer level. -/
def retOuter (acc : Acc) (eip sp : BitVec 32) (cs : BitVec 16) (a : BitVec 32) (d : BitVec 64) : M Unit :=
  popV acc 4 sp >>= fun p => popV acc 4 p.2 >>= fun q => checkSs acc (q.1.setWidth 16) (some (rpl cs)) >>= fun t =>
    retLoad acc eip p.1 (q.1.setWidth 16) cs a t.1 d t.2

def retTail (acc : Acc) (eip sp : BitVec 32) (cs : BitVec 16) (a : BitVec 32) (d : BitVec 64) : M Unit := do
  let r ← getR
  check (!(dS d && dCode d)) (.exc GP (selErr cs))
  check (decide (rpl cs < cpl r)) (.exc GP (selErr cs))
  check (dConf d && decide (rpl cs < dDpl d)) (.exc GP (selErr cs))
  check (!dP d) (.exc NP (selErr cs))
  if cpl r < rpl cs then retOuter acc eip sp cs a d else retSame acc eip sp cs a d

theorem retPe_eq (acc : Acc) (eip sp : BitVec 32) (cs : BitVec 16) :
    retPe acc 4 eip cs sp none =
      (check (isNull cs) (.exc GP 0#16) >>= fun _ => readDesc acc false cs >>= fun p => retTail acc eip sp cs p.1 p.2) := rfl

theorem retTail_run (acc : Acc) (eip sp : BitVec 32) (cs : BitVec 16) (a : BitVec 32) (d : BitVec 64) (s : Cpu)
    (hsc : (!(dS d && dCode d)) = false) (hle : decide (rpl cs < cpl s.r) = false) (hc : (dConf d && decide (rpl cs < dDpl d)) = false)
    (hpp : (!dP d) = false) : retTail acc eip sp cs a d s =
      (if cpl s.r < rpl cs then retOuter acc eip sp cs a d else retSame acc eip sp cs a d) s := by
  rw [retTail.eq_1, bind_getR, hsc, hle, hc, hpp]
  simp only [bind_check, Bool.false_eq_true, if_false]

theorem retSame_run {Q : Cpu → Prop} (acc : Acc) (eip sp : BitVec 32) (cs : BitVec 16) (a : BitVec 32) (d : BitVec 64) (s : Cpu)
    (h : ∀ m, Q ⟨writeSeg .cs cs (descBase d) (descLimit d) (descFlags d)
        (retPoint (s.r.hflags &&& H_SS32 != 0#32) sp eip s.r), m⟩) :
    Spec.FaultOr Q (retSame acc eip sp cs a d s) := by
  rw [retSame.eq_1]
  exact faultOr_setAccessed h

theorem retLoad_run {Q : Cpu → Prop} (acc : Acc) (eip nesp : BitVec 32) (ss cs : BitVec 16) (a sa : BitVec 32) (d sd : BitVec 64) (s : Cpu)
    (h : ∀ m, Q ⟨validateAll (retPoint (descFlags sd &&& HID_DB != 0#32) nesp eip
        (writeSeg .cs cs (descBase d) (descLimit d) (descFlags d)
          (writeSeg .ss ss (descBase sd) (descLimit sd) (descFlags sd) s.r))), m⟩) :
    Spec.FaultOr Q (retLoad acc eip nesp ss cs a sa d sd s) := by
  rw [retLoad.eq_1]
  apply faultOr_setAccessed
  intro m
  apply faultOr_setAccessed
  intro m
  rw [bind_loadDesc, bind_loadDesc]
  exact h m

theorem retSs_run {Q : Cpu → Prop} (acc : Acc) (eip nesp : BitVec 32) (ss cs : BitVec 16) (a : BitVec 32) (d sd : BitVec 64) (s : Cpu)
    (hs : ReturnableStack s ss (Spec.rpl cs)) (hsd : Spec.descAt s ss = sd)
    (h : ∀ m, Q ⟨validateAll (retPoint (descFlags sd &&& HID_DB != 0#32) nesp eip
        (writeSeg .cs cs (descBase d) (descLimit d) (descFlags d)
          (writeSeg .ss ss (descBase sd) (descLimit sd) (descFlags sd) s.r))), m⟩) :
    Spec.FaultOr Q ((checkSs acc ss (some (rpl cs)) >>= fun t => retLoad acc eip nesp ss cs a t.1 d t.2) s) := by
  have hck := checkSs_eq acc ss (Spec.rpl cs) s hsd (some (rpl cs)) (by rw [Option.getD_some, rpl_eq])
  have hseg := hs.seg
  have hpr := hs.present
  rw [hsd] at hseg hpr
  rw [if_neg hs.notNull, if_neg (by rw [outside_iff _ _ hs.fits]; exact fun hn => hn hs.inTable)] at hck
  by_cases hacc : acc s (Spec.descAddr s.r ss) 8 false 2 = true
  · rw [if_pos hacc, if_pos hseg, if_pos hpr] at hck
    rw [bind_of_ok hck]
    exact retLoad_run acc eip _ ss cs a _ d sd s h
  · rw [if_neg hacc] at hck
    rw [bind_of_stop hck]
    trivial

theorem retOuter_run {Q : Cpu → Prop} (acc : Acc) (eip sp : BitVec 32) (cs : BitVec 16) (a : BitVec 32) (d sd : BitVec 64) (s : Cpu)
    (n : Nat) (hsp : sp &&& stackMask (stack32 s.r) = (s.r.esp + BitVec.ofNat 32 (4 * n)) &&& stackMask (stack32 s.r))
    (ha : AgreeCore s.r) (ss : BitVec 16) (nesp ssv : BitVec 32) (hn : BitVec.ofNat 32 (stackItem s 4 n) = nesp)
    (hv : BitVec.ofNat 32 (stackItem s 4 (n + 1)) = ssv) (hss : ssv.setWidth 16 = ss)
    (hs : ReturnableStack s ss (Spec.rpl cs)) (hsd : Spec.descAt s ss = sd)
    (h : ∀ m, Q ⟨validateAll (retPoint (descFlags sd &&& HID_DB != 0#32) nesp eip
        (writeSeg .cs cs (descBase d) (descLimit d) (descFlags d)
          (writeSeg .ss ss (descBase sd) (descLimit sd) (descFlags sd) s.r))), m⟩) :
    Spec.FaultOr Q (retOuter acc eip sp cs a d s) := by
  obtain ⟨sp1, hsp1, hp1⟩ := pop_item acc s ha n sp hsp
  obtain ⟨sp2, -, hp2⟩ := pop_item acc s ha (n + 1) sp1 hsp1
  rw [hn] at hp1
  rw [hv] at hp2
  have := retSs_run acc eip nesp ss cs a d sd s hs hsd h
  rw [retOuter.eq_1, hp1]
  apply faultOr_acc
  rw [hp2, hss]
  apply faultOr_acc
  exact this

theorem retPe_run {Q : Cpu → Prop} (acc : Acc) (eip sp : BitVec 32) (cs : BitVec 16) (s : Cpu) (d : BitVec 64)
    (hd : Spec.descAt s cs = d) (hr : Returnable s cs) (hle : ¬ rpl cs < cpl s.r)
    (h : ∀ a, Spec.FaultOr Q ((if cpl s.r < rpl cs then retOuter acc eip sp cs a d else retSame acc eip sp cs a d) s)) :
    Spec.FaultOr Q (retPe acc 4 eip cs sp none s) := by
  obtain ⟨h1, h2, h3⟩ := ret_hyps hd hr
  rw [retPe_eq, bind_check, if_neg (by rw [isNull_iff]; exact hr.notNull), bind_readDesc, hd,
    if_neg (by rw [outside_iff _ _ hr.fits]; exact fun hn => hn hr.inTable)]
  apply faultOr_acc
  rw [retTail_run acc eip sp cs _ d s h1 (decide_eq_false hle) h2 h3]
  exact h _

/-- What RETF does after popping the return address: to the same level. -/
theorem retPe_same {Q : Cpu → Prop} (acc : Acc) (eip sp : BitVec 32) (cs : BitVec 16) (s : Cpu) (d : BitVec 64)
    (hd : Spec.descAt s cs = d) (ha : AgreeCore s.r) (hr : Returnable s cs) (hl : Spec.rpl cs = level s.r)
    (h : ∀ m, Q ⟨writeSeg .cs cs (descBase d) (descLimit d) (descFlags d)
        (retPoint (stack32 s.r) sp eip s.r), m⟩) :
    Spec.FaultOr Q (retPe acc 4 eip cs sp none s) := by
  have hlv : cpl s.r = (level s.r).setWidth 64 := cpl_level ha
  have hrl : rpl cs = (level s.r).setWidth 64 := by rw [rpl_eq, hl]
  have hlt : ¬ cpl s.r < rpl cs := by rw [hlv, hrl]; exact BitVec.lt_irrefl _
  have hlt' : ¬ rpl cs < cpl s.r := by rw [hlv, hrl]; exact BitVec.lt_irrefl _
  apply retPe_run acc eip sp cs s d hd hr hlt'
  intro a
  rw [if_neg hlt]
  apply retSame_run
  rw [ss32_eq ha]
  exact h

/-- What RETF does after popping the return address: to an outer level. -/
theorem retPe_outer {Q : Cpu → Prop} (acc : Acc) (eip sp : BitVec 32) (cs : BitVec 16) (s : Cpu) (d sd : BitVec 64)
    (hd : Spec.descAt s cs = d) (n : Nat)
    (hsp : sp &&& stackMask (stack32 s.r) = (s.r.esp + BitVec.ofNat 32 (4 * n)) &&& stackMask (stack32 s.r))
    (ha : AgreeCore s.r) (hr : Returnable s cs) (hl : level s.r < Spec.rpl cs) (ss : BitVec 16)
    (nesp ssv : BitVec 32) (hn : BitVec.ofNat 32 (stackItem s 4 n) = nesp)
    (hv : BitVec.ofNat 32 (stackItem s 4 (n + 1)) = ssv) (hss : ssv.setWidth 16 = ss) (hs : ReturnableStack s ss (Spec.rpl cs)) (hsd : Spec.descAt s ss = sd)
    (h : ∀ m, Q ⟨validateAll (retPoint (descFlags sd &&& HID_DB != 0#32) nesp eip
        (writeSeg .cs cs (descBase d) (descLimit d) (descFlags d)
          (writeSeg .ss ss (descBase sd) (descLimit sd) (descFlags sd) s.r))), m⟩) :
    Spec.FaultOr Q (retPe acc 4 eip cs sp none s) := by
  have hlv : cpl s.r = (level s.r).setWidth 64 := cpl_level ha
  have hlt : cpl s.r < rpl cs := by rw [hlv, rpl_eq, lt2]; exact hl
  have hlt' : ¬ rpl cs < cpl s.r := by rw [BitVec.not_lt]; exact BitVec.le_of_lt hlt
  apply retPe_run acc eip sp cs s d hd hr hlt'
  intro a
  rw [if_pos hlt]
  exact retOuter_run acc eip sp cs a d sd s n hsp ha ss nesp ssv hn hv hss hs hsd h

end Verif.Seg.Rf
