import Verif.Spec.Gate
import Verif.Props.IretResume
/-
C74: the gate and the code segment of a handler are checked before an event is delivered.
-/
namespace Verif.Seg
open Guest (load store)
open Spec (AgreeCore mode level gateAt gateSel gateFault handlerFault)

/-- The rest of a delivery, after the checks of the handler's code segment. -/
def afterChecks (acc : Acc) (k : Kind) (idx : Nat) (code : BitVec 16) (cr2 : BitVec 32) (r : Regs) (d : BitVec 64) (ca : BitVec 32)
    (cd : BitVec 64) : M Unit := do
  let ty := (d >>> 40 &&& 0x1F#64).toNat
  let eflags := if ty = 6 ∨ ty = 14 then r.eflags &&& ~~~0x200#32 else r.eflags
  let neip : BitVec 32 :=
    (((d &&& 0xFFFF000000000000#64) >>> 32) ||| (d &&& 0xFFFF#64)).setWidth 32
  let sel : BitVec 16 := ((d &&& 0xFFFF0000#64) >>> 16).setWidth 16
  let dpl := if dConf cd then cpl r else dDpl cd
  setAccessed acc cd ca
  let is32 : Bool := decide (8 ≤ ty)
  let w := if is32 then 4 else 2
  let frame := [readEflags r, r.cs.sel.setWidth 32, r.eip] ++
    (if hasCode k idx then [code.setWidth 32] else [])
  if dpl < cpl r then
    if r.eflags &&& 0x20000#32 ≠ 0#32 then
      fromVm86 acc k idx code cr2 is32 eflags neip sel cd dpl.toNat
    else
      let (nesp, nss, sd) ← newStack acc k.ext false dpl.toNat
      let mask := stackMask (dDB sd)
      let sp ← pushAll acc w (descBase sd) mask 2 (r.ss.sel.setWidth 32 :: r.esp :: frame) nesp
      modR (switchSs nss sd dpl)
      modR (finish idx cr2 mask eflags neip sp sel cd dpl)
  else
    check (r.eflags &&& 0x20000#32 != 0#32) (.exc GP (selErr sel + k.ext))
    let mask := stackMask (r.hflags &&& H_SS32 != 0#32)
    let sp ← pushAll acc w r.ss.base mask 0 frame r.esp
    modR (finish idx cr2 mask eflags neip sp sel cd dpl)

/-- The checks of the handler's code segment, once its descriptor was read. -/
def codeTail (acc : Acc) (k : Kind) (idx : Nat) (code : BitVec 16) (cr2 : BitVec 32) (r : Regs) (d : BitVec 64) (sel : BitVec 16)
    (a : BitVec 32) (cd : BitVec 64) : M Unit := do
  check (decide (cpl r < dDpl cd)) (.exc GP (selErr sel + k.ext))
  check (!dP cd) (.exc NP (selErr sel + k.ext))
  afterChecks acc k idx code cr2 r d a cd

/-- The checks of the handler's code segment. -/
def codeChecks (acc : Acc) (k : Kind) (idx : Nat) (code : BitVec 16) (cr2 : BitVec 32) (r : Regs) (d : BitVec 64) (sel : BitVec 16) : M Unit :=
  mapExc (fun i c => .exc i (c + k.ext)) (readDesc acc false sel) >>= fun p => codeTail acc k idx code cr2 r d sel p.1 p.2

/-- The checks of the gate. -/
def gateChecks (acc : Acc) (k : Kind) (idx : Nat) (code : BitVec 16) (cr2 : BitVec 32) (r : Regs) (d : BitVec 64) : M Unit := do
  check ((d >>> 40 &&& 0x1F#64).toNat == 5) .abort
  check (!((d >>> 40 &&& 0x1F#64).toNat == 6 || (d >>> 40 &&& 0x1F#64).toNat == 14 || (d >>> 40 &&& 0x1F#64).toNat == 7 ||
    (d >>> 40 &&& 0x1F#64).toNat == 15)) (.exc GP (BitVec.ofNat 16 (idx * 8 + 2) + k.ext))
  check (k.intn != 0 && decide (dDpl d < cpl r)) (.exc GP (BitVec.ofNat 16 (idx * 8 + 2)))
  check (!dP d) (.exc NP (BitVec.ofNat 16 (idx * 8 + 2) + k.ext))
  check (isNull (((d &&& 0xFFFF0000#64) >>> 16).setWidth 16)) (.exc GP k.ext)
  codeChecks acc k idx code cr2 r d (((d &&& 0xFFFF0000#64) >>> 16).setWidth 16)

theorem deliverIdt_eq (acc : Acc) (k : Kind) (idx : Nat) (code : BitVec 16) (cr2 : BitVec 32) :
    deliverIdt acc k idx code cr2 = (getR >>= fun r =>
      check (decide (r.idtLimit.toNat < idx * 8 + 7)) (.exc GP (BitVec.ofNat 16 (idx * 8 + 2) + k.ext)) >>= fun _ =>
      rd acc (r.idtBase + BitVec.ofNat 32 (idx * 8)) 8 2 >>= fun dv => gateChecks acc k idx code cr2 r (BitVec.ofNat 64 dv)) := rfl

theorem kind_nat (d : BitVec 64) : (d >>> 40 &&& 0x1F#64).toNat = (Spec.gateKind d).toNat := by
  unfold Spec.gateKind
  rw [BitVec.toNat_and, BitVec.toNat_ushiftRight, BitVec.extractLsb'_toNat]
  exact Nat.and_two_pow_sub_one_eq_mod _ 5

theorem kindTable : ∀ x : BitVec 5, (!(x.toNat == 6 || x.toNat == 14 || x.toNat == 7 || x.toNat == 15)) =
    decide (¬ (x = 6#5 ∨ x = 7#5 ∨ x = 14#5 ∨ x = 15#5)) := by decide
theorem kindTask : ∀ x : BitVec 5, (x.toNat == 5) = decide (x = 5#5) := by decide

theorem ext_eq (k : Kind) : k.ext = Spec.extBit (k.intn != 0) := by
  unfold Kind.ext Spec.extBit
  by_cases h : k.intn = 0 <;> simp [h]

theorem bind_rd {β : Type} (acc : Acc) (a : BitVec 32) (n p : Nat) (f : Nat → M β) (s : Cpu) :
    (rd acc a n p >>= f) s = if acc s a n false p = true then f (load s.mem a n) s else .stop .fault s := by
  simp only [bind, rd]
  cases acc s a n false p <;> rfl

theorem gateChecks_run (acc : Acc) (k : Kind) (idx : Nat) (code : BitVec 16) (cr2 : BitVec 32) (s : Cpu) (g : BitVec 64)
    (ha : AgreeCore s.r) (ht : Spec.gateKind g ≠ 5#5) :
    gateChecks acc k idx code cr2 s.r g s =
      if ¬ Spec.EventGate g then .stop (.exc 13 (Spec.gateErr (k.intn != 0) idx)) s
      else if (k.intn != 0) = true ∧ Spec.dpl g < level s.r then .stop (.exc 13 (Spec.gateErr (k.intn != 0) idx)) s
      else if Spec.present g = false then .stop (.exc 11 (Spec.gateErr (k.intn != 0) idx)) s
      else if Spec.nullSel (gateSel g) then .stop (.exc 13 (Spec.extBit (k.intn != 0))) s
      else codeChecks acc k idx code cr2 s.r g (gateSel g) s := by
  have hlv : cpl s.r = (level s.r).setWidth 64 := cpl_level ha
  have e1 : (!((g >>> 40 &&& 0x1F#64).toNat == 6 || (g >>> 40 &&& 0x1F#64).toNat == 14 || (g >>> 40 &&& 0x1F#64).toNat == 7 ||
    (g >>> 40 &&& 0x1F#64).toNat == 15)) = decide (¬ Spec.EventGate g) := by
    rw [kind_nat, kindTable]; rfl
  have e2 : ((g >>> 40 &&& 0x1F#64).toNat == 5) = false := by
    rw [kind_nat, kindTask, decide_eq_false ht]
  have e3 : (k.intn != 0 && decide (dDpl g < cpl s.r)) = decide ((k.intn != 0) = true ∧ Spec.dpl g < level s.r) := by
    generalize (k.intn != 0) = sw
    rw [dDpl_eq, hlv, Bool.decide_and, Bool.decide_eq_true, decide_eq_decide.mpr (lt2 (Spec.dpl g) (level s.r))]
  have e4 : (!dP g) = decide (Spec.present g = false) := by rw [dP_eq]; cases Spec.present g <;> rfl
  have e5 : isNull (((g &&& 0xFFFF0000#64) >>> 16).setWidth 16) = decide (Spec.nullSel (gateSel g)) := by
    rw [gateSel_eq, Bool.eq_iff_iff, isNull_iff, decide_eq_true_eq]
  have e6 : (((g &&& 0xFFFF0000#64) >>> 16).setWidth 16 : BitVec 16) = gateSel g := gateSel_eq g
  have e7 : (k.intn != 0) = true ∧ Spec.dpl g < level s.r → Spec.gateErr (k.intn != 0) idx = BitVec.ofNat 16 (idx * 8 + 2) := by
    intro h
    unfold Spec.gateErr Spec.extBit
    rw [h.1]; simp
  rw [gateChecks.eq_1, e1, e2, e3, e4, e5, e6, ext_eq]
  simp only [bind_check, Bool.false_eq_true, if_false, decide_eq_true_eq]
  have hge : BitVec.ofNat 16 (idx * 8 + 2) + Spec.extBit (k.intn != 0) = Spec.gateErr (k.intn != 0) idx := rfl
  rw [hge]
  clear e1 e2 e3 e4 e5 e6 hge
  generalize (k.intn != 0) = sw at *
  generalize codeChecks acc k idx code cr2 s.r g (gateSel g) s = z
  by_cases h1 : ¬ Spec.EventGate g
  · rw [if_pos h1, if_pos h1]
  rw [if_neg h1, if_neg h1]
  by_cases h3 : sw = true ∧ Spec.dpl g < level s.r
  · rw [if_pos h3, if_pos h3, e7 h3]
  rw [if_neg h3, if_neg h3]

theorem mapExc_readDesc (acc : Acc) (f : Nat → BitVec 16 → Stop) (sel : BitVec 16) (s : Cpu) :
    mapExc f (readDesc acc false sel) s =
      if outside s.r sel then .stop (f 13 (Spec.errOf sel)) s
      else if acc s (Spec.descAddr s.r sel) 8 false 2 = true then .ok (Spec.descAddr s.r sel, Spec.descAt s sel) s
      else .stop .fault s := by
  unfold mapExc
  rw [readDesc_eq]
  by_cases h1 : outside s.r sel
  · simp only [h1, if_true]
  · by_cases h2 : acc s (Spec.descAddr s.r sel) 8 false 2 = true <;> simp only [h1, h2, if_true, if_false, Bool.false_eq_true]

theorem codeTail_run (acc : Acc) (k : Kind) (idx : Nat) (code : BitVec 16) (cr2 : BitVec 32) (s : Cpu) (g : BitVec 64) (sel : BitVec 16)
    (a : BitVec 32) (d : BitVec 64) (ha : AgreeCore s.r) :
    codeTail acc k idx code cr2 s.r g sel a d s =
      if level s.r < Spec.dpl d then .stop (.exc 13 (Spec.errOf sel + Spec.extBit (k.intn != 0))) s
      else if Spec.present d = false then .stop (.exc 11 (Spec.errOf sel + Spec.extBit (k.intn != 0))) s
      else afterChecks acc k idx code cr2 s.r g a d s := by
  have hlv : cpl s.r = (level s.r).setWidth 64 := cpl_level ha
  have e1 : decide (cpl s.r < dDpl d) = decide (level s.r < Spec.dpl d) := by
    rw [dDpl_eq, hlv, decide_eq_decide, lt2]
  have e4 : (!dP d) = decide (Spec.present d = false) := by rw [dP_eq]; cases Spec.present d <;> rfl
  rw [codeTail.eq_1, e1, e4, selErr_eq, ext_eq]
  simp only [bind_check, decide_eq_true_eq]

theorem codeChecks_run (acc : Acc) (k : Kind) (idx : Nat) (code : BitVec 16) (cr2 : BitVec 32) (s : Cpu) (g : BitVec 64) (sel : BitVec 16)
    (ha : AgreeCore s.r) (hf : Spec.TableFits s.r sel) (d : BitVec 64) (hd : Spec.descAt s sel = d) :
    codeChecks acc k idx code cr2 s.r g sel s =
      if ¬ Spec.InTable s.r sel then .stop (.exc 13 (Spec.errOf sel + Spec.extBit (k.intn != 0))) s
      else if acc s (Spec.descAddr s.r sel) 8 false 2 = true then
        if level s.r < Spec.dpl d then .stop (.exc 13 (Spec.errOf sel + Spec.extBit (k.intn != 0))) s
        else if Spec.present d = false then .stop (.exc 11 (Spec.errOf sel + Spec.extBit (k.intn != 0))) s
        else afterChecks acc k idx code cr2 s.r g (Spec.descAddr s.r sel) d s
      else .stop .fault s := by
  have hmap := mapExc_readDesc acc (fun i c => .exc i (c + k.ext)) sel s
  rw [hd] at hmap
  by_cases h1 : Spec.InTable s.r sel
  · rw [if_neg (by rw [outside_iff _ _ hf]; exact fun h => h h1)] at hmap
    rw [if_neg (fun h => h h1)]
    by_cases h2 : acc s (Spec.descAddr s.r sel) 8 false 2 = true
    · rw [if_pos h2] at hmap
      rw [codeChecks.eq_1, bind_of_ok hmap, if_pos h2, codeTail_run acc k idx code cr2 s g sel _ d ha]
    · rw [if_neg h2] at hmap
      rw [codeChecks.eq_1, bind_of_stop hmap, if_neg h2]
  · rw [if_pos (by rw [outside_iff _ _ hf]; exact h1)] at hmap
    rw [codeChecks.eq_1, bind_of_stop hmap, if_pos h1, ext_eq]

/-- An event whose gate is outside the IDT, is no interrupt or trap gate, is not open to the program that executes INT n, is not
present or has a null selector raises the documented exception instead, and changes nothing.  (A task gate stops the cpu: task
switches are not implemented.) -/
theorem C74_bad_gate (acc : Acc) (k : Kind) (idx : Nat) (code : BitVec 16) (cr2 : BitVec 32) (s : Cpu) (ha : AgreeCore s.r)
    (hm : mode s.r = .prot) (ht : Spec.gateKind (gateAt s idx) ≠ 5#5) (v : Nat) (c : BitVec 16)
    (h : gateFault s (k.intn != 0) idx = some (v, c)) :
    deliver acc k idx code cr2 s = .stop (.exc v c) s ∨
    (deliver acc k idx code cr2 s = .stop .fault s ∧ acc s (s.r.idtBase + BitVec.ofNat 32 (idx * 8)) 8 false 2 = false) := by
  rw [deliver_prot (prot_of ha hm), deliverIdt_eq, bind_getR, bind_check, bind_rd, ext_eq]
  have hg : BitVec.ofNat 64 (load s.mem (s.r.idtBase + BitVec.ofNat 32 (idx * 8)) 8) = gateAt s idx := rfl
  rw [hg, gateChecks_run acc k idx code cr2 s _ ha ht]
  unfold gateFault at h
  generalize gateAt s idx = g at *
  generalize (k.intn != 0) = sw at *
  by_cases h0 : s.r.idtLimit.toNat < idx * 8 + 7
  · rw [if_pos h0] at h
    cases h
    exact .inl (if_pos (decide_eq_true h0))
  rw [if_neg h0] at h
  rw [if_neg (by rw [decide_eq_true_eq]; exact h0)]
  by_cases hacc : acc s (s.r.idtBase + BitVec.ofNat 32 (idx * 8)) 8 false 2 = true
  · rw [if_pos hacc]
    left
    split at h
    · rw [if_pos ‹_›]; cases h; rfl
    rw [if_neg ‹_›]
    split at h
    · rw [if_pos ‹_›]; cases h; rfl
    rw [if_neg ‹_›]
    split at h
    · rw [if_pos ‹_›]; cases h; rfl
    rw [if_neg ‹_›]
    split at h
    · rw [if_pos ‹_›]; cases h; rfl
    · cases h
  · exact .inr ⟨if_neg hacc, by simpa using hacc⟩

/-- With a good gate, a handler whose code segment is outside its table, less privileged than the program or not present raises
the documented exception instead, and nothing changes.  Missing: that the segment is a code segment
(`C74_data_violation`), and tables that reach the end of the linear address space (`C35_wrap_violation`). -/
theorem C74_bad_handler_partial (acc : Acc) (k : Kind) (idx : Nat) (code : BitVec 16) (cr2 : BitVec 32) (s : Cpu) (ha : AgreeCore s.r)
    (hm : mode s.r = .prot) (ht : Spec.gateKind (gateAt s idx) ≠ 5#5) (hf : Spec.TableFits s.r (gateSel (gateAt s idx)))
    (hg : gateFault s (k.intn != 0) idx = none) (v : Nat) (c : BitVec 16)
    (h : handlerFault s (k.intn != 0) (gateSel (gateAt s idx)) = some (v, c)) :
    deliver acc k idx code cr2 s = .stop (.exc v c) s ∨
    (deliver acc k idx code cr2 s = .stop .fault s ∧
      (acc s (s.r.idtBase + BitVec.ofNat 32 (idx * 8)) 8 false 2 = false ∨
       acc s (Spec.descAddr s.r (gateSel (gateAt s idx))) 8 false 2 = false)) := by
  rw [deliver_prot (prot_of ha hm), deliverIdt_eq, bind_getR, bind_check, bind_rd, ext_eq]
  have hgg : BitVec.ofNat 64 (load s.mem (s.r.idtBase + BitVec.ofNat 32 (idx * 8)) 8) = gateAt s idx := rfl
  rw [hgg, gateChecks_run acc k idx code cr2 s _ ha ht, codeChecks_run acc k idx code cr2 s _ _ ha hf _ rfl]
  unfold gateFault at hg
  unfold handlerFault at h
  generalize Spec.descAt s (gateSel (gateAt s idx)) = d at *
  generalize gateAt s idx = g at *
  generalize (k.intn != 0) = sw at *
  split at hg
  · cases hg
  rename_i h0
  rw [if_neg (by rw [decide_eq_true_eq]; exact h0)]
  by_cases hacc : acc s (s.r.idtBase + BitVec.ofNat 32 (idx * 8)) 8 false 2 = true
  case neg => exact .inr ⟨if_neg hacc, .inl (by simpa using hacc)⟩
  rw [if_pos hacc]
  split at hg
  · cases hg
  rw [if_neg ‹_›]
  split at hg
  · cases hg
  rw [if_neg ‹_›]
  split at hg
  · cases hg
  rw [if_neg ‹_›]
  split at hg
  · cases hg
  rw [if_neg ‹_›]
  split at h
  · rw [if_pos ‹_›]; cases h; exact .inl rfl
  rw [if_neg ‹_›]
  by_cases hacc2 : acc s (Spec.descAddr s.r (gateSel g)) 8 false 2 = true
  · rw [if_pos hacc2]
    left
    split at h
    · rw [if_pos ‹_›]; cases h; rfl
    rw [if_neg ‹_›]
    split at h
    · rw [if_pos ‹_›]; cases h; rfl
    · cases h
  · exact .inr ⟨if_neg hacc2, .inr (by simpa using hacc2)⟩

/-- What is delivered passed the checks: in particular INT n reaches a handler only through a gate whose DPL lets the program
use it, and a handler is never less privileged than the program. -/
theorem C74_delivered (acc : Acc) (k : Kind) (idx : Nat) (code : BitVec 16) (cr2 : BitVec 32) (s s1 : Cpu) (ha : AgreeCore s.r)
    (hm : mode s.r = .prot) (ht : Spec.gateKind (gateAt s idx) ≠ 5#5) (hf : Spec.TableFits s.r (gateSel (gateAt s idx)))
    (h : deliver acc k idx code cr2 s = .ok () s1) :
    gateFault s (k.intn != 0) idx = none ∧ handlerFault s (k.intn != 0) (gateSel (gateAt s idx)) = none := by
  have hg : gateFault s (k.intn != 0) idx = none := by
    cases hh : gateFault s (k.intn != 0) idx with
    | none => rfl
    | some p =>
      rcases C74_bad_gate acc k idx code cr2 s ha hm ht p.1 p.2 hh with h' | ⟨h', -⟩ <;> rw [h] at h' <;> cases h'
  refine ⟨hg, ?_⟩
  cases hh : handlerFault s (k.intn != 0) (gateSel (gateAt s idx)) with
  | none => rfl
  | some p =>
    rcases C74_bad_handler_partial acc k idx code cr2 s ha hm ht hf hg p.1 p.2 hh with h' | ⟨h', -⟩ <;> rw [h] at h' <;> cases h'

namespace EventP
open SegP
/-- Vector 4 is a gate to the data segment 0x10. -/
def dataGate : Cpu := ⟨kprog.r, fun a => if a = 0x1022#32 then 0x10#8 else mem a⟩
end EventP
open EventP SegP

/-- A gate to a data segment is accepted: the handler runs with a data segment in CS. -/
theorem C74_data_violation : Spec.isCode (Spec.descAt dataGate 0x10#16) = false ∧ gateSel (gateAt dataGate 4) = 0x10#16 ∧
    okWith (fun r => r.cs.sel == 0x10#16 && r.eip == 0x5678#32) (deliver allOk ⟨3, false⟩ 4 0#16 0#32 dataGate) = true := by
  refine ⟨?_, ?_, ?_⟩ <;> decide +kernel

-- The user program executes INT 13, whose gate has DPL 0; vector 5 is no gate; vector 300 is outside; vector 3 is open to it.
example : gateFault prog true 13 = some (13, 0x6A#16) ∧ gateFault prog false 5 = some (13, 0x2B#16) ∧
    gateFault ⟨{ prog.r with idtLimit := 0x6E#32 }, prog.mem⟩ false 13 = some (13, 0x6B#16) ∧
    gateFault prog true 3 = none ∧ handlerFault prog true (gateSel (gateAt prog 3)) = none := by
  refine ⟨?_, ?_, ?_, ?_, ?_⟩ <;> decide +kernel
-- A handler in the user code segment, from the kernel.
example : handlerFault kprog false 0x23#16 = some (13, 0x21#16) ∧ Spec.TableFits kprog.r 0x23#16 := by
  refine ⟨by decide +kernel, ?_⟩
  unfold Spec.TableFits; decide

end Verif.Seg
