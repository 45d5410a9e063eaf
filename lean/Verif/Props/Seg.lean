import Verif.Lemmas.Seg
import Verif.Lemmas.ModeStep
import Verif.Props.Mode
/-
C35, C36: decoding segment descriptors and loading segment registers in protected mode.
-/
namespace Verif.Seg
open Guest (load store)
open Spec (AgreeCore mode level InTable TableFits nullSel errOf descAt descAddr StackSeg Readable DataPriv Holds
  TooPrivileged)

theorem prot_of {r : Regs} (h : AgreeCore r) (hm : mode r = .prot) : Prot false r :=
  prot_of_coherent ((coherent_false r).2 ⟨h, fun h0 => by unfold mode at hm; rw [if_pos h0] at hm; cases hm⟩) hm

theorem instr_load (acc : Acc) (s : Cpu) (i : SR) (sel : BitVec 16) (h : AgreeCore s.r) (hm : mode s.r = .prot)
    (hi : i ≠ .cs) : instr acc (.loadSeg i sel) s = movSelPe acc i sel s := by
  cases i <;> first
    | exact absurd rfl hi
    | (show (if peNotVm s.r = true then _ else _ : M Unit) s = _
       rw [peNotVm_prot (prot_of h hm), if_pos rfl])

/-- The end of a load: set the accessed bit and cache the descriptor. -/
def loadEnd (acc : Acc) (i : SR) (sel : BitVec 16) (a : BitVec 32) (d : BitVec 64) : M Unit :=
  setAccessed acc d a >>= fun _ => loadDesc i sel d

theorem movSel_ss (acc : Acc) (sel : BitVec 16) : movSelPe acc .ss sel =
    (checkSs acc sel none >>= fun p => loadEnd acc .ss sel p.1 p.2) := rfl
theorem movSel_data (acc : Acc) (i : SR) (sel : BitVec 16) (hi : i ≠ .ss) : movSelPe acc i sel =
    (if isNull sel = true then modR (writeSeg i 0#16 0#32 0#32 0#32) else
    (checkSeg acc sel >>= fun p => loadEnd acc i sel p.1 p.2)) := by
  cases i <;> first | rfl | exact absurd rfl hi

theorem loadEnd_ok {acc : Acc} {i : SR} {sel : BitVec 16} {a : BitVec 32} {d : BitVec 64} {s s' : Cpu} {u : Unit}
    (h : loadEnd acc i sel a d s = .ok u s') :
    s'.r = writeSeg i sel (descBase d) (descLimit d) (descFlags d) s.r := by
  obtain ⟨_, s1, h1, h2⟩ := bind_ok.1 h
  have := modR_ok.1 h2
  rw [this, (setAccessed_ok h1).1]

theorem loadEnd_stop {acc : Acc} {i : SR} {sel : BitVec 16} {a : BitVec 32} {d : BitVec 64} {s s' : Cpu} {e : Stop}
    (h : loadEnd acc i sel a d s = .stop e s') : s' = s ∧ e = .fault := by
  rcases bind_stop.1 h with h1 | ⟨_, s1, h1, h2⟩
  · exact setAccessed_stop h1
  · cases h2

theorem loadEnd_total (acc : Acc) (i : SR) (sel : BitVec 16) (a : BitVec 32) (d : BitVec 64) (s : Cpu)
    (h : acc s a 8 true 2 = true) : ∃ s', loadEnd acc i sel a d s = .ok () s' := by
  cases hr : loadEnd acc i sel a d s with
  | ok u s' => exact ⟨s', rfl⟩
  | stop e s' =>
    rcases bind_stop.1 hr with h1 | ⟨_, s1, h1, h2⟩
    · unfold setAccessed at h1
      split at h1
      · unfold wr at h1; rw [if_pos h] at h1; cases h1
      · cases h1
    · cases h2

theorem writeSeg_get (i : SR) (sel : BitVec 16) (b l f : BitVec 32) (r : Regs) :
    (writeSeg i sel b l f r).get i = ⟨sel, b, l, f⟩ := by cases i <;> rfl
theorem writeSeg_get_ne (i j : SR) (sel : BitVec 16) (b l f : BitVec 32) (r : Regs) (h : j ≠ i) :
    (writeSeg i sel b l f r).get j = r.get j := by
  cases i <;> cases j <;> first | rfl | exact absurd rfl h

theorem holds_write (i : SR) (sel : BitVec 16) (d : BitVec 64) (r : Regs) :
    Holds ((writeSeg i sel (descBase d) (descLimit d) (descFlags d) r).get i) sel d := by
  rw [writeSeg_get]
  exact ⟨rfl, descBase_eq d, descLimit_eq d, descFlags_eq d⟩

instance (d : BitVec 64) : Decidable (Readable d) := by unfold Readable; infer_instance

/-- What follows a result. -/
def Res.andThen {α β : Type} : Res α → (α → M β) → Res β
  | .ok a s, f => f a s
  | .stop e s, _ => .stop e s
theorem bind_run {α β : Type} (m : M α) (f : α → M β) (s : Cpu) : (m >>= f) s = (m s).andThen f := by
  show (match m s with | .ok a s' => f a s' | .stop e s' => .stop e s') = _
  cases m s <;> rfl
theorem andThen_ok {α β : Type} (a : α) (s : Cpu) (f : α → M β) : (Res.ok a s).andThen f = f a s := rfl
theorem andThen_stop {α β : Type} (e : Stop) (s : Cpu) (f : α → M β) : (Res.stop e s : Res α).andThen f = .stop e s := rfl

theorem load_ss (acc : Acc) (s : Cpu) (sel : BitVec 16) {d : BitVec 64} (hd : descAt s sel = d) (h : AgreeCore s.r) :
    movSelPe acc .ss sel s =
      if nullSel sel then .stop (.exc 13 0#16) s
      else if outside s.r sel then .stop (.exc 13 (errOf sel)) s
      else if acc s (descAddr s.r sel) 8 false 2 = true then
          if StackSeg sel d (level s.r) then
            if Spec.present d = true then loadEnd acc .ss sel (descAddr s.r sel) d s
            else .stop (.exc 12 (errOf sel)) s
          else .stop (.exc 13 (errOf sel)) s
      else .stop .fault s := by
  have e := checkSs_eq acc sel (level s.r) s hd none (by rw [Option.getD_none]; exact cpl_level h)
  rw [movSel_ss]
  rw [bind_run, e]
  by_cases h1 : nullSel sel
  · simp only [if_pos h1, andThen_ok, andThen_stop]
  · simp only [if_neg h1, andThen_ok, andThen_stop]
    by_cases h2 : outside s.r sel
    · simp only [if_pos h2, andThen_ok, andThen_stop]
    · simp only [if_neg h2, andThen_ok, andThen_stop]
      by_cases h3 : acc s (descAddr s.r sel) 8 false 2 = true
      · simp only [if_pos h3, andThen_ok, andThen_stop]
        by_cases h4 : StackSeg sel d (level s.r)
        · simp only [if_pos h4, andThen_ok, andThen_stop]
          by_cases h5 : Spec.present d = true
          · simp only [if_pos h5, andThen_ok, andThen_stop]
          · simp only [if_neg h5, andThen_ok, andThen_stop]
        · simp only [if_neg h4, andThen_ok, andThen_stop]
      · simp only [if_neg h3, andThen_ok, andThen_stop]

theorem load_data (acc : Acc) (s : Cpu) (i : SR) (sel : BitVec 16) {d : BitVec 64} (hd : descAt s sel = d) (h : AgreeCore s.r) (hi : i ≠ .ss) (hn : ¬ nullSel sel) :
    movSelPe acc i sel s =
      if outside s.r sel then .stop (.exc 13 (errOf sel)) s
      else if acc s (descAddr s.r sel) 8 false 2 = true then
        if Readable d then
          if Spec.weakPriv sel d (level s.r) then
            if Spec.present d = true then loadEnd acc i sel (descAddr s.r sel) d s
            else .stop (.exc 11 (errOf sel)) s
          else .stop (.exc 13 (errOf sel)) s
        else .stop (.exc 13 (errOf sel)) s
      else .stop .fault s := by
  have e := checkSeg_eq acc sel (level s.r) s hd (cpl_level h)
  have hn' : ¬ isNull sel = true := fun hh => hn ((isNull_iff sel).1 hh)
  rw [movSel_data acc i sel hi, if_neg hn']
  rw [bind_run, e]
  by_cases h2 : outside s.r sel
  · simp only [if_pos h2, andThen_ok, andThen_stop]
  · simp only [if_neg h2, andThen_ok, andThen_stop]
    by_cases h3 : acc s (descAddr s.r sel) 8 false 2 = true
    · simp only [if_pos h3, andThen_ok, andThen_stop]
      by_cases hs : Spec.isSeg d = true
      · rw [if_pos hs]
        by_cases h4 : Spec.isCode d = true ∧ Spec.rw d = false
        · rw [if_pos h4, if_neg (fun hh : Readable d => by have := hh.2 h4.1; rw [this] at h4; cases h4.2)]
          rfl
        · rw [if_neg h4]
          have h4' : Readable d := ⟨hs, by
            intro hc; cases hr : Spec.rw d with
            | true => rfl
            | false => exact absurd ⟨hc, hr⟩ h4⟩
          rw [if_pos h4']
          by_cases h5 : Spec.weakPriv sel d (level s.r)
          · simp only [if_pos h5]
            by_cases h6 : Spec.present d = true
            · simp only [if_pos h6, andThen_ok]
            · simp only [if_neg h6, andThen_stop]
          · simp only [if_neg h5, andThen_stop]
      · rw [if_neg hs, if_neg (fun hh : Readable d => hs hh.1)]; rfl
    · simp only [if_neg h3, andThen_ok, andThen_stop]

theorem instr_cs (acc : Acc) (s : Cpu) (sel : BitVec 16) : instr acc (.loadSeg .cs sel) s = .stop (.exc 6 0#16) s := rfl

/-- What a successful load of a non-null selector has checked. -/
theorem load_success (acc : Acc) (s s' : Cpu) (i : SR) (sel : BitVec 16) {d : BitVec 64} (hd : descAt s sel = d) (h : AgreeCore s.r) (hm : mode s.r = .prot)
    (hn : ¬ nullSel sel) (hr : instr acc (.loadSeg i sel) s = .ok () s') :
    ¬ outside s.r sel ∧ Spec.present d = true ∧
      (i = .ss → StackSeg sel d (level s.r)) ∧
      (i ≠ .ss → Readable d ∧ Spec.weakPriv sel d (level s.r)) ∧
      loadEnd acc i sel (descAddr s.r sel) d s = .ok () s' := by
  have hi : i ≠ .cs := by rintro rfl; cases hr
  rw [instr_load acc s i sel h hm hi] at hr
  by_cases hss : i = .ss
  · subst hss
    rw [load_ss acc s sel hd h, if_neg hn] at hr
    by_cases h2 : outside s.r sel
    · rw [if_pos h2] at hr; cases hr
    rw [if_neg h2] at hr
    by_cases h3 : acc s (descAddr s.r sel) 8 false 2 = true
    · rw [if_pos h3] at hr
      by_cases h4 : StackSeg sel d (level s.r)
      · rw [if_pos h4] at hr
        by_cases h5 : Spec.present d = true
        · rw [if_pos h5] at hr
          exact ⟨h2, h5, fun _ => h4, fun hne => absurd rfl hne, hr⟩
        · rw [if_neg h5] at hr; cases hr
      · rw [if_neg h4] at hr; cases hr
    · rw [if_neg h3] at hr; cases hr
  · rw [load_data acc s i sel hd h hss hn] at hr
    by_cases h2 : outside s.r sel
    · rw [if_pos h2] at hr; cases hr
    rw [if_neg h2] at hr
    by_cases h3 : acc s (descAddr s.r sel) 8 false 2 = true
    · rw [if_pos h3] at hr
      by_cases h4 : Readable d
      · rw [if_pos h4] at hr
        by_cases h6 : Spec.weakPriv sel d (level s.r)
        · rw [if_pos h6] at hr
          by_cases h5 : Spec.present d = true
          · rw [if_pos h5] at hr
            exact ⟨h2, h5, fun hne => absurd hne hss, fun _ => ⟨h4, h6⟩, hr⟩
          · rw [if_neg h5] at hr; cases hr
        · rw [if_neg h6] at hr; cases hr
      · rw [if_neg h4] at hr; cases hr
    · rw [if_neg h3] at hr; cases hr

/-! C35 -/

/-- After a successful load of a non-null selector the register holds the selector and the base, limit
(scaled by the granularity bit) and access rights of the descriptor in the table, and no other segment
register changed. -/
theorem C35_cached (acc : Acc) (s s' : Cpu) (i : SR) (sel : BitVec 16) (h : AgreeCore s.r) (hm : mode s.r = .prot)
    (hn : ¬ nullSel sel) (hr : instr acc (.loadSeg i sel) s = .ok () s') :
    Holds (s'.r.get i) sel (descAt s sel) ∧ ∀ j, j ≠ i → s'.r.get j = s.r.get j := by
  have := (load_success acc s s' i sel rfl h hm hn hr).2.2.2.2
  rw [loadEnd_ok this]
  exact ⟨holds_write .., fun j hj => writeSeg_get_ne _ _ _ _ _ _ _ hj⟩

/-- A selector whose descriptor does not lie within the limit of its table raises #GP with the selector
and changes nothing, in a segment load, a far jump and a far call.  Missing: tables that reach the end of
the linear address space, where the check wraps around (`C35_wrap_violation`). -/
theorem C35_outside_partial (acc : Acc) (s : Cpu) (sel : BitVec 16) (h : AgreeCore s.r) (hm : mode s.r = .prot)
    (hn : ¬ nullSel sel) (hf : TableFits s.r sel) (ho : ¬ InTable s.r sel) :
    (∀ i, i ≠ .cs → instr acc (.loadSeg i sel) s = .stop (.exc 13 (errOf sel)) s) ∧
    (∀ k eip, instr acc (.farJmp sel k eip) s = .stop (.exc 13 (errOf sel)) s) ∧
    (∀ k eip ret, instr acc (.farCall sel k eip ret) s = .stop (.exc 13 (errOf sel)) s) := by
  have ho' := (outside_iff s.r sel hf).2 ho
  have hn' : isNull sel = false := by
    cases hh : isNull sel with
    | false => rfl
    | true => exact absurd ((isNull_iff sel).1 hh) hn
  have hp := peNotVm_prot (prot_of h hm)
  refine ⟨fun i hi => ?_, fun k eip => ?_, fun k eip ret => ?_⟩
  · rw [instr_load acc s i sel h hm hi]
    by_cases hss : i = .ss
    · subst hss; rw [load_ss acc s sel rfl h, if_neg hn, if_pos ho']
    · rw [load_data acc s i sel rfl h hss hn, if_pos ho']
  · show (if peNotVm s.r = true then _ else _ : M Unit) s = _
    rw [hp, if_pos rfl]
    unfold ljmpPe
    rw [bind_getR, bind_check, hn', if_neg (by simp), bind_readDesc, if_pos ho']
  · show (if peNotVm s.r = true then _ else _ : M Unit) s = _
    rw [hp, if_pos rfl]
    unfold lcallPe
    rw [bind_getR, bind_check, hn', if_neg (by simp), bind_readDesc, if_pos ho']

namespace SegP

/-- GDT at 0x2000: 0x08 flat code DPL 0, 0x10 data with base 0x12345678, limit 0xABCDE pages, DPL 0,
0x18 flat data DPL 3, 0x20 flat code DPL 3, 0x28 32 bit call gate to 8:0x12345678 DPL 3 without
parameters, 0x30 data not present, 0x38 execute-only code. -/
def gdt : Guest.Mem := ModeP.memOf
  [(0x2008, 0xFF), (0x2009, 0xFF), (0x200D, 0x9B), (0x200E, 0xCF),
   (0x2010, 0xDE), (0x2011, 0xBC), (0x2012, 0x78), (0x2013, 0x56), (0x2014, 0x34), (0x2015, 0x93), (0x2016, 0xCA),
   (0x2017, 0x12),
   (0x2018, 0xFF), (0x2019, 0xFF), (0x201D, 0xF3), (0x201E, 0xCF),
   (0x2020, 0xFF), (0x2021, 0xFF), (0x2025, 0xFB), (0x2026, 0xCF),
   (0x2028, 0x78), (0x2029, 0x56), (0x202A, 8), (0x202D, 0xEC), (0x202E, 0x34), (0x202F, 0x12),
   (0x2035, 0x13), (0x203D, 0x99)]

/-- A kernel with that GDT. -/
def kern : Cpu := ⟨{ ModeP.kernel with gdtLimit := 0x3F#32 }, gdt⟩
/-- A user program with that GDT. -/
def user : Cpu := ⟨{ ModeP.kernel with
  gdtLimit := 0x3F#32
  cs := ⟨0x23#16, 0#32, 0xFFFFFFFF#32, 0xCFFB00#32⟩
  ss := ⟨0x1B#16, 0#32, 0xFFFFFFFF#32, 0xCFF300#32⟩
  hflags := 0x1E0001F#32 }, gdt⟩

/-- Every access is allowed. -/
def allOk : Acc := fun _ _ _ _ _ => true

/-- Does a run complete in a register state with a property? -/
def okWith (p : Regs → Bool) : Res Unit → Bool
  | .ok _ s => p s.r
  | _ => false

theorem kern_core : AgreeCore kern.r ∧ mode kern.r = .prot ∧ level kern.r = 0#2 := by
  refine ⟨?_, by decide, by decide⟩; constructor <;> decide
theorem user_core : AgreeCore user.r ∧ mode user.r = .prot ∧ level user.r = 3#2 := by
  refine ⟨?_, by decide, by decide⟩; constructor <;> decide

end SegP
open SegP

-- A load of descriptor 0x10 succeeds and caches base 0x12345678, limit 0xABCDEFFF.
example : okWith (fun r => r.ds.base == 0x12345678#32 && r.ds.limit == 0xABCDEFFF#32)
    (instr allOk (.loadSeg .ds 0x10#16) kern) = true ∧ ¬ nullSel 0x10#16 := by
  refine ⟨by decide +kernel, by decide⟩
-- Selector 0x40 is outside the table, selector 0x38 inside.
example : TableFits kern.r 0x40#16 ∧ ¬ InTable kern.r 0x40#16 ∧ ¬ nullSel 0x40#16 ∧ InTable kern.r 0x38#16 := by
  unfold TableFits InTable; decide

/-- The check of the table limit wraps around the linear address space: with the GDT at 0xFFFFF000 and
limit 0xFFF, selector 0x2008 (far beyond the limit) loads a descriptor from address 0x1008; with the GDT
at 0xFFFFFF00 and limit 0xFFFF the valid selector 0x10 raises #GP. -/
theorem C35_wrap_violation :
    (let s : Cpu := ⟨{ kern.r with gdtBase := 0xFFFFF000#32, gdtLimit := 0xFFF#32 },
        ModeP.memOf [(0x1008, 0xFF), (0x1009, 0xFF), (0x100D, 0x93), (0x100E, 0xCF)]⟩
     ¬ InTable s.r 0x2008#16 ∧ okWith (fun r => r.ds.sel == 0x2008#16) (instr allOk (.loadSeg .ds 0x2008#16) s) = true) ∧
    (let s : Cpu := ⟨{ kern.r with gdtBase := 0xFFFFFF00#32, gdtLimit := 0xFFFF#32 },
        ModeP.memOf [(0xFFFFFF10, 0xFF), (0xFFFFFF11, 0xFF), (0xFFFFFF15, 0x93), (0xFFFFFF16, 0xCF)]⟩
     InTable s.r 0x10#16 ∧ Readable (descAt s 0x10#16) ∧ Spec.present (descAt s 0x10#16) = true ∧
     okWith (fun _ => true) (instr allOk (.loadSeg .ds 0x10#16) s) = false) := by
  refine ⟨⟨by unfold InTable; decide, by decide +kernel⟩, ⟨by unfold InTable; decide, by decide +kernel, by decide +kernel, by decide +kernel⟩⟩

/-! C36 -/

/-- A load of SS in protected mode succeeds only if the selector is not null, RPL = DPL = CPL and the
descriptor is a present, writable data segment; a rejected null selector raises #GP(0). -/
theorem C36_ss (acc : Acc) (s s' : Cpu) (sel : BitVec 16) (h : AgreeCore s.r) (hm : mode s.r = .prot)
    (hr : instr acc (.loadSeg .ss sel) s = .ok () s') :
    ¬ nullSel sel ∧ StackSeg sel (descAt s sel) (level s.r) ∧ Spec.present (descAt s sel) = true := by
  have hn : ¬ nullSel sel := by
    intro hn
    rw [instr_load acc s .ss sel h hm (by intro h; cases h), load_ss acc s sel rfl h, if_pos hn] at hr
    cases hr
  have := load_success acc s s' .ss sel rfl h hm hn hr
  exact ⟨hn, this.2.2.1 rfl, this.2.1⟩

/-- Conversely, a valid stack segment whose descriptor is accessible is loaded, and an invalid one raises
#GP, or #SS if only not present. -/
theorem C36_ss_accept (acc : Acc) (s : Cpu) (sel : BitVec 16) (h : AgreeCore s.r) (hm : mode s.r = .prot)
    (hn : ¬ nullSel sel) (hf : TableFits s.r sel) (hi : InTable s.r sel)
    (hrd : acc s (descAddr s.r sel) 8 false 2 = true) (hwr : acc s (descAddr s.r sel) 8 true 2 = true) :
    (StackSeg sel (descAt s sel) (level s.r) → Spec.present (descAt s sel) = true →
      ∃ s', instr acc (.loadSeg .ss sel) s = .ok () s') ∧
    (¬ StackSeg sel (descAt s sel) (level s.r) → instr acc (.loadSeg .ss sel) s = .stop (.exc 13 (errOf sel)) s) ∧
    (StackSeg sel (descAt s sel) (level s.r) → Spec.present (descAt s sel) = false →
      instr acc (.loadSeg .ss sel) s = .stop (.exc 12 (errOf sel)) s) := by
  have ho : ¬ outside s.r sel := fun ho => (outside_iff s.r sel hf).1 ho hi
  rw [instr_load acc s .ss sel h hm (by intro h; cases h)]
  generalize hd : descAt s sel = d
  rw [load_ss acc s sel hd h, if_neg hn, if_neg ho, if_pos hrd]
  refine ⟨fun h1 h2 => ?_, fun h1 => ?_, fun h1 h2 => ?_⟩
  · rw [if_pos h1, if_pos h2]; exact loadEnd_total _ _ _ _ _ _ hwr
  · rw [if_neg h1]
  · rw [if_pos h1, if_neg (by rw [h2]; simp)]

/-- A load of DS, ES, FS or GS with a non-null selector succeeds only for a present readable segment for
which RPL or CPL is at most the DPL (or conforming code).  Missing: both RPL and CPL must be
(`C36_data_violation`). -/
theorem C36_data_partial (acc : Acc) (s s' : Cpu) (i : SR) (sel : BitVec 16) (h : AgreeCore s.r) (hm : mode s.r = .prot)
    (hn : ¬ nullSel sel) (hi : i ≠ .ss) (hr : instr acc (.loadSeg i sel) s = .ok () s') :
    Readable (descAt s sel) ∧ Spec.present (descAt s sel) = true ∧
    ((Spec.isCode (descAt s sel) = true ∧ Spec.conforming (descAt s sel) = true) ∨
      Spec.rpl sel ≤ Spec.dpl (descAt s sel) ∨ level s.r ≤ Spec.dpl (descAt s sel)) ∧
    (Spec.rpl sel = level s.r → DataPriv sel (descAt s sel) (level s.r)) := by
  have := load_success acc s s' i sel rfl h hm hn hr
  obtain ⟨h1, h2⟩ := this.2.2.2.1 hi
  refine ⟨h1, this.2.1, h2, fun he => ?_⟩
  rcases h2 with h2 | h2 | h2
  · exact .inl h2
  · exact .inr ⟨h2, he ▸ h2⟩
  · exact .inr ⟨he.symm ▸ h2, h2⟩

/-- Conversely, every segment with sufficient privilege is loaded; a segment that is not readable raises
#GP, one that is not present #NP. -/
theorem C36_data_accept (acc : Acc) (s : Cpu) (i : SR) (sel : BitVec 16) (h : AgreeCore s.r) (hm : mode s.r = .prot)
    (hn : ¬ nullSel sel) (hs : i ≠ .ss) (hc : i ≠ .cs) (hf : TableFits s.r sel) (hi : InTable s.r sel)
    (hrd : acc s (descAddr s.r sel) 8 false 2 = true) (hwr : acc s (descAddr s.r sel) 8 true 2 = true) :
    (Readable (descAt s sel) → DataPriv sel (descAt s sel) (level s.r) → Spec.present (descAt s sel) = true →
      ∃ s', instr acc (.loadSeg i sel) s = .ok () s') ∧
    (¬ Readable (descAt s sel) → instr acc (.loadSeg i sel) s = .stop (.exc 13 (errOf sel)) s) ∧
    (Readable (descAt s sel) → DataPriv sel (descAt s sel) (level s.r) → Spec.present (descAt s sel) = false →
      instr acc (.loadSeg i sel) s = .stop (.exc 11 (errOf sel)) s) := by
  have ho : ¬ outside s.r sel := fun ho => (outside_iff s.r sel hf).1 ho hi
  rw [instr_load acc s i sel h hm hc]
  generalize hd : descAt s sel = d
  have hw : DataPriv sel d (level s.r) → Spec.weakPriv sel d (level s.r) := by
    rintro (h | h)
    · exact .inl h
    · exact .inr (.inl h.1)
  rw [load_data acc s i sel hd h hs hn, if_neg ho, if_pos hrd]
  refine ⟨fun h1 h2 h3 => ?_, fun h1 => ?_, fun h1 h2 h3 => ?_⟩
  · rw [if_pos h1, if_pos (hw h2), if_pos h3]; exact loadEnd_total _ _ _ _ _ _ hwr
  · rw [if_neg h1]
  · rw [if_pos h1, if_pos (hw h2), if_neg (by rw [h3]; simp)]

/-- A segment load that raises an exception changes neither registers nor memory (all modes). -/
theorem C36_atomic (acc : Acc) (s s' : Cpu) (i : SR) (sel : BitVec 16) (e : Stop) (h : AgreeCore s.r)
    (hr : instr acc (.loadSeg i sel) s = .stop e s') : s' = s := by
  by_cases hm : mode s.r = .prot
  · by_cases hc : i = .cs
    · subst hc; cases hr; rfl
    rw [instr_load acc s i sel h hm hc] at hr
    by_cases hss : i = .ss
    · subst hss
      generalize hd : descAt s sel = d at hr
      rw [load_ss acc s sel hd h] at hr
      by_cases h1 : nullSel sel
      · rw [if_pos h1] at hr; cases hr; rfl
      rw [if_neg h1] at hr
      by_cases h2 : outside s.r sel
      · rw [if_pos h2] at hr; cases hr; rfl
      rw [if_neg h2] at hr
      by_cases h3 : acc s (descAddr s.r sel) 8 false 2 = true
      · rw [if_pos h3] at hr
        by_cases h4 : StackSeg sel d (level s.r)
        · rw [if_pos h4] at hr
          by_cases h5 : Spec.present d = true
          · rw [if_pos h5] at hr; exact (loadEnd_stop hr).1
          · rw [if_neg h5] at hr; cases hr; rfl
        · rw [if_neg h4] at hr; cases hr; rfl
      · rw [if_neg h3] at hr; cases hr; rfl
    · by_cases hn : nullSel sel
      · rw [movSel_data acc i sel hss, if_pos ((isNull_iff sel).2 hn)] at hr; cases hr
      generalize hd : descAt s sel = d at hr
      rw [load_data acc s i sel hd h hss hn] at hr
      by_cases h2 : outside s.r sel
      · rw [if_pos h2] at hr; cases hr; rfl
      rw [if_neg h2] at hr
      by_cases h3 : acc s (descAddr s.r sel) 8 false 2 = true
      · rw [if_pos h3] at hr
        by_cases h4 : Readable d
        · rw [if_pos h4] at hr
          by_cases h6 : Spec.weakPriv sel d (level s.r)
          · rw [if_pos h6] at hr
            by_cases h5 : Spec.present d = true
            · rw [if_pos h5] at hr; exact (loadEnd_stop hr).1
            · rw [if_neg h5] at hr; cases hr; rfl
          · rw [if_neg h6] at hr; cases hr; rfl
        · rw [if_neg h4] at hr; cases hr; rfl
      · rw [if_neg h3] at hr; cases hr; rfl
  · have hp : peNotVm s.r = false := by
      cases hp : peNotVm s.r with
      | false => rfl
      | true =>
        exfalso; apply hm
        unfold peNotVm at hp
        simp only [Bool.and_eq_true, bne_iff_ne, ne_eq] at hp
        have h1 := (and_ne_zero_bit s.r.hflags H_PE 4 (by omega) rfl).1 hp.1
        have h2 : ¬ (s.r.eflags &&& 0x20000#32 ≠ 0#32) := by simpa using hp.2
        rw [and_ne_zero_bit s.r.eflags 0x20000#32 17 (by omega) rfl] at h2
        rw [h.pe] at h1
        unfold mode
        simp [h1, h2]
    cases i <;> first
      | (cases hr; rfl)
      | (change (if peNotVm s.r = true then _ else _ : M Unit) s = _ at hr
         rw [hp, if_neg (by simp)] at hr
         cases hr)

/-- A program at CPL 3 loads DS with a data segment of DPL 0 through a selector with RPL 0. -/
theorem C36_data_violation : AgreeCore user.r ∧ mode user.r = .prot ∧
    okWith (fun r => r.ds.sel == 0x10#16) (instr allOk (.loadSeg .ds 0x10#16) user) = true ∧
    ¬ DataPriv 0x10#16 (descAt user 0x10#16) (level user.r) := by
  refine ⟨user_core.1, user_core.2.1, by decide +kernel, ?_⟩
  have : (Spec.isCode (descAt user 0x10#16), Spec.dpl (descAt user 0x10#16)) = (false, 0#2) := by decide +kernel
  rintro (h | h)
  · rw [(Prod.mk.inj this).1] at h; cases h.1
  · rw [(Prod.mk.inj this).2, user_core.2.2] at h; exact absurd h.2 (by decide)

-- Valid and invalid loads exist: SS = 0x1B at CPL 3; SS = 0x18 (wrong RPL), DS = 0x38 (execute only), DS = 0x30
-- (not present) are rejected.
example : okWith (fun r => r.ss.sel == 0x1B#16) (instr allOk (.loadSeg .ss 0x1B#16) user) = true ∧
    okWith (fun _ => true) (instr allOk (.loadSeg .ss 0x18#16) user) = false ∧
    okWith (fun _ => true) (instr allOk (.loadSeg .ds 0x38#16) kern) = false ∧
    okWith (fun _ => true) (instr allOk (.loadSeg .ds 0x30#16) kern) = false := by
  refine ⟨?_, ?_, ?_, ?_⟩ <;> decide +kernel

end Verif.Seg
