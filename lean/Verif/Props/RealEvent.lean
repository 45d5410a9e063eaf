import Verif.Spec.RealEvent
import Verif.Props.IretFlags
import Verif.Props.Gate
/- C80: events and IRET in real mode. -/
namespace Verif.Seg
open Spec
open Guest (load store load_store store_other load_congr load_lt)

theorem pushAll_mem {acc : Acc} {k p : Nat} {base mask : BitVec 32} :
    ∀ (vs : List (BitVec 32)) {sp sp' : BitVec 32} {s s' : Cpu},
    pushAll acc k base mask p vs sp s = .ok sp' s' →
    ∀ x : BitVec 32, (∀ i, i < vs.length → k ≤ (x - (base + ((sp' + BitVec.ofNat 32 (k * i)) &&& mask))).toNat) → s'.mem x = s.mem x := by
  intro vs
  induction vs with
  | nil => intro sp sp' s s' h x _; cases h; rfl
  | cons v vs ih =>
    intro sp sp' s s' h x hx
    unfold pushAll at h
    simp only [bind_ok] at h
    obtain ⟨sp1, s1, h1, h2⟩ := h
    obtain ⟨e1, r1, m1⟩ := pushRaw_ok h1
    rw [ih h2 x (fun i hi => hx i (by simp; omega)), m1]
    have hsp : ∀ (vs : List (BitVec 32)) {sp sp' : BitVec 32} {s s' : Cpu}, pushAll acc k base mask p vs sp s = .ok sp' s' →
        sp' + BitVec.ofNat 32 (k * vs.length) = sp := by
      intro vs
      induction vs with
      | nil => intro sp sp' s s' h; cases h; simp
      | cons v vs ih =>
        intro sp sp' s s' h
        unfold pushAll at h
        simp only [bind_ok] at h
        obtain ⟨sp1, s1, h1, h2⟩ := h
        obtain ⟨e1, -, -⟩ := pushRaw_ok h1
        have := ih h2
        simp only [List.length_cons]
        rw [Nat.mul_succ, BitVec.ofNat_add, ← BitVec.add_assoc, this, e1, BitVec.sub_add_cancel]
    apply store_other
    have := hx vs.length (by simp)
    rw [hsp vs h2] at this
    exact this

theorem pushAll_stop {acc : Acc} {k p : Nat} {base mask : BitVec 32} :
    ∀ (vs : List (BitVec 32)) {sp : BitVec 32} {s s' : Cpu} {e : Stop},
    pushAll acc k base mask p vs sp s = .stop e s' → e = .fault := by
  intro vs
  induction vs with
  | nil => intro sp s s' e h; cases h
  | cons v vs ih =>
    intro sp s s' e h
    unfold pushAll at h
    rcases bind_stop.1 h with h1 | ⟨_, _, _, h2⟩
    · unfold pushRaw at h1
      rcases bind_stop.1 h1 with h3 | ⟨_, _, _, h4⟩
      · unfold wr at h3
        split at h3
        · cases h3
        · cases h3; rfl
      · cases h4
    · exact ih h2

theorem load_split (m : Guest.Mem) (a : BitVec 32) : load m a 4 = load m a 2 + load m (a + 2#32) 2 * 65536 := by
  simp only [load, BitVec.add_assoc]
  have e : ∀ i : Nat, (2#32 : BitVec 32) + BitVec.ofNat 32 i = BitVec.ofNat 32 (2 + i) := fun i => by
    rw [BitVec.ofNat_add]
  rw [e 0, e 1]
  simp only [Nat.reduceAdd, Nat.reducePow]
  omega

/-- The registers after the delivery (vec: the table entry, sp: the stack pointer). -/
def realRegs (idx : Nat) (vec sp : BitVec 32) (r : Regs) : Regs :=
  let sel : BitVec 16 := (vec >>> 16).setWidth 16
  let base : BitVec 32 := sel.setWidth 32 <<< 4
  { r with
    eflags := r.eflags &&& ~~~0x50300#32
    esp := (r.esp &&& ~~~0xFFFF#32) ||| (sp &&& 0xFFFF#32)
    cs := { r.cs with sel := sel, base := base }
    eip := vec &&& 0xFFFF#32
    hflags := isZero base (zeroMask .cs) ||| (r.hflags &&& ~~~(zeroMask .cs))
    dr7 := if idx = 1 then r.dr7 &&& ~~~0x2000#32 else r.dr7 }

theorem deliverReal_eq (acc : Acc) (idx : Nat) : deliverReal acc idx = (getR >>= fun r =>
    check (decide (r.idtLimit.toNat < idx * 4 + 3)) (.exc GP (BitVec.ofNat 16 (idx * 8 + 2))) >>= fun _ =>
    rd acc (r.idtBase + BitVec.ofNat 32 (idx * 4)) 4 0 >>= fun v =>
    pushAll acc 2 r.ss.base 0xFFFF#32 0 [readEflags r, r.cs.sel.setWidth 32, r.eip] r.esp >>= fun sp =>
    modR (realRegs idx (BitVec.ofNat 32 v) sp)) := rfl

theorem deliver_real {acc : Acc} {k : Kind} {idx : Nat} {code : BitVec 16} {cr2 : BitVec 32} {s : Cpu} (ha : AgreeCore s.r)
    (hm : mode s.r = .real) : deliver acc k idx code cr2 s = deliverReal acc idx s := by
  have hp : s.r.cr0[0] = false := by
    unfold mode at hm
    by_cases h : s.r.cr0[0] = false
    · exact h
    · rw [if_neg h] at hm; split at hm <;> cases hm
  have hpe : ¬ (s.r.hflags &&& H_PE ≠ 0#32) := by
    rw [and_ne_zero_bit s.r.hflags H_PE 4 (by omega) rfl, ha.pe, hp]; simp
  unfold deliver
  rw [bind_getR, if_neg hpe]

theorem real_flagBits : ∀ j : Fin 32, (~~~0x50300#32 : BitVec 32)[j.val] =
    !decide (j.val = 8 ∨ j.val = 9 ∨ j.val = 16 ∨ j.val = 18) := by decide

theorem vec_low (x y : Nat) (hx : x < 65536) : (BitVec.ofNat 32 (x + y * 65536) &&& 0xFFFF#32).toNat = x := by
  rw [BitVec.toNat_and, BitVec.toNat_ofNat, show (0xFFFF#32 : BitVec 32).toNat = 2 ^ 16 - 1 from rfl, Nat.and_two_pow_sub_one_eq_mod]
  omega

theorem vec_high (x y : Nat) (hx : x < 65536) (hy : y < 65536) :
    ((BitVec.ofNat 32 (x + y * 65536) >>> 16 : BitVec 32).setWidth 16 : BitVec 16).toNat = y := by
  rw [BitVec.toNat_setWidth, BitVec.toNat_ushiftRight, BitVec.toNat_ofNat, Nat.shiftRight_eq_div_pow]
  omega

theorem sel_base (x : BitVec 16) : (x.setWidth 32 <<< 4 : BitVec 32).toNat = x.toNat * 16 := by
  rw [BitVec.toNat_shiftLeft, BitVec.toNat_setWidth, Nat.shiftLeft_eq]
  have := x.isLt
  omega

theorem mode_real_iff (r : Regs) : mode r = .real ↔ r.cr0[0] = false := by
  unfold mode
  by_cases h : r.cr0[0] = false
  · rw [if_pos h]; exact ⟨fun _ => h, fun _ => rfl⟩
  · rw [if_neg h]
    refine ⟨fun x => ?_, fun x => absurd x h⟩
    split at x <;> cases x

theorem stack32_real {r : Regs} (h : mode r = .real) : stack32 r = false := by
  unfold stack32; rw [h]; rfl

theorem esp_high16 (e sp : BitVec 32) : ((e &&& ~~~0xFFFF#32) ||| (sp &&& 0xFFFF#32)).extractLsb' 16 16 = e.extractLsb' 16 16 := by
  bits32

/-- C80: an event in real mode whose vector lies outside the interrupt table is #GP; otherwise it page faults or enters the handler
that the table names, with the frame FLAGS, CS, IP on the stack. The kind of event (interrupt, exception, INT n) makes no difference, and
no error code is pushed. -/
theorem C80_event (acc : Acc) (k : Kind) (idx : Nat) (code : BitVec 16) (cr2 : BitVec 32) (s : Cpu)
    (ha : AgreeCore s.r) (hm : mode s.r = .real) :
    (¬ InIvt s.r idx → ∃ c, deliver acc k idx code cr2 s = .stop (.exc 13 c) s) ∧
    (InIvt s.r idx → FaultOr (fun s1 => RealEntered s s1 idx) (deliver acc k idx code cr2 s)) := by
  rw [deliver_real ha hm, deliverReal_eq, bind_getR, bind_check]
  refine ⟨fun h => ?_, fun h => ?_⟩
  · rw [if_pos (show decide (s.r.idtLimit.toNat < idx * 4 + 3) = true by unfold InIvt at h; simpa using h)]
    exact ⟨_, rfl⟩
  rw [if_neg (show ¬ decide (s.r.idtLimit.toNat < idx * 4 + 3) = true by unfold InIvt at h; simpa using h), bind_rd]
  by_cases h1 : acc s (s.r.idtBase + BitVec.ofNat 32 (idx * 4)) 4 false 0 = true
  case neg => rw [if_neg h1]; trivial
  rw [if_pos h1]
  generalize hres : (pushAll acc 2 s.r.ss.base 0xFFFF#32 0 [readEflags s.r, s.r.cs.sel.setWidth 32, s.r.eip] s.r.esp >>= fun sp =>
    modR (realRegs idx (BitVec.ofNat 32 (load s.mem (s.r.idtBase + BitVec.ofNat 32 (idx * 4)) 4)) sp)) s = res
  cases res with
  | stop e s' =>
    rcases bind_stop.1 hres with hp | ⟨sp, sx, -, hx⟩
    · rw [pushAll_stop _ hp]; trivial
    · cases hx
  | ok u s1 =>
    obtain ⟨sp, sx, hpush, hx⟩ := bind_ok.1 hres
    have hs1 := modR_ok.1 hx
    have hpush' : pushAll acc 2 s.r.ss.base (stackMask false) 0 [readEflags s.r, s.r.cs.sel.setWidth 32, s.r.eip] s.r.esp s = .ok sp sx := hpush
    obtain ⟨hsp, hrx, -, hit⟩ := pushAll_ok (by omega) _ (by simp) (by omega) hpush'
    have hmem := pushAll_mem _ hpush'
    simp only [List.length_cons, List.length_nil] at hsp hit hmem
    show RealEntered s s1 idx
    have hl := load_split s.mem (ivtAddr s.r idx)
    have l1 := load_lt s.mem (ivtAddr s.r idx) 2
    have l2 := load_lt s.mem (ivtAddr s.r idx + 2#32) 2
    have hv : load s.mem (s.r.idtBase + BitVec.ofNat 32 (idx * 4)) 4 = load s.mem (ivtAddr s.r idx) 2 + load s.mem (ivtAddr s.r idx + 2#32) 2 * 65536 := hl
    rw [hv] at hs1
    generalize ho : load s.mem (ivtAddr s.r idx) 2 = o at *
    generalize hse : load s.mem (ivtAddr s.r idx + 2#32) 2 = se at *
    have hr1 : s1.r = realRegs idx (BitVec.ofNat 32 (o + se * 65536)) sp s.r := by rw [hs1, ← hrx]
    have hmm : s1.mem = sx.mem := by rw [hs1]
    generalize hvec : BitVec.ofNat 32 (o + se * 65536) = vec at *
    have hlow : (vec &&& 0xFFFF#32).toNat = o := by rw [← hvec]; exact vec_low o se (by omega)
    have hhigh : ((vec >>> 16 : BitVec 32).setWidth 16 : BitVec 16).toNat = se := by rw [← hvec]; exact vec_high o se (by omega) (by omega)
    have hm1 : mode s1.r = .real := by
      rw [mode_real_iff, hr1]; exact (mode_real_iff s.r).1 hm
    have hss : s1.r.ss = s.r.ss := by rw [hr1]; rfl
    have hesp : s1.r.esp = (s.r.esp &&& ~~~stackMask false) ||| (sp &&& stackMask false) := by rw [hr1]; rfl
    have hb := stack32_real hm1
    have item := fun i v => item_of_push (s1 := s1) (b := false) (base := s.r.ss.base) (e := s.r.esp) (sp := sp) (w := 2) (i := i) (v := v)
      hb (by rw [hss]) hesp
    rw [← hmm] at hit
    have hadr : ∀ i, stackAddr s1.r 2 i = s.r.ss.base + ((sp + BitVec.ofNat 32 (2 * i)) &&& stackMask false) := by
      intro i
      rw [stackAddr_eq, hb, hss, hesp]
      congr 1
      exact esp_item false s.r.esp sp _
    constructor
    · exact hm1
    · rw [hr1, ho]; exact hlow
    · rw [hr1, hse]; exact hhigh
    · rw [hr1]; exact sel_base _
    · rw [hr1]; exact ⟨rfl, rfl⟩
    · refine ⟨item 0 _ (hit 0 (by simp)), (item 1 _ (hit 1 (by simp))).trans ?_, item 2 _ (hit 2 (by simp))⟩
      exact sel_small _ 2 (Or.inl rfl)
    · unfold espAfter
      rw [hb, hesp, hsp]
      exact esp_back false _ _
    · rw [hr1]; exact esp_high16 _ _
    · intro i hi
      rw [hr1]
      show (s.r.eflags &&& ~~~0x50300#32)[i] = _
      rw [BitVec.getElem_and]
      have := real_flagBits ⟨i, hi⟩
      simp only at this
      rw [this]
      by_cases hc : i = 8 ∨ i = 9 ∨ i = 16 ∨ i = 18
      · rw [if_pos hc]; simp [hc]
      · rw [if_neg hc]; simp [hc]
    · rw [hr1]; rfl
    · rw [hr1]; exact ⟨rfl, rfl, rfl, rfl, rfl, rfl, rfl⟩
    · rw [hr1]; exact ⟨rfl, rfl, rfl, rfl, rfl, rfl, rfl, rfl⟩
    · intro i hi
      rw [hr1]
      show (if idx = 1 then s.r.dr7 &&& ~~~0x2000#32 else s.r.dr7 : BitVec 32)[i] = _
      have := gdBits ⟨i, hi⟩
      simp only at this
      by_cases h1 : idx = 1
      · simp only [h1, if_true]
        rw [BitVec.getElem_and, this]
        by_cases h2 : i = 13 <;> simp [h2]
      · simp [h1]
    · intro x hx
      rw [hmm]
      apply hmem x
      intro i hi
      have := hx i (by omega)
      rwa [hadr i] at this

theorem popV_stop {acc : Acc} {w : Nat} {sp : BitVec 32} {s s' : Cpu} {e : Stop} (h : popV acc w sp s = .stop e s') : e = .fault := by
  unfold popV at h
  rw [bind_getR] at h
  revert h
  generalize (if s.r.hflags &&& H_SS32 ≠ 0#32 ∧ w = 4 then sp else (sp.setWidth 16 : BitVec 16).setWidth 32 : BitVec 32) = a
  intro h
  rcases bind_stop.1 h with h1 | ⟨_, _, _, h2⟩
  · unfold rd at h1
    split at h1
    · cases h1
    · cases h1; rfl
  · cases h2

theorem pops_stop {acc : Acc} {w : Nat} {sp : BitVec 32} {s s' : Cpu} {e : Stop} {F : BitVec 32 → BitVec 32 → BitVec 32 → BitVec 32 → M Unit}
    (hF : ∀ a b c d t t', F a b c d t ≠ .stop e t') (h : pops acc w sp F s = .stop e s') : e = .fault := by
  unfold pops at h
  rcases bind_stop.1 h with h1 | ⟨_, _, _, h⟩
  · exact popV_stop h1
  rcases bind_stop.1 h with h1 | ⟨_, _, _, h⟩
  · exact popV_stop h1
  rcases bind_stop.1 h with h1 | ⟨_, _, _, h⟩
  · exact popV_stop h1
  · exact absurd h (hF _ _ _ _ _ _)

theorem esp_low16 (e sp : BitVec 32) : (e &&& 0xFFFF0000#32) ||| (sp &&& 0xFFFF#32) =
    e.extractLsb' 16 16 ++ (sp.setWidth 16 : BitVec 16) := by
  have h1 := halves ((e &&& 0xFFFF0000#32) ||| (sp &&& 0xFFFF#32))
  have h2 : ((e &&& 0xFFFF0000#32) ||| (sp &&& 0xFFFF#32)).extractLsb' 16 16 = e.extractLsb' 16 16 := esp_high16 e sp
  have h3 : (((e &&& 0xFFFF0000#32) ||| (sp &&& 0xFFFF#32)).setWidth 16 : BitVec 16) = sp.setWidth 16 := esp_low e sp
  rw [h2, h3] at h1
  exact h1.symm

/-- C80: after that handler IRET (16 bit operands) faults on a page or resumes the interrupted program. -/
theorem C80_iret_resumes (acc acc' : Acc) (k : Kind) (idx : Nat) (code : BitVec 16) (cr2 : BitVec 32) (s s1 s2 : Cpu)
    (ha : AgreeCore s.r) (hm : mode s.r = .real) (hf : FlagsWf s.r) (hd : deliver acc k idx code cr2 s = .ok () s1)
    (h2 : RealDone s1 s2) : FaultOr (RealResumed s) (instr acc' (.iret 2) s2) := by
  have hent : RealEntered s s1 idx := by
    have := C80_event acc k idx code cr2 s ha hm
    rw [hd] at this
    by_cases hi : InIvt s.r idx
    · exact this.2 hi
    · obtain ⟨c, hc⟩ := this.1 hi; cases hc
  generalize hres : instr acc' (.iret 2) s2 = res
  have hp : s2.r.cr0[0] = false := (mode_real_iff _).1 h2.real
  have hpe : ¬ (s2.r.hflags &&& H_PE ≠ 0#32) := by
    rw [and_ne_zero_bit s2.r.hflags H_PE 4 (by omega) rfl, h2.agree.pe, hp]; simp
  have hr' : (if s2.r.hflags &&& H_PE ≠ 0#32 then iretPe acc' 2 else iretReal acc' 2) s2 = res := hres
  rw [if_neg hpe, iretReal_eq, bind_getR] at hr'
  cases res with
  | stop e s3 =>
    rw [pops_stop (fun _ _ _ _ _ _ h => by cases h) hr']; trivial
  | ok u s3 =>
    show RealResumed s s3
    have hb2 := stack32_real h2.real
    have hir : ItemsReached s2.r 2 2 := fun _ x => by rw [hb2] at x; cases x
    obtain ⟨sp, hat, hr3⟩ := pops_ok h2.agree (Or.inl rfl) hir hr'
    have h3 := modR_ok.1 hr3
    have flg := C78_flags_partial acc' s2 s3 2 (Or.inl rfl) h2.agree (fun _ => h2.novm) h2.wf hir
      (fun x => by rw [h2.real] at x; cases x) hres
    obtain ⟨f0, f1, f2⟩ := hent.frame
    have i0 := (h2.frame 0 (by omega)).trans f0
    have i1 := (h2.frame 1 (by omega)).trans f1
    have i2 := (h2.frame 2 (by omega)).trans f2
    rw [i0, i1] at h3
    constructor
    · rw [mode_real_iff, h3]; exact hp
    · rw [h3]
      show (BitVec.ofNat 32 (s.r.eip.toNat % 65536)).toNat = _
      rw [BitVec.toNat_ofNat]; omega
    · rw [h3]
      show ((BitVec.ofNat 32 s.r.cs.sel.toNat).setWidth 16 : BitVec 16) = _
      apply BitVec.eq_of_toNat_eq
      rw [BitVec.toNat_setWidth, BitVec.toNat_ofNat]
      have := s.r.cs.sel.isLt
      omega
    · rw [h3]
      show (((BitVec.ofNat 32 s.r.cs.sel.toNat).setWidth 16 : BitVec 16).setWidth 32 <<< 4 : BitVec 32).toNat = _
      rw [sel_base, BitVec.toNat_setWidth, BitVec.toNat_ofNat]
      have := s.r.cs.sel.isLt
      omega
    · rw [h3]
      show (s2.r.esp &&& 0xFFFF0000#32) ||| (sp &&& 0xFFFF#32) = _
      rw [esp_low16, hat.1, h2.esp]
      have := hent.esp
      unfold espAfter at this
      rw [stack32_real hent.mode] at this
      exact this
    · rw [h3]
      show s2.r.ss = _
      rw [h2.ss]; exact hent.segs.1
    · intro i hi
      have hi16 : i < 16 ∧ (arithFlag i || iretWrites .real (level s2.r) (iopl s2.r) 2 i || decide (i = 1)) = true := by
        simp only [List.mem_cons, List.not_mem_nil, or_false] at hi
        rcases hi with rfl | rfl | rfl | rfl | rfl | rfl | rfl | rfl | rfl | rfl | rfl | rfl | rfl <;> exact ⟨by omega, rfl⟩
      rw [flg i (by omega) (fun x => by rw [h2.real] at x; cases x), i2]
      unfold iretFlag
      rw [h2.real]
      by_cases h1 : i = 1
      · rw [if_pos h1, h1]
        unfold flagsWord
        rw [BitVec.getLsbD_or, BitVec.getLsbD_eq_getElem (by omega), hf.one]; rfl
      · rw [if_neg h1]
        have := hi16.2
        rw [decide_eq_false h1, Bool.or_false] at this
        rw [if_pos this, show (65536 : Nat) = 2 ^ 16 from rfl, Nat.testBit_mod_two_pow, decide_eq_true hi16.1, Bool.true_and]
        rfl

namespace RealP
open SegP EventP
/-- Real mode with a table entry of vector 8 pointing to 0070:0210, interrupts on, carry set. -/
def realMem : Guest.Mem := fun a => if a = 0x20#32 then 0x10#8 else if a = 0x21#32 then 2#8 else if a = 0x22#32 then 0x70#8 else 0#8
def realProg : Cpu := ⟨{ ModeP.reset with cs := ⟨0x800#16, 0x8000#32, 0xFFFF#32, 0x9B00#32⟩, esp := 0x12340002#32, eip := 0x103#32, eflags := 0x202#32, arith := 1#32 }, realMem⟩
def realEntry : Cpu := endState (deliver allOk ⟨0, true⟩ 8 0#16 0#32 realProg)
end RealP
open RealP SegP EventP

/-- The frame wraps around the end of the stack segment; the handler ends at once. -/
example : AgreeCore realProg.r ∧ mode realProg.r = .real ∧ FlagsWf realProg.r ∧ InIvt realProg.r 8 ∧
    deliver allOk ⟨0, true⟩ 8 0#16 0#32 realProg = .ok () realEntry ∧ RealDone realEntry realEntry ∧
    realEntry.r.eip = 0x210#32 ∧ realEntry.r.cs.sel = 0x70#16 ∧ realEntry.r.esp = 0x1234FFFC#32 ∧
    completed (instr allOk (.iret 2) realEntry) = true := by
  refine ⟨by constructor <;> decide, by decide, by constructor <;> decide, by unfold InIvt; decide, of_completed (by decide +kernel),
    ?_, by decide +kernel, by decide +kernel, by decide +kernel, by decide +kernel⟩
  constructor
  · constructor <;> decide +kernel
  · decide +kernel
  · decide +kernel
  · constructor <;> decide +kernel
  · rfl
  · rfl
  · intro i _; rfl
example : ¬ InIvt { ModeP.reset with idtLimit := 0x22#32 } 8 := by unfold InIvt; decide

end Verif.Seg
