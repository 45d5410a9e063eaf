import Verif.Spec.IretFlags
import Verif.Lemmas.Oks
import Verif.Props.IretResume
/- C78: the flags after IRET. -/
namespace Verif.Seg
open Spec

/-- `sp` is the stack pointer after `n` items of `w` bytes. -/
def AtItem (r : Regs) (w n : Nat) (sp : BitVec 32) : Prop :=
  (sp.setWidth 16 : BitVec 16) = (r.esp + BitVec.ofNat 32 (w * n)).setWidth 16 ∧
  (stack32 r = true → w = 4 → sp = r.esp + BitVec.ofNat 32 (w * n))

theorem low_add (x y : BitVec 32) (h : (x.setWidth 16 : BitVec 16) = y.setWidth 16) (k : BitVec 32) :
    ((x + k).setWidth 16 : BitVec 16) = (y + k).setWidth 16 := by
  rw [BitVec.setWidth_add _ _ (by omega), BitVec.setWidth_add _ _ (by omega), h]

theorem pop_any {acc : Acc} {s : Cpu} (h : AgreeCore s.r) {w n : Nat} (hw : w = 2 ∨ w = 4) {sp : BitVec 32}
    (hi : ItemsReached s.r w n) (ha : AtItem s.r w n sp) {p : BitVec 32 × BitVec 32} {s' : Cpu}
    (hp : popV acc w sp s = .ok p s') :
    s' = s ∧ p.1 = BitVec.ofNat 32 (stackItem s w n) ∧ AtItem s.r w (n + 1) p.2 := by
  have hs : (s.r.hflags &&& H_SS32 ≠ 0#32) ↔ stack32 s.r = true := by
    have := and_ne_zero_bit s.r.hflags H_SS32 3 (by omega) rfl
    rw [h.stack32] at this
    exact this
  obtain ⟨e, he⟩ : ∃ e : BitVec 32, e = (if s.r.hflags &&& H_SS32 ≠ 0#32 ∧ w = 4 then sp
    else (sp.setWidth 16 : BitVec 16).setWidth 32) := ⟨_, rfl⟩
  have hstep : popV acc w sp s = if acc s (e + s.r.ss.base) w false 0 = true then
      .ok (BitVec.ofNat 32 (Guest.load s.mem (e + s.r.ss.base) w), e + BitVec.ofNat 32 w) s else .stop .fault s := by
    subst he
    unfold popV
    rw [bind_getR]
    show (rd acc _ w 0 >>= fun v => (pure (BitVec.ofNat 32 v, _) : M (BitVec 32 × BitVec 32))) s = _
    by_cases hc : acc s ((if s.r.hflags &&& H_SS32 ≠ 0#32 ∧ w = 4 then sp
      else (sp.setWidth 16 : BitVec 16).setWidth 32) + s.r.ss.base) w false 0 = true
    · rw [if_pos hc, bind_of_ok (a := Guest.load s.mem _ w) (s' := s) (by unfold rd; rw [if_pos hc])]; rfl
    · rw [if_neg hc]; exact bind_stop.2 (Or.inl (by unfold rd; rw [if_neg hc]))
  rw [hstep] at hp
  split at hp
  case isFalse => cases hp
  cases hp
  have hadd : s.r.esp + BitVec.ofNat 32 (w * n) + BitVec.ofNat 32 w = s.r.esp + BitVec.ofNat 32 (w * (n + 1)) := by
    rw [BitVec.add_assoc, ← BitVec.ofNat_add]; rfl
  have haddr : e + s.r.ss.base = stackAddr s.r w n := by
    unfold stackAddr
    extract_lets o
    rw [BitVec.add_comm]
    congr 1
    by_cases hb : stack32 s.r = true
    · rw [if_pos hb]
      by_cases h4 : w = 4
      · rw [he, if_pos ⟨hs.2 hb, h4⟩]
        exact ha.2 hb h4
      · have h2 : w = 2 := by omega
        rw [he, if_neg (fun x => h4 x.2), ha.1]
        have := hi h2 hb
        subst h2
        apply BitVec.eq_of_toNat_eq
        have ho : o.toNat = s.r.esp.toNat + 2 * n := by
          show (s.r.esp + BitVec.ofNat 32 (2 * n)).toNat = _
          rw [BitVec.toNat_add, BitVec.toNat_ofNat]
          omega
        show ((o.setWidth 16 : BitVec 16).setWidth 32).toNat = _
        rw [BitVec.toNat_setWidth, BitVec.toNat_setWidth, ho]
        omega
    · rw [if_neg hb, he, if_neg (fun x => hb (hs.1 x.1)), ha.1]
  refine ⟨rfl, by rw [haddr]; rfl, ?_, ?_⟩
  · show ((e + BitVec.ofNat 32 w).setWidth 16 : BitVec 16) = _
    rw [← hadd]
    apply low_add
    rw [← ha.1, he]
    split
    · rfl
    · rw [BitVec.setWidth_setWidth_of_le _ (by omega)]; simp
  · intro hb h4
    show e + BitVec.ofNat 32 w = _
    rw [← hadd, he, if_pos ⟨hs.2 hb, h4⟩, ha.2 hb h4]

/-- The flags are `e` and `a`. -/
def HasFlags (e a : BitVec 32) (r : Regs) : Prop := r.eflags = e ∧ r.arith = a

theorem writeSeg_flags (i : SR) (sel : BitVec 16) (b l f : BitVec 32) (r : Regs) (e a : BitVec 32) (h : HasFlags e a r) :
    HasFlags e a (writeSeg i sel b l f r) := by cases i <;> exact h

theorem validateSeg_flags (i : SR) (r : Regs) (e a : BitVec 32) (h : HasFlags e a r) : HasFlags e a (validateSeg i r) := by
  unfold validateSeg
  extract_lets
  split
  · exact writeSeg_flags _ _ _ _ _ _ _ _ h
  · exact h

theorem loadDesc_flags (i : SR) (sel : BitVec 16) (d : BitVec 64) (e a : BitVec 32) : Keeps (HasFlags e a) (loadDesc i sel d) :=
  keeps_modR fun _ h => writeSeg_flags _ _ _ _ _ _ _ _ h

theorem retPe_flags (acc : Acc) (k : Nat) (eip : BitVec 32) (cs : BitVec 16) (sp v m e a : BitVec 32) :
    Oks (HasFlags e a) (HasFlags (((e &&& ~~~m) ||| (v &&& m)) ||| 2#32) (v &&& 0x8D5#32)) (retPe acc k eip cs sp (some (v, m))) := by
  unfold retPe
  apply oks_keeps_bind (keeps_check _ _); intro _
  apply oks_keeps_bind (keeps_readDesc _ _ _); rintro ⟨a', d⟩
  apply oks_keeps_bind keeps_getR; intro r
  apply oks_keeps_bind (keeps_check _ _); intro _
  apply oks_keeps_bind (keeps_check _ _); intro _
  apply oks_keeps_bind (keeps_check _ _); intro _
  apply oks_keeps_bind (keeps_check _ _); intro _
  dsimp only
  have fin : Oks (HasFlags e a) (HasFlags (((e &&& ~~~m) ||| (v &&& m)) ||| 2#32) (v &&& 0x8D5#32)) (modR (writeEflags v m)) := by
    apply oks_modR
    rintro r ⟨rfl, rfl⟩
    exact ⟨rfl, rfl⟩
  split
  · apply oks_keeps_bind (keeps_popV _ _ _); rintro ⟨nesp, sp'⟩
    apply oks_keeps_bind (keeps_popV _ _ _); rintro ⟨ssv, sp''⟩
    apply oks_keeps_bind (keeps_checkSs _ _ _); rintro ⟨sa, sd⟩
    apply oks_keeps_bind (keeps_setAccessed _ _ _); intro _
    apply oks_keeps_bind (keeps_setAccessed _ _ _); intro _
    apply oks_keeps_bind (loadDesc_flags _ _ _ _ _); intro _
    apply oks_keeps_bind (loadDesc_flags _ _ _ _ _); intro _
    apply oks_keeps_bind (keeps_modR ?_)
    · intro _; exact fin
    · intro r h
      refine validateSeg_flags _ _ _ _ (validateSeg_flags _ _ _ _ (validateSeg_flags _ _ _ _ (validateSeg_flags _ _ _ _ h)))
  · apply oks_keeps_bind (keeps_setAccessed _ _ _); intro _
    apply oks_keeps_bind (keeps_modR ?_)
    · intro _
      apply oks_keeps_bind (loadDesc_flags _ _ _ _ _); intro _
      exact fin
    · intro r h; exact h

/-- Three items are popped. -/
def pops (acc : Acc) (w : Nat) (sp : BitVec 32) (F : BitVec 32 → BitVec 32 → BitVec 32 → BitVec 32 → M Unit) : M Unit :=
  popV acc w sp >>= fun p => popV acc w p.2 >>= fun q => popV acc w q.2 >>= fun t => F p.1 q.1 t.1 t.2

theorem pops_ok {acc : Acc} {s s' : Cpu} (h : AgreeCore s.r) {w : Nat} (hw : w = 2 ∨ w = 4)
    (hi : ItemsReached s.r w 2) {F : BitVec 32 → BitVec 32 → BitVec 32 → BitVec 32 → M Unit} (hr : pops acc w s.r.esp F s = .ok () s') :
    ∃ sp, AtItem s.r w 3 sp ∧ F (BitVec.ofNat 32 (stackItem s w 0)) (BitVec.ofNat 32 (stackItem s w 1))
      (BitVec.ofNat 32 (stackItem s w 2)) sp s = .ok () s' := by
  unfold pops at hr
  obtain ⟨p, s1, e1, hr1⟩ := bind_ok.1 hr
  obtain ⟨q, s2, e2, hr2⟩ := bind_ok.1 hr1
  obtain ⟨t, s3, e3, hr3⟩ := bind_ok.1 hr2
  have hi1 : ItemsReached s.r w 1 := fun a b => by have := hi a b; omega
  have hi0 : ItemsReached s.r w 0 := fun a b => by have := hi a b; omega
  obtain ⟨rfl, v1, a1⟩ := pop_any h hw hi0 (n := 0) ⟨by simp, fun _ _ => by simp⟩ e1
  obtain ⟨rfl, v2, a2⟩ := pop_any h hw hi1 a1 e2
  obtain ⟨rfl, v3, a3⟩ := pop_any h hw hi a2 e3
  exact ⟨t.2, a3, by rw [← v1, ← v2, ← v3]; exact hr3⟩

theorem iretReal_eq (acc : Acc) (w : Nat) : iretReal acc w = (getR >>= fun r => pops acc w r.esp fun eip cs e sp =>
    modR fun r' => writeEflags e (if w = 2 then (if r.eflags &&& 0x20000#32 ≠ 0#32 then 0x254700#32 else 0x257700#32) &&& 0xFFFF#32
      else if r.eflags &&& 0x20000#32 ≠ 0#32 then 0x254700#32 else 0x257700#32) { r' with
      esp := (r'.esp &&& 0xFFFF0000#32) ||| (sp &&& 0xFFFF#32)
      eip := eip
      cs := { r'.cs with sel := cs.setWidth 16, base := (cs.setWidth 16 : BitVec 16).setWidth 32 <<< 4 } }) := rfl

theorem iretPe_pops (acc : Acc) (w : Nat) : iretPe acc w = (getR >>= fun r =>
    if r.eflags &&& 0x20000#32 ≠ 0#32 then
      (if (r.eflags &&& 0x3000#32) >>> 12 = 3#32 then iretReal acc w else stop (.exc GP 0#16))
    else check (r.eflags &&& 0x4000#32 != 0#32) .abort >>= fun _ => pops acc w r.esp fun eip cs e sp =>
      if e &&& 0x20000#32 ≠ 0#32 then iretToVm86 acc eip (cs.setWidth 16) e sp
      else retPe acc w eip (cs.setWidth 16) sp (some (e, iretMask w r))) := rfl

theorem flag_bits {r : Regs} (hw : FlagsWf r) (v m : BitVec 32) (i : Nat) (hi : i < 32) :
    ((((r.eflags &&& ~~~m) ||| (v &&& m)) ||| 2#32) ||| (v &&& 0x8D5#32)).getLsbD i =
      if i = 1 then true else if arithFlag i || m.getLsbD i then v.getLsbD i else (flagsWord r).getLsbD i := by
  have ha := arithBits ⟨i, hi⟩
  have ho := oneBit ⟨i, hi⟩
  unfold flagsWord
  simp only [BitVec.getLsbD_eq_getElem hi, BitVec.getElem_or, BitVec.getElem_and, BitVec.getElem_not]
  have hb : arithFlag i = decide (i = 0 ∨ i = 2 ∨ i = 4 ∨ i = 6 ∨ i = 7 ∨ i = 11) := by
    have : ∀ j : Fin 32, arithFlag j.val = decide (j.val = 0 ∨ j.val = 2 ∨ j.val = 4 ∨ j.val = 6 ∨ j.val = 7 ∨ j.val = 11) := by decide
    exact this ⟨i, hi⟩
  by_cases h1 : i = 1
  · subst h1; simp [ho]
  · rw [if_neg h1, hb]
    by_cases hb : i = 0 ∨ i = 2 ∨ i = 4 ∨ i = 6 ∨ i = 7 ∨ i = 11
    · have := wf_sys hw i hi hb
      simp only at ha ho
      rw [ha, ho, this]
      simp [h1, hb]
      cases v[i] <;> cases m[i] <;> simp
    · have := wf_arith hw i hi hb
      simp only at ha ho
      rw [ha, ho, this]
      simp [h1, hb]
      cases v[i] <;> cases m[i] <;> cases r.eflags[i] <;> rfl

theorem maskReal : ∀ (two vm : Bool) (l io : Fin 4) (j : Fin 32),
    (if (if two then 2 else 4) = 2 then (if vm = true then 0x254700#32 else 0x257700#32) &&& 0xFFFF#32
      else if vm = true then 0x254700#32 else 0x257700#32).getLsbD j.val =
      iretWrites (if vm then .vm86 else .real) (BitVec.ofFin l) (BitVec.ofFin io) (if two then 2 else 4) j.val := by
  decide +kernel

theorem maskPe : ∀ (two : Bool) (l io : Fin 4) (j : Fin 32), j.val ≠ 17 → (two = true → j.val ≠ 12 ∧ j.val ≠ 13) →
    (let c : BitVec 32 := (BitVec.ofFin l : BitVec 2).setWidth 32
     let m := if (if two then 2 else 4) = 2 then 0x4500#32 else if c = 0#32 then 0x254500#32 ||| 0x1A3000#32 else 0x254500#32
     if c ≤ (BitVec.ofFin io : BitVec 2).setWidth 32 then m ||| 0x200#32 else m).getLsbD j.val =
      iretWrites .prot (BitVec.ofFin l) (BitVec.ofFin io) (if two then 2 else 4) j.val := by
  decide +kernel

theorem iretMask_writes {r : Regs} (h : AgreeCore r) (w : Nat) (hw : w = 2 ∨ w = 4) (i : Nat) (hi : i < 32) (h17 : i ≠ 17)
    (h12 : w = 2 → i ≠ 12 ∧ i ≠ 13) : (iretMask w r).getLsbD i = iretWrites .prot (level r) (iopl r) w i := by
  unfold iretMask
  rw [hcpl_level h, iopl_eq]
  have key := fun two => maskPe two (level r).toFin (iopl r).toFin ⟨i, hi⟩ h17
  rcases hw with rfl | rfl
  · exact key true (fun _ => h12 rfl)
  · exact key false (fun x => by cases x)

theorem image_bit (s : Cpu) (w n i : Nat) (hi : i < 32) :
    (BitVec.ofNat 32 (stackItem s w n)).getLsbD i = (stackItem s w n).testBit i := by
  rw [BitVec.getLsbD_ofNat]; simp [hi]

/-- C78: after IRET each flag is the popped one if the privilege at that moment lets IRET write it, and the old one otherwise.
Not covered: a return to vm86 mode from protected mode, and IOPL in a 16 bit IRET in protected mode. -/
theorem C78_flags_partial (acc : Acc) (s s' : Cpu) (w : Nat) (hw : w = 2 ∨ w = 4) (h : AgreeCore s.r) (hv : NoVmInReal s.r)
    (hf : FlagsWf s.r) (hi : ItemsReached s.r w 2)
    (hvm : mode s.r = .prot → (stackItem s w 2).testBit 17 = false)
    (hr : instr acc (.iret w) s = .ok () s') (i : Nat) (hi32 : i < 32) (h12 : mode s.r = .prot → w = 2 → i ≠ 12 ∧ i ≠ 13) :
    (flagsWord s'.r).getLsbD i = iretFlag s.r w (stackItem s w 2) i := by
  have hvmb : (s.r.eflags &&& 0x20000#32 ≠ 0#32) ↔ s.r.eflags[17] = true := and_ne_zero_bit _ _ 17 (by omega) rfl
  have hpe : (s.r.hflags &&& H_PE ≠ 0#32) ↔ s.r.cr0[0] = true := by
    have := and_ne_zero_bit s.r.hflags H_PE 4 (by omega) rfl
    rw [h.pe] at this; exact this
  -- real and vm86 mode
  have real : ∀ vm : Bool, mode s.r = (if vm then .vm86 else .real) → s.r.eflags[17] = vm → iretReal acc w s = .ok () s' →
      (flagsWord s'.r).getLsbD i = iretFlag s.r w (stackItem s w 2) i := by
    intro vm hm he hr
    rw [iretReal_eq, bind_getR] at hr
    obtain ⟨sp, -, hr⟩ := pops_ok h hw hi hr
    have := modR_ok.1 hr
    subst this
    unfold writeEflags flagsWord
    dsimp only
    rw [flag_bits hf _ _ i hi32, image_bit s w 2 i hi32]
    unfold iretFlag
    have key := fun two => maskReal two vm (level s.r).toFin (iopl s.r).toFin ⟨i, hi32⟩
    rw [hm]
    have hc : (s.r.eflags &&& 0x20000#32 ≠ 0#32) = (vm = true) := by rw [← he]; exact propext hvmb
    simp only [hc]
    rcases hw with rfl | rfl
    · rw [show ∀ x y, iretWrites x y (iopl s.r) 2 i = iretWrites x y (BitVec.ofFin (iopl s.r).toFin) (if true = true then 2 else 4) i from fun _ _ => rfl, show level s.r = BitVec.ofFin (level s.r).toFin from rfl]
      rw [← key true]
      rfl
    · rw [show ∀ x y, iretWrites x y (iopl s.r) 4 i = iretWrites x y (BitVec.ofFin (iopl s.r).toFin) (if false = true then 2 else 4) i from fun _ _ => rfl, show level s.r = BitVec.ofFin (level s.r).toFin from rfl]
      rw [← key false]
      rfl
  have hr' : (if s.r.hflags &&& H_PE ≠ 0#32 then iretPe acc w else iretReal acc w) s = .ok () s' := hr
  cases hp : s.r.cr0[0] with
  | false =>
    rw [if_neg (by rw [hpe, hp]; simp)] at hr'
    exact real false (by unfold mode; rw [if_pos hp]; rfl) (hv hp) hr'
  | true =>
    rw [if_pos (by rw [hpe, hp]), iretPe_pops, bind_getR] at hr'
    cases hv17 : s.r.eflags[17] with
    | true =>
      rw [if_pos (hvmb.2 hv17)] at hr'
      split at hr'
      · exact real true (by unfold mode; rw [if_neg (by rw [hp]; simp), if_pos hv17]; rfl) hv17 hr'
      · cases hr'
    | false =>
      have hm : mode s.r = .prot := by unfold mode; rw [if_neg (by rw [hp]; simp), if_neg (by rw [hv17]; simp)]
      rw [if_neg (by rw [hvmb, hv17]; simp), bind_check] at hr'
      split at hr'
      · cases hr'
      obtain ⟨sp, -, hr'⟩ := pops_ok h hw hi hr'
      have hb : (BitVec.ofNat 32 (stackItem s w 2)).getLsbD 17 = false := by rw [image_bit s w 2 17 (by omega)]; exact hvm hm
      rw [if_neg (fun x => by have := (and_ne_zero_bit _ _ 17 (by omega) rfl).1 x; rw [← BitVec.getLsbD_eq_getElem, hb] at this; cases this)] at hr'
      have := (retPe_flags acc w _ _ sp _ (iretMask w s.r) s.r.eflags s.r.arith).run s () s' ⟨rfl, rfl⟩ hr'
      unfold flagsWord
      rw [this.1, this.2, flag_bits hf _ _ i hi32]
      unfold iretFlag
      by_cases h17 : i = 17
      · subst h17
        rw [hb, hvm hm]
        have ha := wf_arith hf 17 (by omega) (by omega)
        have : (flagsWord s.r).getLsbD 17 = false := by
          unfold flagsWord
          rw [BitVec.getLsbD_or, BitVec.getLsbD_eq_getElem (by omega), BitVec.getLsbD_eq_getElem (by omega), ha, hv17]; rfl
        rw [this]
        simp
      · rw [iretMask_writes h w hw i hi32 h17 (h12 hm), image_bit s w 2 i hi32, hm]

theorem vm86_seg (i : SR) (v : Nat) (r : Regs) : V86Seg ((writeSegVm86 i ((BitVec.ofNat 32 v).setWidth 16) r).get i) v := by
  have h : ∀ f : BitVec 32, V86Seg ⟨(BitVec.ofNat 32 v).setWidth 16, ((BitVec.ofNat 32 v).setWidth 16 : BitVec 16).setWidth 32 <<< 4, 0xFFFF#32, f⟩ v := by
    intro f
    refine ⟨?_, ?_, rfl⟩
    · simp only [BitVec.toNat_setWidth, BitVec.toNat_ofNat]; omega
    · simp only [BitVec.toNat_shiftLeft, BitVec.toNat_setWidth, BitVec.toNat_ofNat, Nat.shiftLeft_eq]; omega
  cases i <;> exact h _

theorem vm86Mask : ∀ j : Fin 32, (0x3E7300#32).getLsbD j.val = [8, 9, 12, 13, 14, 17, 18, 19, 20, 21].contains j.val := by decide

/-- The registers after the pops. -/
def vm86Regs (eip : BitVec 32) (cs : BitVec 16) (e nesp ss es ds fs gs : BitVec 32) (r : Regs) : Regs :=
  let r := writeEflags e 0x3E7300#32 r
  let r := writeSegVm86 .cs cs r
  let r := writeSegVm86 .ss (ss.setWidth 16) r
  let r := writeSegVm86 .es (es.setWidth 16) r
  let r := writeSegVm86 .ds (ds.setWidth 16) r
  let r := writeSegVm86 .fs (fs.setWidth 16) r
  let r := writeSegVm86 .gs (gs.setWidth 16) r
  { r with esp := nesp, eip := eip, hflags := (r.hflags &&& ~~~H_CPL) ||| 3#32 }

theorem iretToVm86_eq (acc : Acc) (eip : BitVec 32) (cs : BitVec 16) (e sp : BitVec 32) : iretToVm86 acc eip cs e sp =
    (popV acc 4 sp >>= fun p3 => popV acc 4 p3.2 >>= fun p4 => popV acc 4 p4.2 >>= fun p5 => popV acc 4 p5.2 >>= fun p6 =>
      popV acc 4 p6.2 >>= fun p7 => popV acc 4 p7.2 >>= fun p8 => modR (vm86Regs eip cs e p3.1 p4.1 p5.1 p6.1 p7.1 p8.1)) := rfl

theorem vm86Regs_spec (r : Regs) (hp : r.cr0[0] = true) (eip nesp e : BitVec 32) (he : e[17] = true) (a1 a2 a3 a4 a5 a6 : Nat) (r' : Regs)
    (hr : r' = vm86Regs eip ((BitVec.ofNat 32 a1).setWidth 16) e nesp (BitVec.ofNat 32 a2) (BitVec.ofNat 32 a3) (BitVec.ofNat 32 a4)
      (BitVec.ofNat 32 a5) (BitVec.ofNat 32 a6) r) :
    mode r' = .vm86 ∧ r'.eip = eip ∧ r'.esp = nesp ∧ V86Seg r'.cs a1 ∧ V86Seg r'.ss a2 ∧ V86Seg r'.es a3 ∧ V86Seg r'.ds a4 ∧
      V86Seg r'.fs a5 ∧ V86Seg r'.gs a6 ∧
      r'.eflags = ((r.eflags &&& ~~~0x3E7300#32) ||| (e &&& 0x3E7300#32)) ||| 2#32 ∧ r'.arith = e &&& 0x8D5#32 := by
  subst hr
  have he' : ((((r.eflags &&& ~~~0x3E7300#32) ||| (e &&& 0x3E7300#32)) ||| 2#32) : BitVec 32)[17] = true := by
    simp [he]
  refine ⟨?_, rfl, rfl, vm86_seg .cs a1 r, vm86_seg .ss a2 r, vm86_seg .es a3 r, vm86_seg .ds a4 r, vm86_seg .fs a5 r, vm86_seg .gs a6 r, rfl, rfl⟩
  unfold mode
  rw [if_neg (by show ¬ r.cr0[0] = false; rw [hp]; simp)]
  exact if_pos he'

/-- C78: an IRET whose popped flags have VM set enters vm86 mode: next instruction, stack and segments are the popped ones, and so
are the flags, except DF and RF. -/
theorem C78_to_vm86_partial (acc : Acc) (s s' : Cpu) (h : AgreeCore s.r) (hm : mode s.r = .prot) (hf : FlagsWf s.r)
    (hvm : (stackItem s 4 2).testBit 17 = true) (hr : instr acc (.iret 4) s = .ok () s') :
    mode s'.r = .vm86 ∧ s'.r.eip.toNat = stackItem s 4 0 ∧ s'.r.esp.toNat = stackItem s 4 3 ∧
    V86Seg s'.r.cs (stackItem s 4 1) ∧ V86Seg s'.r.ss (stackItem s 4 4) ∧ V86Seg s'.r.es (stackItem s 4 5) ∧
    V86Seg s'.r.ds (stackItem s 4 6) ∧ V86Seg s'.r.fs (stackItem s 4 7) ∧ V86Seg s'.r.gs (stackItem s 4 8) ∧
    ∀ i, arithFlag i = true ∨ i ∈ [8, 9, 12, 13, 14, 17, 18, 19, 20, 21] →
      (flagsWord s'.r).getLsbD i = (stackItem s 4 2).testBit i := by
  have hir : ∀ n, ItemsReached s.r 4 n := fun n x => by cases x
  have hpe : (s.r.hflags &&& H_PE ≠ 0#32) ↔ s.r.cr0[0] = true := by
    have := and_ne_zero_bit s.r.hflags H_PE 4 (by omega) rfl
    rw [h.pe] at this; exact this
  have hp : s.r.cr0[0] = true ∧ s.r.eflags[17] = false := by
    unfold mode at hm
    cases hc : s.r.cr0[0] <;> cases hv : s.r.eflags[17] <;> simp_all
  have hr' : (if s.r.hflags &&& H_PE ≠ 0#32 then iretPe acc 4 else iretReal acc 4) s = .ok () s' := hr
  have hvmb : (s.r.eflags &&& 0x20000#32 ≠ 0#32) ↔ s.r.eflags[17] = true := and_ne_zero_bit _ _ 17 (by omega) rfl
  rw [if_pos (hpe.2 hp.1), iretPe_pops, bind_getR, if_neg (by rw [hvmb, hp.2]; simp), bind_check] at hr'
  split at hr'
  · cases hr'
  obtain ⟨sp, a3, hr'⟩ := pops_ok h (Or.inr rfl) (hir 2) hr'
  have hb : (BitVec.ofNat 32 (stackItem s 4 2)).getLsbD 17 = true := by rw [image_bit s 4 2 17 (by omega)]; exact hvm
  have hbc : BitVec.ofNat 32 (stackItem s 4 2) &&& 0x20000#32 ≠ 0#32 :=
    (and_ne_zero_bit _ _ 17 (by omega) rfl).2 (by rw [← BitVec.getLsbD_eq_getElem]; exact hb)
  rw [if_pos hbc] at hr'
  rw [iretToVm86_eq] at hr'
  obtain ⟨p3, s3, e3, hr'⟩ := bind_ok.1 hr'
  obtain ⟨rfl, v3, a4⟩ := pop_any h (Or.inr rfl) (hir _) a3 e3
  obtain ⟨p4, s4, e4, hr'⟩ := bind_ok.1 hr'
  obtain ⟨rfl, v4, a5⟩ := pop_any h (Or.inr rfl) (hir _) a4 e4
  obtain ⟨p5, s5, e5, hr'⟩ := bind_ok.1 hr'
  obtain ⟨rfl, v5, a6⟩ := pop_any h (Or.inr rfl) (hir _) a5 e5
  obtain ⟨p6, s6, e6, hr'⟩ := bind_ok.1 hr'
  obtain ⟨rfl, v6, a7⟩ := pop_any h (Or.inr rfl) (hir _) a6 e6
  obtain ⟨p7, s7, e7, hr'⟩ := bind_ok.1 hr'
  obtain ⟨rfl, v7, a8⟩ := pop_any h (Or.inr rfl) (hir _) a7 e7
  obtain ⟨p8, s8, e8, hr'⟩ := bind_ok.1 hr'
  obtain ⟨rfl, v8, -⟩ := pop_any h (Or.inr rfl) (hir _) a8 e8
  have hs := modR_ok.1 hr'
  rw [v3, v4, v5, v6, v7, v8] at hs
  have lt : ∀ n, stackItem s8 4 n < 2 ^ 32 := fun n => Guest.load_lt _ _ _
  obtain ⟨h1, h2, h3, h4, h5, h6, h7, h8, h9, h10, h11⟩ := vm86Regs_spec s8.r hp.1 _ _ _
    (by rw [← BitVec.getLsbD_eq_getElem]; exact hb) _ _ _ _ _ _ _ (congrArg Cpu.r hs)
  refine ⟨h1, ?_, ?_, h4, h5, h6, h7, h8, h9, ?_⟩
  · rw [h2, BitVec.toNat_ofNat]; exact Nat.mod_eq_of_lt (lt 0)
  · rw [h3, BitVec.toNat_ofNat]; exact Nat.mod_eq_of_lt (lt 3)
  · intro i hi
    have hi32 : i < 32 := by
      rcases hi with hi | hi
      · unfold arithFlag at hi
        rw [List.contains_iff_mem] at hi
        have : ∀ j ∈ [0, 2, 4, 6, 7, 11], j < 32 := by decide
        exact this i hi
      · have : ∀ j ∈ [8, 9, 12, 13, 14, 17, 18, 19, 20, 21], j < 32 := by decide
        exact this i hi
    have h1' : i ≠ 1 := by rintro rfl; revert hi; decide
    unfold flagsWord
    rw [h10, h11, flag_bits hf _ _ i hi32, if_neg h1', vm86Mask ⟨i, hi32⟩, if_pos, image_bit _ _ _ _ hi32]
    rcases hi with hi | hi
    · rw [hi]; rfl
    · rw [List.contains_iff_mem.2 hi]; simp

/-- C78 in words: without I/O privilege IRET cannot change IF, and above level 0 it cannot change IOPL. -/
theorem C78_unprivileged (acc : Acc) (s s' : Cpu) (w : Nat) (hw : w = 2 ∨ w = 4) (h : AgreeCore s.r) (hm : mode s.r = .prot)
    (hf : FlagsWf s.r) (hi : ItemsReached s.r w 2) (hvm : (stackItem s w 2).testBit 17 = false)
    (hr : instr acc (.iret w) s = .ok () s') :
    (iopl s.r < level s.r → (flagsWord s'.r)[9] = (flagsWord s.r)[9]) ∧
    (level s.r ≠ 0#2 → w = 4 → (flagsWord s'.r)[12] = (flagsWord s.r)[12] ∧ (flagsWord s'.r)[13] = (flagsWord s.r)[13]) := by
  have hv : NoVmInReal s.r := by
    intro hp; unfold mode at hm; rw [if_pos hp] at hm; cases hm
  have key := C78_flags_partial acc s s' w hw h hv hf hi (fun _ => hvm) hr
  refine ⟨fun hl => ?_, fun hl h4 => ⟨?_, ?_⟩⟩
  · have := key 9 (by omega) (fun _ _ => by omega)
    rw [BitVec.getLsbD_eq_getElem (by omega)] at this
    rw [this]
    unfold iretFlag
    have : iretWrites (mode s.r) (level s.r) (iopl s.r) w 9 = false := by
      rw [hm]
      show (Mode.prot != Mode.prot || decide (level s.r ≤ iopl s.r)) = false
      rw [decide_eq_false (by rw [BitVec.le_def]; rw [BitVec.lt_def] at hl; omega)]
      rfl
    rw [this]
    simp [arithFlag]
  · have := key 12 (by omega) (fun _ h2 => by omega)
    rw [BitVec.getLsbD_eq_getElem (by omega)] at this
    rw [this]
    unfold iretFlag
    have : iretWrites (mode s.r) (level s.r) (iopl s.r) w 12 = false := by
      rw [hm]
      show (Mode.prot == Mode.real || (Mode.prot == Mode.prot && level s.r == 0#2)) = false
      simp [hl]
    rw [this]
    simp [arithFlag]
  · have := key 13 (by omega) (fun _ h2 => by omega)
    rw [BitVec.getLsbD_eq_getElem (by omega)] at this
    rw [this]
    unfold iretFlag
    have : iretWrites (mode s.r) (level s.r) (iopl s.r) w 13 = false := by
      rw [hm]
      show (Mode.prot == Mode.real || (Mode.prot == Mode.prot && level s.r == 0#2)) = false
      simp [hl]
    rw [this]
    simp [arithFlag]

namespace IretP
open SegP EventP

/-- The stack at 0x7000: EIP 0x1234, CS 0x23, the given flags, then ESP 0x100 and zero segments. -/
def stackMem (f1 f2 : BitVec 8) : Guest.Mem := fun a =>
  if a = 0x7000#32 then 0x34#8 else if a = 0x7001#32 then 0x12#8 else if a = 0x7004#32 then 0x23#8
  else if a = 0x7008#32 then 0x02#8 else if a = 0x7009#32 then f1 else if a = 0x700A#32 then f2
  else if a = 0x700D#32 then 1#8 else EventP.mem a
/-- A user program (IOPL 0, IF set) about to execute IRET with flags 0x3002 on its stack. -/
def user1 : Cpu := ⟨prog.r, stackMem 0x30#8 0#8⟩
/-- The same with flags 0x23402: VM, IOPL 3, DF. -/
def user2 : Cpu := ⟨prog.r, stackMem 0x34#8 0x02#8⟩
/-- A kernel about to execute a 16 bit IRET with flags 0x3002. -/
def kern16 : Cpu := ⟨{ kprog.r with esp := 0x6000#32 }, fun a => if a = 0x6001#32 then 1#8 else if a = 0x6002#32 then 8#8
  else if a = 0x6004#32 then 2#8 else if a = 0x6005#32 then 0x30#8 else EventP.mem a⟩
end IretP
open IretP EventP SegP

example : AgreeCore user1.r ∧ mode user1.r = .prot ∧ FlagsWf user1.r ∧ level user1.r = 3#2 ∧ iopl user1.r = 0#2 := by
  refine ⟨?_, by decide, ?_, by decide, by decide⟩
  · constructor <;> decide
  · constructor <;> decide
example : completed (instr allOk (.iret 4) user1) = true ∧ stackItem user1 4 2 = 0x3002 ∧
    flagsWord (endState (instr allOk (.iret 4) user1)).r = 0x202#32 := by decide +kernel
example : completed (instr allOk (.iret 4) user2) = true ∧ stackItem user2 4 2 = 0x23402 ∧ stackItem user2 4 3 = 0x100 := by
  decide +kernel

/-- A user program at level 3 with IOPL 0 executes IRET with VM set in the popped flags: it is in vm86 mode afterwards, with
IOPL 3 and IF as popped (SDM: only at level 0 does the popped VM bit count). -/
theorem C78_escalation_violation : level user2.r = 3#2 ∧ iopl user2.r = 0#2 ∧ user2.r.eflags[9] = true ∧
    completed (instr allOk (.iret 4) user2) = true ∧ mode (endState (instr allOk (.iret 4) user2)).r = .vm86 ∧
    iopl (endState (instr allOk (.iret 4) user2)).r = 3#2 ∧ (endState (instr allOk (.iret 4) user2)).r.eflags[9] = false := by
  decide +kernel

/-- The DF bit of the popped image of a vm86 task is not restored: set in the image, the old value (clear) stays. -/
theorem C78_df_violation : (⟨{ user2.r with eflags := 0x202#32 }, user2.mem⟩ : Cpu).r.eflags[10] = false ∧
    (stackItem ⟨{ user2.r with eflags := 0x202#32 }, user2.mem⟩ 4 2).testBit 10 = true ∧
    completed (instr allOk (.iret 4) ⟨{ user2.r with eflags := 0x202#32 }, user2.mem⟩) = true ∧
    (endState (instr allOk (.iret 4) ⟨{ user2.r with eflags := 0x202#32 }, user2.mem⟩)).r.eflags[10] = false := by
  decide +kernel

/-- At level 0 a 16 bit IRET does not restore IOPL. -/
theorem C78_iopl16_violation : AgreeCore kern16.r ∧ mode kern16.r = .prot ∧ level kern16.r = 0#2 ∧ iopl kern16.r = 0#2 ∧
    (stackItem kern16 2 2).testBit 12 = true ∧ completed (instr allOk (.iret 2) kern16) = true ∧
    iopl (endState (instr allOk (.iret 2) kern16)).r = 0#2 := by
  refine ⟨?_, by decide +kernel⟩
  constructor <;> decide

end Verif.Seg
