import Verif.Lemmas.Frame
import Verif.Model.Exc
import Verif.Props.FarJmp
/-
C73: an event delivered in protected mode saves what IRET needs, and IRET resumes the interrupted program.
-/
namespace Verif.Seg
open Guest (load store load_store store_other load_congr)
open Spec (AgreeCore mode level stackAddr stackItem stack32 flagsWord FlagsWf gateAt iopl Returnable ReturnableStack Holds)

theorem deliver_prot {acc : Acc} {k : Kind} {idx : Nat} {code : BitVec 16} {cr2 : BitVec 32} {s : Cpu} (hp : Prot false s.r) :
    deliver acc k idx code cr2 s = deliverIdt acc k idx code cr2 s := by
  unfold deliver
  rw [bind_getR]
  have hvm : (s.r.eflags &&& 0x20000#32 != 0#32) = false := by
    have := vm_off hp.2.2; simpa using this
  rw [if_pos (pe_on hp.pe)]
  simp only [hvm, Bool.false_and, Bool.and_false, bind_check, Bool.false_eq_true, if_false, false_and, and_false]

theorem ty_bits (d : BitVec 64) :
    ((d >>> 40 &&& 0x1F#64).toNat = 6 ∨ (d >>> 40 &&& 0x1F#64).toNat = 14 ∨ (d >>> 40 &&& 0x1F#64).toNat = 7 ∨
      (d >>> 40 &&& 0x1F#64).toNat = 15) →
    (decide (8 ≤ (d >>> 40 &&& 0x1F#64).toNat) = d[43] ∧
      (((d >>> 40 &&& 0x1F#64).toNat = 6 ∨ (d >>> 40 &&& 0x1F#64).toNat = 14) ↔ d[40] = false)) := by
  have h43 : d[43] = (d >>> 40 &&& 0x1F#64).toNat.testBit 3 := by
    rw [BitVec.testBit_toNat]; simp [BitVec.getLsbD_eq_getElem]
  have h40 : d[40] = (d >>> 40 &&& 0x1F#64).toNat.testBit 0 := by
    rw [BitVec.testBit_toNat]; simp [BitVec.getLsbD_eq_getElem]
  rw [h43, h40]
  generalize (d >>> 40 &&& 0x1F#64).toNat = n
  rintro (h | h | h | h) <;> subst h <;> decide

theorem mapExc_ok {α : Type} {f : Nat → BitVec 16 → Stop} {m : M α} {s s' : Cpu} {a : α} :
    mapExc f m s = .ok a s' ↔ m s = .ok a s' := by
  unfold mapExc
  cases h : m s with
  | ok b s2 => exact Iff.rfl
  | stop e s2 => cases e <;> simp

theorem keeps_eq {α : Type} {m : M α} {s s' : Cpu} {a : α} (h : ∀ P, Keeps P m) (ho : m s = .ok a s') : s'.r = s.r := by
  have := (h (fun r => r = s.r)).run s rfl
  rw [ho] at this
  exact this

/-- The state after an event was delivered, from the state `sx` in which the frame was pushed. -/
theorem deliverIdt_ok {acc : Acc} {k : Kind} {idx : Nat} {code : BitVec 16} {cr2 : BitVec 32} {s s1 : Cpu}
    (hp : Prot false s.r) (h : deliverIdt acc k idx code cr2 s = .ok () s1) :
    ∃ (sx sy : Cpu) (sp : BitVec 32) (cd : BitVec 64) (dpl : BitVec 64),
      sx.r = s.r ∧ cd = Spec.descAt s (Spec.gateSel (gateAt s idx)) ∧ dpl ≤ cpl s.r ∧ dpl = (if dConf cd then cpl s.r else dDpl cd) ∧
      ((dpl < cpl s.r ∧ ∃ nesp nss sd,
          pushAll acc (if (gateAt s idx)[43] then 4 else 2) (descBase sd) (stackMask (dDB sd)) 2
            (s.r.ss.sel.setWidth 32 :: s.r.esp :: ([flagsWord s.r, s.r.cs.sel.setWidth 32, s.r.eip] ++
              (if hasCode k idx then [code.setWidth 32] else []))) nesp sx = .ok sp sy ∧
          s1 = ⟨finish idx cr2 (stackMask (dDB sd)) (if (gateAt s idx)[40] = false then s.r.eflags &&& ~~~0x200#32 else s.r.eflags)
            (Spec.gateOff (gateAt s idx)) sp (Spec.gateSel (gateAt s idx)) cd dpl (switchSs nss sd dpl s.r), sy.mem⟩) ∨
       (dpl = cpl s.r ∧
          pushAll acc (if (gateAt s idx)[43] then 4 else 2) s.r.ss.base (stackMask (s.r.hflags &&& H_SS32 != 0#32)) 0
            ([flagsWord s.r, s.r.cs.sel.setWidth 32, s.r.eip] ++
              (if hasCode k idx then [code.setWidth 32] else [])) s.r.esp sx = .ok sp sy ∧
          s1 = ⟨finish idx cr2 (stackMask (s.r.hflags &&& H_SS32 != 0#32)) (if (gateAt s idx)[40] = false then s.r.eflags &&& ~~~0x200#32 else s.r.eflags)
            (Spec.gateOff (gateAt s idx)) sp (Spec.gateSel (gateAt s idx)) cd dpl s.r, sy.mem⟩)) := by
  unfold deliverIdt at h
  simp only [bind_getR, bind_check] at h
  split at h
  · cases h
  rw [bind_ok] at h
  obtain ⟨dv, sr, hrd, h⟩ := h
  unfold rd at hrd
  split at hrd
  case isFalse => cases hrd
  cases hrd
  simp only [bind_check] at h
  have hg : BitVec.ofNat 64 (load s.mem (s.r.idtBase + BitVec.ofNat 32 (idx * 8)) 8) = gateAt s idx := rfl
  rw [hg] at h
  generalize gateAt s idx = g at h ⊢
  clear hg
  split at h
  · cases h
  split at h
  · cases h
  rename_i hty
  split at h
  · cases h
  split at h
  · cases h
  split at h
  · cases h
  rw [bind_ok] at h
  obtain ⟨⟨ca, cd⟩, sr, hrd, h⟩ := h
  rw [mapExc_ok] at hrd
  have hr1 : sr.r = s.r := keeps_eq (fun P => keeps_readDesc acc false _) hrd
  simp only [bind_check] at h
  split at h
  · cases h
  rename_i hcpl
  split at h
  · cases h
  rw [bind_ok] at h
  obtain ⟨_, sa, hsa, h⟩ := h
  have hr2 : sa.r = s.r := (setAccessed_ok hsa).1.trans hr1
  have hty2 : ((g >>> 40 &&& 0x1F#64).toNat = 6 ∨ (g >>> 40 &&& 0x1F#64).toNat = 14 ∨ (g >>> 40 &&& 0x1F#64).toNat = 7 ∨
      (g >>> 40 &&& 0x1F#64).toNat = 15) := by
    simp only [Bool.not_eq_true', Bool.not_eq_false, Bool.or_eq_true, beq_iff_eq] at hty
    omega
  obtain ⟨h43, h40⟩ := ty_bits g hty2
  simp only [h43, h40, gateSel_eq, gateOff_eq] at h
  have hle : (if dConf cd = true then cpl s.r else dDpl cd) ≤ cpl s.r := by
    split
    · exact BitVec.le_refl _
    · simpa using hcpl
  have hflags : readEflags s.r = flagsWord s.r := rfl
  rw [hflags] at h
  generalize hd : (if dConf cd = true then cpl s.r else dDpl cd) = dpl at h hle
  have hcd : cd = Spec.descAt s (Spec.gateSel g) := by
    rw [readDesc_eq, gateSel_eq] at hrd
    split at hrd
    · cases hrd
    split at hrd
    · cases hrd; rfl
    · cases hrd
  split at h
  · rename_i hlt
    rw [if_neg (vm_off hp.2.2), bind_ok] at h
    obtain ⟨⟨nesp, nss, sd⟩, sx, hns, h⟩ := h
    have hr3 : sx.r = s.r := (keeps_eq (fun P => keeps_newStack acc _ _ _) hns).trans hr2
    rw [bind_ok] at h
    obtain ⟨sp, sy, hpush, h⟩ := h
    have hr4 : sy.r = s.r := (keeps_eq (fun P => keeps_pushAll acc _ _ _ _ _ _) hpush).trans hr3
    refine ⟨sx, sy, sp, cd, dpl, hr3, hcd, hle, hd.symm, .inl ⟨hlt, nesp, nss, sd, hpush, ?_⟩⟩
    cases h
    rw [hr4]
  · rename_i hlt
    simp only [bind_check] at h
    split at h
    · cases h
    rw [bind_ok] at h
    obtain ⟨sp, sy, hpush, h⟩ := h
    have hr4 : sy.r = s.r := (keeps_eq (fun P => keeps_pushAll acc _ _ _ _ _ _) hpush).trans hr2
    refine ⟨sa, sy, sp, cd, dpl, hr2, hcd, hle, hd.symm, .inr ⟨BitVec.le_antisymm hle (by simpa using hlt), hpush, ?_⟩⟩
    cases h
    rw [hr4]

theorem hasCode_eq (k : Kind) (idx : Nat) : hasCode k idx = (k.intn == 0 && !k.hw && Spec.codeVector idx) := by
  unfold hasCode Spec.codeVector
  simp only [List.contains_cons, List.contains_nil, Bool.or_false, Bool.or_assoc]

theorem esp_low (e sp : BitVec 32) :
    (((e &&& ~~~stackMask false) ||| (sp &&& stackMask false)).setWidth 16 : BitVec 16) = sp.setWidth 16 := by
  apply BitVec.eq_of_getLsbD_eq
  intro i hi
  have h1 : (stackMask false).getLsbD i = true := by
    have : ∀ i : Fin 16, (0xFFFF#32).getLsbD i.val = true := by decide
    exact this ⟨i, hi⟩
  have h2 : i < 32 := by omega
  simp only [BitVec.getLsbD_setWidth, BitVec.getLsbD_or, BitVec.getLsbD_and, BitVec.getLsbD_not, hi, h1, h2]
  simp

theorem esp_full (e sp : BitVec 32) : (e &&& ~~~stackMask true) ||| (sp &&& stackMask true) = sp := by
  show (e &&& ~~~0xFFFFFFFF#32) ||| (sp &&& 0xFFFFFFFF#32) = sp
  have h1 : ~~~0xFFFFFFFF#32 = 0#32 := by decide
  have h2 : (0xFFFFFFFF#32 : BitVec 32) = BitVec.allOnes 32 := by decide
  rw [h1, h2, BitVec.and_allOnes]; simp

theorem esp_item (b : Bool) (e sp n : BitVec 32) :
    (((e &&& ~~~stackMask b) ||| (sp &&& stackMask b)) + n) &&& stackMask b = (sp + n) &&& stackMask b := by
  cases b
  · have h := congrArg BitVec.toNat (esp_low e sp)
    generalize (e &&& ~~~stackMask false) ||| (sp &&& stackMask false) = x at *
    rw [BitVec.toNat_setWidth, BitVec.toNat_setWidth] at h
    simp only [mask_eq, Bool.false_eq_true, if_false]
    apply BitVec.eq_of_toNat_eq
    rw [low16_toNat, low16_toNat, BitVec.toNat_add, BitVec.toNat_add]
    omega
  · rw [esp_full]

theorem agreeCore_of_prot {r : Regs} (h : Prot false r) : AgreeCore r := h.coherent.1.1

theorem sel_small (x : BitVec 16) (w : Nat) (hw : w = 2 ∨ w = 4) : (x.setWidth 32 : BitVec 32).toNat % 256 ^ w = x.toNat := by
  rw [BitVec.toNat_setWidth]
  have := x.isLt
  rcases hw with rfl | rfl <;> omega

theorem esp_back (b : Bool) (e n : BitVec 32) :
    (if b = true then ((e &&& ~~~stackMask b) ||| ((e - n) &&& stackMask b)) + n
      else (((e &&& ~~~stackMask b) ||| ((e - n) &&& stackMask b))).extractLsb' 16 16 ++
        ((((e &&& ~~~stackMask b) ||| ((e - n) &&& stackMask b)) + n).setWidth 16 : BitVec 16)) = e := by
  cases b
  · rw [if_neg (by simp)]
    have h1 : (((e &&& ~~~stackMask false) ||| ((e - n) &&& stackMask false)) + n).setWidth 16 = (e.setWidth 16 : BitVec 16) := by
      have := congrArg (fun x : BitVec 32 => (x.setWidth 16 : BitVec 16)) (esp_item false e (e - n) n)
      simp only [BitVec.sub_add_cancel] at this
      have hm : ∀ x : BitVec 32, ((x &&& stackMask false).setWidth 16 : BitVec 16) = x.setWidth 16 := by
        intro x
        rw [mask_eq, if_neg (by simp)]
        apply BitVec.eq_of_toNat_eq
        simp
      rw [hm, hm] at this
      exact this
    rw [h1]
    have h2 : (((e &&& ~~~stackMask false) ||| ((e - n) &&& stackMask false))).extractLsb' 16 16 = e.extractLsb' 16 16 := by
      apply BitVec.eq_of_getLsbD_eq
      intro i hi
      have h1 : (stackMask false).getLsbD (16 + i) = false := by
        have : ∀ i : Fin 16, (0xFFFF#32).getLsbD (16 + i.val) = false := by decide
        exact this ⟨i, hi⟩
      have h2 : 16 + i < 32 := by omega
      simp only [BitVec.getLsbD_extractLsb', BitVec.getLsbD_or, BitVec.getLsbD_and, BitVec.getLsbD_not, hi, h1, h2]
      simp
    rw [h2]
    apply BitVec.eq_of_getLsbD_eq
    intro i hi
    rw [BitVec.getLsbD_append]
    by_cases hl : i < 16
    · simp [hl, BitVec.getLsbD_setWidth]
    · simp only [hl, decide_false, cond_false, BitVec.getLsbD_extractLsb']
      have : i - 16 < 16 := by omega
      have h3 : 16 + (i - 16) = i := by omega
      simp [this, h3]
  · rw [if_pos rfl, esp_full, BitVec.sub_add_cancel]

theorem level_prot {r : Regs} (h : mode r = .prot) : level r = r.cs.sel.setWidth 2 := by
  unfold level; rw [h]

/-- The frame pushed at `sp` is found on the stack of a state whose stack is that one. -/
theorem item_of_push {s1 : Cpu} {b : Bool} {base e sp : BitVec 32} {w i v : Nat} (hb : stack32 s1.r = b) (hs : s1.r.ss.base = base)
    (he : s1.r.esp = (e &&& ~~~stackMask b) ||| (sp &&& stackMask b))
    (h : load s1.mem (base + ((sp + BitVec.ofNat 32 (w * i)) &&& stackMask b)) w = v) : stackItem s1 w i = v := by
  unfold stackItem
  rw [stackAddr_eq, hb, hs, he, esp_item, h]

theorem flagBits1 : ∀ j : Fin 32, (~~~0x34100#32 : BitVec 32)[j.val] =
    !decide (j.val = 8 ∨ j.val = 14 ∨ j.val = 16 ∨ j.val = 17) := by decide
theorem flagBits2 : ∀ j : Fin 32, (~~~0x200#32 : BitVec 32)[j.val] = !decide (j.val = 9) := by decide

theorem flags_clear (e : BitVec 32) (b : Bool) (i : Nat) (hi : i < 32) :
    ((if b = false then e &&& ~~~0x200#32 else e) &&& ~~~0x34100#32)[i] =
      if i = 8 ∨ i = 14 ∨ i = 16 ∨ i = 17 then false
      else if i = 9 ∧ b = false then false else e[i] := by
  have u1 := flagBits1 ⟨i, hi⟩
  have u2 := flagBits2 ⟨i, hi⟩
  simp only at u1 u2
  rw [BitVec.getElem_and, u1]
  cases b
  · simp only [if_true, BitVec.getElem_and, u2, and_true]
    by_cases h1 : i = 8 ∨ i = 14 ∨ i = 16 ∨ i = 17
    · simp [h1]
    · by_cases h2 : i = 9 <;> simp [h1, h2]
  · simp only [Bool.true_eq_false, if_false, and_false]
    by_cases h1 : i = 8 ∨ i = 14 ∨ i = 16 ∨ i = 17 <;> simp [h1]

theorem dDB_bit (d : BitVec 64) : (descFlags d)[22] = dDB d := by
  rw [descFlags_eq]
  unfold dDB
  rw [bit64b d 0x40000000000000#64 54 (by omega) rfl]
  unfold Spec.rights
  simp

theorem finish_sel (idx : Nat) (cr2 mask e n sp : BitVec 32) (g cd dpl : BitVec 64) (dl : BitVec 2) (r : Regs)
    (hdl : dpl = dl.setWidth 64) :
    (finish idx cr2 mask e n sp (Spec.gateSel g) cd dpl r).cs.sel = Spec.withRpl (Spec.gateSel g) dl := by
  show (Spec.gateSel g &&& 0xFFFC#16) ||| dpl.setWidth 16 = _
  rw [hdl]; exact withRpl_eq _ _

theorem finish_ss (idx : Nat) (cr2 mask e n sp : BitVec 32) (sel : BitVec 16) (cd dpl : BitVec 64) (r : Regs) :
    (finish idx cr2 mask e n sp sel cd dpl r).ss = r.ss := rfl
theorem finish_esp (idx : Nat) (cr2 mask e n sp : BitVec 32) (sel : BitVec 16) (cd dpl : BitVec 64) (r : Regs) :
    (finish idx cr2 mask e n sp sel cd dpl r).esp = (r.esp &&& ~~~mask) ||| (sp &&& mask) := rfl

theorem le2_64 (x y : BitVec 2) : (x.setWidth 64 : BitVec 64) ≤ y.setWidth 64 ↔ x ≤ y := by
  rw [BitVec.le_def, BitVec.le_def, BitVec.toNat_setWidth, BitVec.toNat_setWidth]
  have := x.isLt
  have := y.isLt
  rw [Nat.mod_eq_of_lt (by omega), Nat.mod_eq_of_lt (by omega)]

theorem entered_of {s s1 : Cpu} {idx : Nat} {cr2 mask spv : BitVec 32} {g cd dpl : BitVec 64} {dl : BitVec 2} {r0 : Regs} {m : Guest.Mem}
    (hm1 : mode s1.r = .prot) (hlv : cpl s.r = (level s.r).setWidth 64) (hdl : dpl = dl.setWidth 64) (hle : dpl ≤ cpl s.r)
    (hcd : cd = Spec.descAt s (Spec.gateSel g)) (har : r0.arith = s.r.arith)
    (hda : r0.ds = s.r.ds ∧ r0.es = s.r.es ∧ r0.fs = s.r.fs ∧ r0.gs = s.r.gs)
    (hs1 : s1 = ⟨finish idx cr2 mask (if g[40] = false then s.r.eflags &&& ~~~0x200#32 else s.r.eflags)
        (Spec.gateOff g) spv (Spec.gateSel g) cd dpl r0, m⟩) : level s1.r = dl ∧ Spec.Entered s s1 g := by
  have hsel : s1.r.cs.sel = Spec.withRpl (Spec.gateSel g) dl := by rw [hs1]; exact finish_sel _ _ _ _ _ _ _ _ _ _ _ hdl
  have hl1 : level s1.r = dl := by rw [level_prot hm1, hsel, withRpl_low]
  have e1 : s1.r.eip = Spec.gateOff g := by rw [hs1]; rfl
  have e2 : s1.r.cs.base = descBase cd := by rw [hs1]; rfl
  have e3 : s1.r.cs.limit = descLimit cd := by rw [hs1]; rfl
  have e4 : s1.r.cs.flags = descFlags cd := by rw [hs1]; rfl
  have e5 : s1.r.eflags = (if g[40] = false then s.r.eflags &&& ~~~0x200#32 else s.r.eflags) &&& ~~~0x34100#32 := by rw [hs1]; rfl
  refine ⟨hl1, hm1, ?_, e1, ⟨hl1 ▸ hsel, ?_, ?_, ?_⟩, ?_, ?_, ?_⟩
  · rw [hl1, ← le2_64, ← hdl, ← hlv]; exact hle
  · rw [e2, descBase_eq, hcd]
  · rw [e3, descLimit_eq, hcd]
  · rw [e4, descFlags_eq, hcd]
  · intro i hi
    simp only [e5]
    exact flags_clear s.r.eflags g[40] i hi
  · rw [hs1]; exact har
  · rw [hs1]; exact hda

/-- Every event delivered in protected mode enters the handler its gate names and leaves the frame that IRET
expects. -/
theorem C73_event_frame (acc : Acc) (k : Kind) (idx : Nat) (code : BitVec 16) (cr2 : BitVec 32) (s s1 : Cpu)
    (ha : AgreeCore s.r) (hm : mode s.r = .prot) (h : deliver acc k idx code cr2 s = .ok () s1) :
    Spec.Entered s s1 (gateAt s idx) ∧
    (if (k.intn == 0 && !k.hw && Spec.codeVector idx) = true then
      Spec.Framed s s1 (if (gateAt s idx)[43] then 4 else 2) 1 ∧
        stackItem s1 (if (gateAt s idx)[43] then 4 else 2) 0 = code.toNat
    else Spec.Framed s s1 (if (gateAt s idx)[43] then 4 else 2) 0) := by
  have hp := prot_of ha hm
  have hk1 := (keeps_deliver_prot (fl := false) acc k idx code cr2).run s hp
  rw [h] at hk1
  have hp1 : Prot false s1.r := hk1
  have ha1 := agreeCore_of_prot hp1
  have hm1 : mode s1.r = .prot := mode_prot_of hp1
  rw [deliver_prot hp] at h
  rw [← hasCode_eq]
  obtain ⟨sx, sy, sp, cd, dpl, hsx, hcd, hle, hdpl, hcase⟩ := deliverIdt_ok hp h
  generalize hg : gateAt s idx = g at *
  generalize hw : (if g[43] = true then 4 else 2) = w at *
  have hw2 : w = 2 ∨ w = 4 := by rw [← hw]; split <;> simp
  have hlv : cpl s.r = (level s.r).setWidth 64 := cpl_level ha
  obtain ⟨dl, hdl⟩ : ∃ dl : BitVec 2, dpl = dl.setWidth 64 := by
    rw [hdpl, dDpl_eq]
    split
    · exact ⟨_, hlv⟩
    · exact ⟨_, rfl⟩
  rcases hcase with ⟨hlt, nesp, nss, sd, hpush, hs1⟩ | ⟨heq, hpush, hs1⟩
  · obtain ⟨hl1, hent⟩ := entered_of hm1 hlv hdl hle hcd (r0 := switchSs nss sd dpl s.r) rfl ⟨rfl, rfl, rfl, rfl⟩ hs1
    refine ⟨hent, ?_⟩
    have hb : stack32 s1.r = dDB sd := by
      unfold stack32
      rw [hm1, hs1]
      show (true && (descFlags sd)[22]) = _
      rw [Bool.true_and, dDB_bit]
    have item := fun i v => item_of_push (s1 := s1) (b := dDB sd) (base := descBase sd) (e := s.r.esp) (sp := sp) (w := w) (i := i) (v := v)
      hb (by rw [hs1]; rfl) (by rw [hs1]; rfl)
    have hmem : s1.mem = sy.mem := by rw [hs1]
    have hinner : level s1.r < level s.r := by
      rw [hl1, ← lt2, ← hdl, ← hlv]; exact hlt
    by_cases hcode : hasCode k idx = true
    · rw [if_pos hcode]
      rw [hcode] at hpush
      obtain ⟨-, -, -, hit⟩ := pushAll_ok (by omega) _ (by simp; omega) (by omega) hpush
      rw [← hmem] at hit
      refine ⟨⟨item 1 _ (hit 1 (by simp)), (item 2 _ (hit 2 (by simp))).trans (sel_small _ _ hw2), item 3 _ (hit 3 (by simp)),
        fun _ => item 4 _ (hit 4 (by simp)), fun _ => (item 5 _ (hit 5 (by simp))).trans (sel_small _ _ hw2),
        fun hn => absurd hinner hn⟩, (item 0 _ (hit 0 (by simp))).trans (sel_small _ _ hw2)⟩
    · rw [if_neg hcode]
      rw [if_neg hcode] at hpush
      obtain ⟨-, -, -, hit⟩ := pushAll_ok (by omega) _ (by simp; omega) (by omega) hpush
      rw [← hmem] at hit
      exact ⟨item 0 _ (hit 0 (by simp)), (item 1 _ (hit 1 (by simp))).trans (sel_small _ _ hw2), item 2 _ (hit 2 (by simp)),
        fun _ => item 3 _ (hit 3 (by simp)), fun _ => (item 4 _ (hit 4 (by simp))).trans (sel_small _ _ hw2),
        fun hn => absurd hinner hn⟩
  · obtain ⟨hl1, hent⟩ := entered_of hm1 hlv hdl hle hcd (r0 := s.r) rfl ⟨rfl, rfl, rfl, rfl⟩ hs1
    refine ⟨hent, ?_⟩
    rw [ss32_eq ha] at hpush
    have hss : s1.r.ss = s.r.ss := by rw [hs1]; exact finish_ss ..
    have hb : stack32 s1.r = stack32 s.r := by
      unfold stack32; rw [hm1, hm, hss]
    have hesp : s1.r.esp = (s.r.esp &&& ~~~stackMask (stack32 s.r)) ||| (sp &&& stackMask (stack32 s.r)) := by
      rw [← ss32_eq ha, hs1]; exact finish_esp ..
    have item := fun i v => item_of_push (s1 := s1) (b := stack32 s.r) (base := s.r.ss.base) (e := s.r.esp) (sp := sp) (w := w) (i := i) (v := v)
      hb (by rw [hss]) hesp
    have hmem : s1.mem = sy.mem := by rw [hs1]
    have hsame : ¬ level s1.r < level s.r := by
      rw [hl1, ← lt2, ← hdl, ← hlv, heq]; exact BitVec.lt_irrefl _
    have top : ∀ n, sp = s.r.esp - BitVec.ofNat 32 (w * n) → Spec.espAfter s1.r w n = s.r.esp := by
      intro n hsp
      unfold Spec.espAfter
      rw [hb, hesp, hsp]
      exact esp_back _ _ _
    by_cases hcode : hasCode k idx = true
    · rw [if_pos hcode]
      rw [hcode] at hpush
      obtain ⟨hsp', -, -, hit⟩ := pushAll_ok (by omega) _ (by simp; omega) (by omega) hpush
      rw [← hmem] at hit
      have hsp : sp = s.r.esp - BitVec.ofNat 32 (w * 4) := by
        have hl : ∀ n, n = (4 : Nat) → w * n = w * 4 := fun n h => by rw [h]
        rw [hsp', hl _ (by simp)]
      exact ⟨⟨item 1 _ (hit 1 (by simp)), (item 2 _ (hit 2 (by simp))).trans (sel_small _ _ hw2), item 3 _ (hit 3 (by simp)),
        fun hn => absurd hn hsame, fun hn => absurd hn hsame, fun _ => ⟨hss, top 4 hsp⟩⟩,
        (item 0 _ (hit 0 (by simp))).trans (sel_small _ _ hw2)⟩
    · rw [if_neg hcode]
      rw [if_neg hcode] at hpush
      obtain ⟨hsp', -, -, hit⟩ := pushAll_ok (by omega) _ (by simp; omega) (by omega) hpush
      rw [← hmem] at hit
      have hsp : sp = s.r.esp - BitVec.ofNat 32 (w * 3) := by
        have hl : ∀ n, n = (3 : Nat) → w * n = w * 3 := fun n h => by rw [h]
        rw [hsp', hl _ (by simp)]
      exact ⟨item 0 _ (hit 0 (by simp)), (item 1 _ (hit 1 (by simp))).trans (sel_small _ _ hw2), item 2 _ (hit 2 (by simp)),
        fun hn => absurd hn hsame, fun hn => absurd hn hsame, fun _ => ⟨hss, top 3 hsp⟩⟩

theorem gdBits : ∀ j : Fin 32, (~~~0x2000#32 : BitVec 32)[j.val] = !decide (j.val = 13) := by decide

theorem finish_cr2 (idx : Nat) (cr2 mask e n sp : BitVec 32) (sel : BitVec 16) (cd dpl : BitVec 64) (r : Regs) :
    (finish idx cr2 mask e n sp sel cd dpl r).cr2 = if idx = 14 then cr2 else r.cr2 := rfl
theorem finish_dr7 (idx : Nat) (cr2 mask e n sp : BitVec 32) (sel : BitVec 16) (cd dpl : BitVec 64) (r : Regs) :
    (finish idx cr2 mask e n sp sel cd dpl r).dr7 = if idx = 1 then r.dr7 &&& ~~~0x2000#32 else r.dr7 := rfl

/-- A page fault leaves its address in CR2, a debug exception turns DR7.GD off; no other event touches them. -/
theorem C73_event_regs (acc : Acc) (k : Kind) (idx : Nat) (code : BitVec 16) (cr2 : BitVec 32) (s s1 : Cpu)
    (ha : AgreeCore s.r) (hm : mode s.r = .prot) (h : deliver acc k idx code cr2 s = .ok () s1) :
    s1.r.cr2 = (if idx = 14 then cr2 else s.r.cr2) ∧
    (∀ (i : Nat) (_ : i < 32), s1.r.dr7[i] = if idx = 1 ∧ i = 13 then false else s.r.dr7[i]) := by
  have hp := prot_of ha hm
  rw [deliver_prot hp] at h
  have gd : ∀ x : BitVec 32, ∀ (i : Nat) (_ : i < 32), (if idx = 1 then x &&& ~~~0x2000#32 else x)[i] =
      if idx = 1 ∧ i = 13 then false else x[i] := by
    intro x i hi
    by_cases h1 : idx = 1
    · simp only [h1, if_true, true_and, BitVec.getElem_and, gdBits ⟨i, hi⟩]
      by_cases h2 : i = 13 <;> simp [h2]
    · simp [h1]
  obtain ⟨sx, sy, sp, cd, dpl, hsx, hcd, hle, hdpl, hcase⟩ := deliverIdt_ok hp h
  rcases hcase with ⟨hlt, nesp, nss, sd, hpush, hs1⟩ | ⟨heq, hpush, hs1⟩
  · have h2 : s1.r.dr7 = if idx = 1 then s.r.dr7 &&& ~~~0x2000#32 else s.r.dr7 := by rw [hs1]; exact finish_dr7 ..
    refine ⟨by rw [hs1]; exact finish_cr2 .., fun i hi => ?_⟩
    simp only [h2]
    exact gd _ i hi
  · have h2 : s1.r.dr7 = if idx = 1 then s.r.dr7 &&& ~~~0x2000#32 else s.r.dr7 := by rw [hs1]; exact finish_dr7 ..
    refine ⟨by rw [hs1]; exact finish_cr2 .., fun i hi => ?_⟩
    simp only [h2]
    exact gd _ i hi

end Verif.Seg
