import Verif.Spec.Vm86Event
import Verif.Props.Gate
import Verif.Props.RealEvent
/-
C83: events in vm86 mode.
-/
namespace Verif.Seg
open Guest (load store load_lt)
open Spec

theorem xor_zero {n : Nat} (x y : BitVec n) (h : x ^^^ y = 0) : x = y := by
  have := congrArg (· ^^^ y) h
  simpa [BitVec.xor_assoc] using this

/-- The word the new stack is checked with: a writable data segment of level 0, present. -/
theorem ss0Word (d : BitVec 64) (ss : BitVec 16)
    (h : ((d &&& 0x100000000000#64) >>> 44) ||| ((d &&& 0x80000000000#64) >>> 42) |||
      ((d &&& 0x20000000000#64) >>> 39) ||| ((d &&& 0x600000000000#64) >>> 42) ||| (Seg.rpl ss <<< 5) |||
      ((d &&& 0x800000000000#64) >>> 40) = 0x85#64) : StackSeg ss d 0#2 ∧ present d = true := by
  have b := fun i => congrArg (fun x : BitVec 64 => x.getLsbD i) h
  have b0 := b 0
  have b1 := b 1
  have b2 := b 2
  have b3 := b 3
  have b4 := b 4
  have b5 := b 5
  have b6 := b 6
  have b7 := b 7
  clear b h
  simp [Seg.rpl, BitVec.getLsbD_eq_getElem] at b0 b1 b2 b3 b4 b5 b6 b7
  unfold StackSeg isSeg isCode rw dpl Spec.rpl present
  refine ⟨⟨b0, b1, b2, ?_, ?_⟩, b7⟩
  · apply BitVec.eq_of_getLsbD_eq
    intro i hi
    obtain rfl | rfl : i = 0 ∨ i = 1 := by omega
    · simp [BitVec.getLsbD_eq_getElem, b3]
    · simp [BitVec.getLsbD_eq_getElem, b4]
  · apply BitVec.eq_of_getLsbD_eq
    intro i hi
    obtain rfl | rfl : i = 0 ∨ i = 1 := by omega
    · simp [BitVec.getLsbD_eq_getElem, b5]
    · simp [BitVec.getLsbD_eq_getElem, b6]

theorem tss_flag (r : Regs) : (r.tr.flags &&& 0x800#32 ≠ 0#32) ↔ tss32 r = true := by
  rw [and_ne_zero_bit r.tr.flags 0x800#32 11 (by omega) rfl]; rfl

theorem tssStack_ok {acc : Acc} {p : Nat} {s s' : Cpu} {e : BitVec 32} {ss : BitVec 16} (h : tssStack acc 0 p s = .ok (e, ss) s') :
    s' = s ∧ e = BitVec.ofNat 32 (esp0 s) ∧ ss = ss0 s := by
  unfold tssStack at h
  rw [bind_getR] at h
  dsimp only at h
  unfold esp0 ss0
  by_cases ht : tss32 s.r = true
  · rw [if_pos ((tss_flag s.r).2 ht)] at h
    rw [if_pos ht, if_pos ht]
    rw [bind_check] at h
    split at h
    · cases h
    rw [bind_rd] at h
    split at h
    · rw [bind_rd] at h
      split at h
      · cases h; exact ⟨rfl, rfl, rfl⟩
      · cases h
    · cases h
  · rw [if_neg (fun x => ht ((tss_flag s.r).1 x))] at h
    rw [if_neg ht, if_neg ht]
    rw [bind_check] at h
    split at h
    · cases h
    rw [bind_rd] at h
    split at h
    · rw [bind_rd] at h
      split at h
      · cases h; exact ⟨rfl, rfl, rfl⟩
      · cases h
    · cases h

theorem newStack_ok {acc : Acc} {x : BitVec 16} {s s' : Cpu} {e : BitVec 32} {ss : BitVec 16} {d : BitVec 64}
    (h : newStack acc x true 0 s = .ok (e, ss, d) s') :
    s'.r = s.r ∧ e = BitVec.ofNat 32 (esp0 s) ∧ ss = ss0 s ∧ d = descAt s ss ∧ StackSeg ss d 0#2 ∧ present d = true := by
  unfold newStack at h
  rw [bind_ok] at h
  obtain ⟨⟨e', ss'⟩, s1, h1, h⟩ := h
  rw [mapExc_ok] at h1
  obtain ⟨rfl, he, hs⟩ := tssStack_ok h1
  dsimp only at h
  rw [bind_check] at h
  split at h
  · cases h
  rw [bind_ok] at h
  obtain ⟨⟨a, d'⟩, s2, h2, h⟩ := h
  rw [mapExc_ok] at h2
  have hr2 : s2.r = s1.r := keeps_eq (fun P => keeps_readDesc acc false _) h2
  have hd : d' = descAt s1 ss' := by
    rw [readDesc_eq] at h2
    split at h2
    · cases h2
    split at h2
    · cases h2; rfl
    · cases h2
  simp only [if_true, bind_check] at h
  split at h
  · cases h
  rename_i hv
  have hv' := xor_zero _ _ (by simpa using hv)
  rw [bind_ok] at h
  obtain ⟨_, s3, h3, h⟩ := h
  cases h
  have := ss0Word d ss hv'
  exact ⟨(setAccessed_ok h3).1.trans hr2, he, hs, hd, this.1, this.2⟩

/-- The registers after a delivery from vm86 mode. -/
def vmRegs (idx : Nat) (cr2 : BitVec 32) (is32 : Bool) (eflags neip mask sp : BitVec 32) (sel nss : BitVec 16) (cd sd : BitVec 64) (r : Regs) : Regs :=
  { r with
    gs := nullSeg
    fs := nullSeg
    ds := nullSeg
    es := nullSeg
    cs := ⟨sel &&& 0xFFC#16, descBase cd, descLimit cd, descFlags cd⟩
    ss := ⟨nss, descBase sd, descLimit sd, descFlags sd⟩
    hflags := ((descFlags sd &&& HID_DB) >>> 19) |||
      ((((descFlags cd &&& HID_DB) >>> 20) ||| (r.hflags &&& ~~~(H_CS32 ||| H_CPL))) &&& ~~~H_SS32)
    eflags := eflags &&& ~~~0x34100#32
    esp := (r.esp &&& ~~~mask) ||| (sp &&& mask)
    eip := if is32 then neip else neip &&& 0xFFFF#32
    cr2 := if idx = 14 then cr2 else r.cr2
    dr7 := if idx = 1 then r.dr7 &&& ~~~0x2000#32 else r.dr7 }

/-- The values a delivery from vm86 mode pushes. -/
def vmFrame (r : Regs) (k : Kind) (idx : Nat) (code : BitVec 16) : List (BitVec 32) :=
  [r.gs.sel.setWidth 32, r.fs.sel.setWidth 32, r.ds.sel.setWidth 32,
    r.es.sel.setWidth 32, r.ss.sel.setWidth 32, r.esp, readEflags r, r.cs.sel.setWidth 32, r.eip] ++
    (if hasCode k idx then [code.setWidth 32] else [])

theorem fromVm86_eq (acc : Acc) (k : Kind) (idx : Nat) (code : BitVec 16) (cr2 : BitVec 32) (is32 : Bool)
    (eflags neip : BitVec 32) (sel : BitVec 16) (cd : BitVec 64) (dpl : Nat) :
    fromVm86 acc k idx code cr2 is32 eflags neip sel cd dpl = (getR >>= fun r =>
      check (dpl != 0) (.exc GP (selErr sel + k.ext)) >>= fun _ =>
      newStack acc k.ext true dpl >>= fun p =>
      pushAll acc (if is32 then 4 else 2) (descBase p.2.2) (stackMask (dDB p.2.2)) 2 (vmFrame r k idx code) p.1 >>= fun sp =>
      modR (vmRegs idx cr2 is32 eflags neip (stackMask (dDB p.2.2)) sp sel p.2.1 cd p.2.2)) := rfl

/-- The state after an event was delivered from vm86 mode. -/
theorem deliverIdt_vm {acc : Acc} {k : Kind} {idx : Nat} {code : BitVec 16} {cr2 : BitVec 32} {s s1 : Cpu}
    (hvm : s.r.eflags[17] = true) (h : deliverIdt acc k idx code cr2 s = .ok () s1) :
    ∃ (t sx sy : Cpu) (sp : BitVec 32) (cd sd : BitVec 64),
      Marked s t (gateSel (gateAt s idx)) ∧ sx.r = s.r ∧ cd = descAt s (gateSel (gateAt s idx)) ∧
      dpl cd = 0#2 ∧ conforming cd = false ∧ sd = descAt t (ss0 t) ∧ StackSeg (ss0 t) sd 0#2 ∧ present sd = true ∧
      pushAll acc (if (gateAt s idx)[43] then 4 else 2) (descBase sd) (stackMask (dDB sd)) 2 (vmFrame s.r k idx code)
        (BitVec.ofNat 32 (esp0 t)) sx = .ok sp sy ∧
      s1 = ⟨vmRegs idx cr2 (gateAt s idx)[43] (if (gateAt s idx)[40] = false then s.r.eflags &&& ~~~0x200#32 else s.r.eflags)
        (gateOff (gateAt s idx)) (stackMask (dDB sd)) sp (gateSel (gateAt s idx)) (ss0 t) cd sd s.r, sy.mem⟩ := by
  have hv : s.r.eflags &&& 0x20000#32 ≠ 0#32 := by rw [and_ne_zero_bit s.r.eflags 0x20000#32 17 (by omega) rfl]; exact hvm
  have hv' : (s.r.eflags &&& 0x20000#32 != 0#32) = true := by simpa using hv
  unfold deliverIdt at h
  simp only [bind_getR, bind_check] at h
  split at h
  · cases h
  rw [bind_ok] at h
  obtain ⟨dv, sr, hrd, h⟩ := h
  unfold rd at hrd
  split at hrd
  case isFalse => cases hrd
  cases hrd
  simp only [bind_check] at h
  have hg : BitVec.ofNat 64 (load s.mem (s.r.idtBase + BitVec.ofNat 32 (idx * 8)) 8) = gateAt s idx := rfl
  rw [hg] at h
  generalize gateAt s idx = g at h ⊢
  clear hg
  split at h
  · cases h
  split at h
  · cases h
  rename_i hty
  split at h
  · cases h
  split at h
  · cases h
  split at h
  · cases h
  rw [bind_ok] at h
  obtain ⟨⟨ca, cd⟩, sr, hrd, h⟩ := h
  rw [mapExc_ok] at hrd
  have hcd : cd = descAt s (gateSel g) ∧ ca = descAddr s.r (gateSel g) ∧ sr = s := by
    rw [readDesc_eq, gateSel_eq] at hrd
    split at hrd
    · cases hrd
    split at hrd
    · cases hrd; exact ⟨rfl, rfl, rfl⟩
    · cases hrd
  obtain ⟨hcd, hca, rfl⟩ := hcd
  simp only [bind_check] at h
  split at h
  · cases h
  rename_i hcpl
  split at h
  · cases h
  rw [bind_ok] at h
  obtain ⟨_, t, hsa, h⟩ := h
  have hmark : Marked sr t (gateSel g) := by
    have := setAccessed_mem hsa
    rw [hca, hcd] at this
    exact ⟨(setAccessed_ok hsa).1, this⟩
  have hty2 : ((g >>> 40 &&& 0x1F#64).toNat = 6 ∨ (g >>> 40 &&& 0x1F#64).toNat = 14 ∨ (g >>> 40 &&& 0x1F#64).toNat = 7 ∨
      (g >>> 40 &&& 0x1F#64).toNat = 15) := by
    simp only [Bool.not_eq_true', Bool.not_eq_false, Bool.or_eq_true, beq_iff_eq] at hty
    omega
  obtain ⟨h43, h40⟩ := ty_bits g hty2
  simp only [h43, h40, gateSel_eq, gateOff_eq] at h
  generalize hd : (if dConf cd = true then cpl sr.r else dDpl cd) = dl at h
  split at h
  · rename_i hlt
    rw [fromVm86_eq, bind_getR, bind_check] at h
    split at h
    · cases h
    rename_i hz
    have hz0 : dl.toNat = 0 := by simpa using hz
    rw [hz0, bind_ok] at h
    obtain ⟨⟨nesp, nss, sd⟩, sx, hns, h⟩ := h
    obtain ⟨hr3, he, hss, hsd, hst, hpr⟩ := newStack_ok hns
    dsimp only at h
    rw [bind_ok] at h
    obtain ⟨sp, sy, hpush, h⟩ := h
    have hr4 : sy.r = sx.r := keeps_eq (fun P => keeps_pushAll acc _ _ _ _ _ _) hpush
    have hconf : dConf cd = false := by
      cases hc : dConf cd
      · rfl
      · rw [hc, if_pos rfl] at hd
        rw [hd] at hlt
        exact absurd hlt (by simp)
    have hd0 : dpl cd = 0#2 := by
      rw [← hd, hconf, if_neg (by simp), dDpl_eq] at hz0
      apply BitVec.eq_of_toNat_eq
      rw [BitVec.toNat_setWidth] at hz0
      have := (dpl cd).isLt
      show _ = 0
      omega
    have hcf : conforming cd = false := by rw [← hconf, dConf_eq]
    subst hss
    rw [hmark.1] at hpush
    refine ⟨t, sx, sy, sp, cd, sd, hmark, hr3.trans hmark.1, hcd, hd0, hcf, hsd, hst, hpr, by rw [← he]; exact hpush, ?_⟩
    have := modR_ok.1 h
    rw [this, hr4, hr3, hmark.1]
  · simp only [bind_check] at h
    rw [if_pos hv'] at h
    cases h

theorem dpl_and (x : BitVec 16) : ((x &&& 0xFFC#16).setWidth 2 : BitVec 2) = 0#2 := by
  bits16

theorem mode_vm86 {r : Regs} : mode r = .vm86 ↔ r.cr0[0] = true ∧ r.eflags[17] = true := by
  unfold mode
  cases r.cr0[0] <;> cases r.eflags[17] <;> simp

theorem low16_mask (x : BitVec 32) : x &&& 0xFFFF#32 = (x.extractLsb' 0 16).setWidth 32 := by
  bits32

/-- Registers after the delivery, apart from the stack. -/
theorem vm_entered {s t s1 : Cpu} {idx : Nat} {cr2 mask sp : BitVec 32} {g cd sd : BitVec 64} {nss : BitVec 16} {m : Guest.Mem} {w c : Nat}
    (hp : s.r.cr0[0] = true) (hcd : cd = descAt s (gateSel g)) (hd : dpl cd = 0#2) (hc : conforming cd = false)
    (hsd : sd = descAt t (ss0 t)) (hss : nss = ss0 t) (hst : StackSeg (ss0 t) sd 0#2) (hpr : present sd = true)
    (hs1 : s1 = ⟨vmRegs idx cr2 g[43] (if g[40] = false then s.r.eflags &&& ~~~0x200#32 else s.r.eflags)
        (gateOff g) mask sp (gateSel g) nss cd sd s.r, m⟩)
    (hf : stackItem s1 w c = s.r.eip.toNat % 256 ^ w ∧ stackItem s1 w (c + 1) = s.r.cs.sel.toNat ∧
      stackItem s1 w (c + 2) = (flagsWord s.r).toNat % 256 ^ w ∧ stackItem s1 w (c + 3) = s.r.esp.toNat % 256 ^ w ∧
      stackItem s1 w (c + 4) = s.r.ss.sel.toNat ∧ stackItem s1 w (c + 5) = s.r.es.sel.toNat ∧
      stackItem s1 w (c + 6) = s.r.ds.sel.toNat ∧ stackItem s1 w (c + 7) = s.r.fs.sel.toNat ∧
      stackItem s1 w (c + 8) = s.r.gs.sel.toNat)
    (he : if stack32 s1.r then s1.r.esp + BitVec.ofNat 32 (w * (c + 9)) = BitVec.ofNat 32 (esp0 t)
      else (s1.r.esp + BitVec.ofNat 32 (w * (c + 9))).toNat % 65536 = esp0 t % 65536) :
    V86Entered s t s1 g idx cr2 w c := by
  have e5 : s1.r.eflags = (if g[40] = false then s.r.eflags &&& ~~~0x200#32 else s.r.eflags) &&& ~~~0x34100#32 := by rw [hs1]; rfl
  have h17 : s1.r.eflags[17] = false := by
    simp only [e5]; rw [flags_clear]; simp
  have hm : mode s1.r = .prot := mode_prot_mk (by rw [hs1]; exact hp) h17
  constructor
  · exact hm
  · unfold level
    rw [hm]
    show (s1.r.cs.sel.setWidth 2 : BitVec 2) = 0#2
    rw [hs1]; exact dpl_and _
  · rw [hs1]
    show (if g[43] = true then gateOff g else gateOff g &&& 0xFFFF#32) = _
    rw [low16_mask]
  · rw [hs1, ← hcd]; exact ⟨descBase_eq cd, descLimit_eq cd, descFlags_eq cd⟩
  · rw [← hcd]; exact ⟨hd, hc⟩
  · rw [← hsd]
    have := holds_desc (ss0 t) sd
    rw [hs1, hss]; exact this
  · rw [← hsd]; exact ⟨hst, hpr⟩
  · rw [hs1]; exact ⟨rfl, rfl, rfl, rfl⟩
  · exact hf
  · exact he
  · intro i hi
    simp only [e5]
    exact flags_clear s.r.eflags g[40] i hi
  · rw [hs1]; rfl
  · rw [hs1]; exact ⟨rfl, rfl, rfl, rfl, rfl, rfl, rfl, rfl, rfl⟩
  · rw [hs1]; rfl
  · intro i hi
    rw [hs1]
    show (if idx = 1 then s.r.dr7 &&& ~~~0x2000#32 else s.r.dr7 : BitVec 32)[i] = _
    have := gdBits ⟨i, hi⟩
    simp only at this
    by_cases h1 : idx = 1
    · simp only [h1, if_true]
      rw [BitVec.getElem_and, this]
      by_cases h2 : i = 13 <;> simp [h2]
    · simp [h1]

theorem vm_bit {r : Regs} (h : r.eflags[17] = true) : (r.eflags &&& 0x20000#32 != 0#32) = true := by
  have : r.eflags &&& 0x20000#32 ≠ 0#32 := by rw [and_ne_zero_bit r.eflags 0x20000#32 17 (by omega) rfl]; exact h
  simpa using this

theorem vme_bit {r : Regs} (h : AgreeCore r) : (r.hflags &&& 0x80000#32 != 0#32) = r.cr4[0] := by
  have := and_ne_zero_bit r.hflags 0x80000#32 19 (by omega) rfl
  rw [← h.vme]
  cases hb : r.hflags[19]
  · rw [hb] at this
    have : ¬ (r.hflags &&& 0x80000#32 ≠ 0#32) := fun x => by simpa using this.1 x
    simpa using this
  · rw [hb] at this; simpa using this.2 rfl

theorem iopl_lt (r : Regs) : (((r.eflags &&& 0x3000#32) >>> 12) < 3#32) ↔ iopl r ≠ 3#2 := by
  rw [iopl_eq]
  unfold iopl
  generalize (r.eflags.extractLsb' 12 2 : BitVec 2) = x
  revert x; decide

theorem iopl_is (r : Regs) : (((r.eflags &&& 0x3000#32) >>> 12) = 3#32) ↔ iopl r = 3#2 := by
  rw [iopl_eq]
  unfold iopl
  generalize (r.eflags.extractLsb' 12 2 : BitVec 2) = x
  revert x; decide

theorem byteBit : ∀ (b : BitVec 8) (i : Fin 8), (b.setWidth 32 &&& (1#32 <<< i.val) = 0#32) ↔ b.getLsbD i.val = false := by
  decide +kernel

theorem redir_eq (s : Cpu) (idx : Nat) (a : BitVec 32) :
    (BitVec.ofNat 32 (load s.mem a 1) &&& (1#32 <<< (idx % 8)) = 0#32) ↔ (load s.mem a 1).testBit (idx % 8) = false := by
  have hl := load_lt s.mem a 1
  generalize load s.mem a 1 = n at *
  have h := byteBit (BitVec.ofNat 8 n) ⟨idx % 8, by omega⟩
  have e : (BitVec.ofNat 8 n).setWidth 32 = BitVec.ofNat 32 n := by
    apply BitVec.eq_of_toNat_eq
    rw [BitVec.toNat_setWidth, BitVec.toNat_ofNat, BitVec.toNat_ofNat]
    omega
  rw [e] at h
  simp only at h
  rw [h, ← BitVec.testBit_toNat, BitVec.toNat_ofNat, Nat.mod_eq_of_lt (by omega)]

/-- INT n in vm86 mode with CR4.VME: the redirection bit decides. -/
def vmeInt (acc : Acc) (k : Kind) (idx : Nat) (code : BitVec 16) (cr2 : BitVec 32) (r : Regs) : M Unit :=
  rd acc (r.tr.base + 102#32) 2 0 >>= fun off =>
  rd acc (r.tr.base + BitVec.ofNat 32 off - 32#32 + BitVec.ofNat 32 (idx / 8)) 1 0 >>= fun b =>
  if BitVec.ofNat 32 b &&& (1#32 <<< (idx % 8)) = 0#32 then vmeRedirect acc idx cr2
  else check ((r.eflags &&& 0x3000#32) >>> 12 != 3#32) (.exc GP 0#16) >>= fun _ => deliverIdt acc k idx code cr2

theorem deliver_pe (acc : Acc) (k : Kind) (idx : Nat) (code : BitVec 16) (cr2 : BitVec 32) : deliver acc k idx code cr2 = (getR >>= fun r =>
    if r.hflags &&& H_PE ≠ 0#32 then
      check (k.intn == 2 && ((r.eflags &&& 0x20000#32 != 0#32) && !(r.hflags &&& 0x80000#32 != 0#32)) &&
        decide ((r.eflags &&& 0x3000#32) >>> 12 < 3#32)) (.exc GP 0#16) >>= fun _ =>
      if k.intn = 2 ∧ (r.eflags &&& 0x20000#32 != 0#32) = true ∧ (r.hflags &&& 0x80000#32 != 0#32) = true then vmeInt acc k idx code cr2 r
      else deliverIdt acc k idx code cr2
    else deliverReal acc idx) := rfl

/-- Delivery in vm86 mode, by cases. -/
theorem deliver_vm {acc : Acc} {k : Kind} {idx : Nat} {code : BitVec 16} {cr2 : BitVec 32} {s : Cpu} (ha : AgreeCore s.r)
    (hm : mode s.r = .vm86) : deliver acc k idx code cr2 s =
      if k.intn = 2 then
        if s.r.cr4[0] = true then vmeInt acc k idx code cr2 s.r s
        else if iopl s.r = 3#2 then deliverIdt acc k idx code cr2 s
        else .stop (.exc 13 0#16) s
      else deliverIdt acc k idx code cr2 s := by
  obtain ⟨hp, hv⟩ := mode_vm86.1 hm
  have hpe : s.r.hflags &&& H_PE ≠ 0#32 := by
    rw [and_ne_zero_bit s.r.hflags H_PE 4 (by omega) rfl, ha.pe, hp]
  rw [deliver_pe, bind_getR, if_pos hpe, bind_check, vm_bit hv, vme_bit ha]
  by_cases hk : k.intn = 2
  · rw [if_pos hk]
    cases hc : s.r.cr4[0]
    · rw [if_neg (show ¬ false = true by simp)]
      by_cases hi : iopl s.r = 3#2
      · rw [if_pos hi, if_neg (by simp [iopl_lt, hi]), if_neg (by simp)]
      · rw [if_neg hi, if_pos (by simp [iopl_lt, hi, hk])]
    · rw [if_pos rfl, if_neg (by simp), if_pos ⟨hk, rfl, rfl⟩]
  · rw [if_neg hk, if_neg (by simp [hk]), if_neg (by simp [hk])]

/-- C83: an event other than a redirected INT n that is delivered from vm86 mode enters a handler of level 0 on the stack that the TSS
names, with the ten or nine item frame that IRET needs to go back. Missing: the selector in CS, see the violation. -/
theorem C83_entry_partial (acc : Acc) (k : Kind) (idx : Nat) (code : BitVec 16) (cr2 : BitVec 32) (s s1 : Cpu)
    (ha : AgreeCore s.r) (hm : mode s.r = .vm86) (hk : k.intn ≠ 2 ∨ s.r.cr4[0] = false ∨ redirBit s idx = true)
    (h : deliver acc k idx code cr2 s = .ok () s1) :
    (k.intn = 2 → iopl s.r = 3#2) ∧ ∃ t, Marked s t (gateSel (gateAt s idx)) ∧
    if (k.intn == 0 && !k.hw && codeVector idx) = true then
      V86Entered s t s1 (gateAt s idx) idx cr2 (if (gateAt s idx)[43] then 4 else 2) 1 ∧
        stackItem s1 (if (gateAt s idx)[43] then 4 else 2) 0 = code.toNat
    else V86Entered s t s1 (gateAt s idx) idx cr2 (if (gateAt s idx)[43] then 4 else 2) 0 := by
  obtain ⟨hp, hv⟩ := mode_vm86.1 hm
  have hidt : deliverIdt acc k idx code cr2 s = .ok () s1 ∧ (k.intn = 2 → iopl s.r = 3#2) := by
    rw [deliver_vm ha hm] at h
    by_cases h2 : k.intn = 2
    · rw [if_pos h2] at h
      cases hc : s.r.cr4[0]
      · rw [hc, if_neg (by simp)] at h
        by_cases hi : iopl s.r = 3#2
        · rw [if_pos hi] at h; exact ⟨h, fun _ => hi⟩
        · rw [if_neg hi] at h; cases h
      · rw [hc, if_pos rfl] at h
        have hb : redirBit s idx = true := by
          rcases hk with h' | h' | h'
          · exact absurd h2 h'
          · rw [hc] at h'; cases h'
          · exact h'
        unfold vmeInt at h
        rw [bind_rd] at h
        split at h
        case isFalse => cases h
        rw [bind_rd] at h
        split at h
        case isFalse => cases h
        rw [if_neg (by rw [redir_eq]; unfold redirBit at hb; rw [hb]; simp), bind_check] at h
        by_cases hi : iopl s.r = 3#2
        · rw [if_neg (by simp [iopl_is, hi])] at h; exact ⟨h, fun _ => hi⟩
        · rw [if_pos (by simp [iopl_is, hi])] at h; cases h
    · rw [if_neg h2] at h; exact ⟨h, fun x => absurd x h2⟩
  obtain ⟨hidt, hio⟩ := hidt
  refine ⟨hio, ?_⟩
  obtain ⟨t, sx, sy, sp, cd, sd, hmk, hrx, hcd, hd, hcf, hsd, hst, hpr, hpush, hs1⟩ := deliverIdt_vm hv hidt
  refine ⟨t, hmk, ?_⟩
  rw [← hasCode_eq]
  generalize gateAt s idx = g at *
  generalize hw : (if g[43] = true then 4 else 2) = w at *
  have hw2 : w = 2 ∨ w = 4 := by rw [← hw]; split <;> simp
  have hm1 : mode s1.r = .prot := by
    refine mode_prot_mk (by rw [hs1]; exact hp) ?_
    have e5 : s1.r.eflags = (if g[40] = false then s.r.eflags &&& ~~~0x200#32 else s.r.eflags) &&& ~~~0x34100#32 := by rw [hs1]; rfl
    simp only [e5]; rw [flags_clear]; simp
  have hb : stack32 s1.r = dDB sd := by
    unfold stack32
    rw [hm1, ← dDB_bit, hs1]; simp; rfl
  have hbase : s1.r.ss.base = descBase sd := by rw [hs1]; rfl
  have hesp : s1.r.esp = (s.r.esp &&& ~~~stackMask (dDB sd)) ||| (sp &&& stackMask (dDB sd)) := by rw [hs1]; rfl
  have hmem : s1.mem = sy.mem := by rw [hs1]
  have item := fun i v => item_of_push (s1 := s1) (e := s.r.esp) (sp := sp) (w := w) (i := i) (v := v) hb hbase hesp
  have back : ∀ n : Nat, sp = BitVec.ofNat 32 (esp0 t) - BitVec.ofNat 32 (w * n) →
      if stack32 s1.r then s1.r.esp + BitVec.ofNat 32 (w * n) = BitVec.ofNat 32 (esp0 t)
      else (s1.r.esp + BitVec.ofNat 32 (w * n)).toNat % 65536 = esp0 t % 65536 := by
    intro n hn
    have he := esp_item (dDB sd) s.r.esp sp (BitVec.ofNat 32 (w * n))
    rw [← hesp, hn, BitVec.sub_add_cancel, mask_eq, mask_eq] at he
    rw [hb]
    cases hdb : dDB sd
    · rw [hdb, if_neg (by simp), if_neg (by simp)] at he
      rw [if_neg (by simp)]
      have := congrArg BitVec.toNat he
      rw [low16_toNat, low16_toNat, BitVec.toNat_ofNat] at this
      rw [this]
      omega
    · rw [hdb, if_pos rfl, if_pos rfl] at he
      rw [if_pos rfl]; exact he
  have hf : readEflags s.r = flagsWord s.r := rfl
  unfold vmFrame at hpush
  cases hc : hasCode k idx
  · rw [hc] at hpush
    simp only [Bool.false_eq_true, if_false, List.append_nil] at hpush ⊢
    obtain ⟨hsp, -, -, hit⟩ := pushAll_ok (by omega) _ (by simp; omega) (by omega) hpush
    simp only [List.length_cons, List.length_nil] at hsp hit
    rw [← hmem] at hit
    refine vm_entered hp hcd hd hcf hsd rfl hst hpr hs1 ⟨?_, ?_, ?_, ?_, ?_, ?_, ?_, ?_, ?_⟩ (back 9 hsp)
    · exact item 0 _ (hit 0 (by omega))
    · exact (item 1 _ (hit 1 (by omega))).trans (sel_small _ w hw2)
    · exact item 2 _ (hit 2 (by omega))
    · exact item 3 _ (hit 3 (by omega))
    · exact (item 4 _ (hit 4 (by omega))).trans (sel_small _ w hw2)
    · exact (item 5 _ (hit 5 (by omega))).trans (sel_small _ w hw2)
    · exact (item 6 _ (hit 6 (by omega))).trans (sel_small _ w hw2)
    · exact (item 7 _ (hit 7 (by omega))).trans (sel_small _ w hw2)
    · exact (item 8 _ (hit 8 (by omega))).trans (sel_small _ w hw2)
  · rw [hc] at hpush
    simp only [if_true, List.cons_append, List.nil_append] at hpush ⊢
    obtain ⟨hsp, -, -, hit⟩ := pushAll_ok (by omega) _ (by simp; omega) (by omega) hpush
    simp only [List.length_cons, List.length_nil] at hsp hit
    rw [← hmem] at hit
    refine ⟨vm_entered hp hcd hd hcf hsd rfl hst hpr hs1 ⟨?_, ?_, ?_, ?_, ?_, ?_, ?_, ?_, ?_⟩ (back 10 hsp), ?_⟩
    · exact item 1 _ (hit 1 (by omega))
    · exact (item 2 _ (hit 2 (by omega))).trans (sel_small _ w hw2)
    · exact item 3 _ (hit 3 (by omega))
    · exact item 4 _ (hit 4 (by omega))
    · exact (item 5 _ (hit 5 (by omega))).trans (sel_small _ w hw2)
    · exact (item 6 _ (hit 6 (by omega))).trans (sel_small _ w hw2)
    · exact (item 7 _ (hit 7 (by omega))).trans (sel_small _ w hw2)
    · exact (item 8 _ (hit 8 (by omega))).trans (sel_small _ w hw2)
    · exact (item 9 _ (hit 9 (by omega))).trans (sel_small _ w hw2)
    · exact (item 0 _ (hit 0 (by omega))).trans (sel_small _ w hw2)

/-- C83: INT n is not for vm86 programs with IOPL below 3, unless it is redirected: #GP(0), nothing changed. -/
theorem C83_int_denied (acc : Acc) (k : Kind) (idx : Nat) (code : BitVec 16) (cr2 : BitVec 32) (s : Cpu)
    (ha : AgreeCore s.r) (hm : mode s.r = .vm86) (hk : k.intn = 2) (hi : iopl s.r ≠ 3#2) :
    (s.r.cr4[0] = false → deliver acc k idx code cr2 s = .stop (.exc 13 0#16) s) ∧
    (s.r.cr4[0] = true → redirBit s idx = true →
      deliver acc k idx code cr2 s = .stop (.exc 13 0#16) s ∨ deliver acc k idx code cr2 s = .stop .fault s) := by
  rw [deliver_vm ha hm, if_pos hk]
  refine ⟨fun h => by rw [h, if_neg (by simp), if_neg hi], fun h hb => ?_⟩
  rw [h, if_pos rfl]
  unfold vmeInt
  rw [bind_rd]
  split
  case isFalse => exact .inr rfl
  rw [bind_rd]
  split
  case isFalse => exact .inr rfl
  rw [if_neg (by rw [redir_eq]; unfold redirBit at hb; rw [hb]; simp), bind_check, if_pos (by simp [iopl_is, hi])]
  exact .inl rfl

/-- The registers after a redirected INT n. -/
def redirRegs (idx : Nat) (cr2 io mask vec sp : BitVec 32) (r : Regs) : Regs :=
  let sel : BitVec 16 := (vec >>> 16).setWidth 16
  { r with
    esp := (r.esp &&& ~~~mask) ||| (sp &&& mask)
    cs := { r.cs with sel := sel, base := sel.setWidth 32 <<< 4 }
    eip := vec &&& 0xFFFF#32
    eflags := r.eflags &&& ~~~(if io = 3#32 then 0x80300#32 else 0x100#32)
    cr2 := if idx = 14 then cr2 else r.cr2
    dr7 := if idx = 1 then r.dr7 &&& ~~~0x2000#32 else r.dr7 }

/-- The flags a redirected INT n pushes. -/
def redirFlags (r : Regs) : BitVec 32 :=
  if (r.eflags &&& 0x3000#32) >>> 12 < 3#32 then
    ((readEflags r &&& 0x80000#32) >>> 10) ||| (readEflags r &&& ~~~0x3200#32) ||| 0x3000#32 else readEflags r

theorem vmeRedirect_eq (acc : Acc) (idx : Nat) (cr2 : BitVec 32) : vmeRedirect acc idx cr2 = (getR >>= fun r =>
    pushAll acc 2 r.ss.base (stackMask (r.hflags &&& H_SS32 != 0#32)) 0 [redirFlags r, r.cs.sel.setWidth 32, r.eip] r.esp >>= fun sp =>
    rd acc (BitVec.ofNat 32 (idx * 4)) 4 0 >>= fun v =>
    modR (redirRegs idx cr2 ((r.eflags &&& 0x3000#32) >>> 12) (stackMask (r.hflags &&& H_SS32 != 0#32)) (BitVec.ofNat 32 v) sp)) := rfl

theorem redirMask : ∀ (b : Bool) (j : Fin 32), j.val ≠ 9 → j.val ≠ 19 →
    (~~~(if b then 0x80300#32 else 0x100#32) : BitVec 32)[j.val] = !decide (j.val = 8) := by decide

theorem imageBits (x : BitVec 32) : ∀ j : Fin 16, (((x &&& 0x80000#32) >>> 10) ||| (x &&& ~~~0x3200#32) ||| 0x3000#32).getLsbD j.val =
    if j.val = 9 then x.getLsbD 19 else if j.val = 12 ∨ j.val = 13 then true else x.getLsbD j.val := by
  intro ⟨j, hj⟩
  have c : j = 0 ∨ j = 1 ∨ j = 2 ∨ j = 3 ∨ j = 4 ∨ j = 5 ∨ j = 6 ∨ j = 7 ∨ j = 8 ∨ j = 9 ∨ j = 10 ∨ j = 11 ∨ j = 12 ∨ j = 13 ∨ j = 14 ∨ j = 15 := by omega
  rcases c with rfl | rfl | rfl | rfl | rfl | rfl | rfl | rfl | rfl | rfl | rfl | rfl | rfl | rfl | rfl | rfl <;> simp

/-- C83: INT n of a vm86 program with CR4.VME and a clear redirection bit page faults or enters the handler that the program's own table
names. Missing: IF and VIF, see the violation, and vector 14, where CR2 is overwritten (C108_redirected_violation). -/
theorem C83_redirected_partial (acc : Acc) (k : Kind) (idx : Nat) (code : BitVec 16) (cr2 : BitVec 32) (s : Cpu)
    (ha : AgreeCore s.r) (hm : mode s.r = .vm86) (hk : k.intn = 2) (hv : s.r.cr4[0] = true) (hb : redirBit s idx = false) (h14 : idx ≠ 14) :
    FaultOr (fun s1 => Redirected s s1 idx) (deliver acc k idx code cr2 s) := by
  rw [deliver_vm ha hm, if_pos hk, hv, if_pos rfl]
  unfold vmeInt
  rw [bind_rd]
  split
  case isFalse => trivial
  rw [bind_rd]
  split
  case isFalse => trivial
  rw [if_pos (by rw [redir_eq]; exact hb), vmeRedirect_eq, bind_getR]
  have h32 : (s.r.hflags &&& H_SS32 != 0#32) = false := by
    rw [ss32_eq ha]; unfold stack32; rw [hm]; rfl
  rw [h32]
  generalize hres : (pushAll acc 2 s.r.ss.base (stackMask false) 0 [redirFlags s.r, s.r.cs.sel.setWidth 32, s.r.eip] s.r.esp >>= fun sp =>
    rd acc (BitVec.ofNat 32 (idx * 4)) 4 0 >>= fun v =>
    modR (redirRegs idx cr2 ((s.r.eflags &&& 0x3000#32) >>> 12) (stackMask false) (BitVec.ofNat 32 v) sp)) s = res
  cases res with
  | stop e s' =>
    rcases bind_stop.1 hres with hp | ⟨sp, sx, -, hx⟩
    · rw [pushAll_stop _ hp]; trivial
    · rw [bind_rd] at hx
      split at hx
      · cases hx
      · cases hx; trivial
  | ok u s1 =>
    obtain ⟨sp, sx, hpush, hx⟩ := bind_ok.1 hres
    rw [bind_rd] at hx
    split at hx
    case isFalse => cases hx
    have hs1 := modR_ok.1 hx
    obtain ⟨hsp, hrx, -, hit⟩ := pushAll_ok (by omega) _ (by simp) (by omega) hpush
    have hmem := pushAll_mem _ hpush
    simp only [List.length_cons, List.length_nil] at hsp hit hmem
    show Redirected s s1 idx
    have hmm : s1.mem = sx.mem := by rw [hs1]
    have l1 := load_lt s1.mem (BitVec.ofNat 32 (idx * 4)) 2
    have l2 := load_lt s1.mem (BitVec.ofNat 32 (idx * 4) + 2#32) 2
    rw [← hmm, load_split] at hs1
    generalize ho : load s1.mem (BitVec.ofNat 32 (idx * 4)) 2 = o at *
    generalize hse : load s1.mem (BitVec.ofNat 32 (idx * 4) + 2#32) 2 = se at *
    have hr1 : s1.r = redirRegs idx cr2 ((s.r.eflags &&& 0x3000#32) >>> 12) (stackMask false) (BitVec.ofNat 32 (o + se * 65536)) sp s.r := by
      rw [hs1, ← hrx]
    generalize hvec : BitVec.ofNat 32 (o + se * 65536) = vec at *
    have hlow : (vec &&& 0xFFFF#32).toNat = o := by rw [← hvec]; exact vec_low o se (by omega)
    have hhigh : ((vec >>> 16 : BitVec 32).setWidth 16 : BitVec 16).toNat = se := by rw [← hvec]; exact vec_high o se (by omega) (by omega)
    have hfl : ∀ (i : Nat) (h : i < 32), i ≠ 9 → i ≠ 19 → s1.r.eflags[i] = if i = 8 then false else s.r.eflags[i] := by
      intro i hi h9 h19
      rw [hr1]
      show (s.r.eflags &&& ~~~(if (s.r.eflags &&& 0x3000#32) >>> 12 = 3#32 then 0x80300#32 else 0x100#32))[i] = _
      have := redirMask (decide ((s.r.eflags &&& 0x3000#32) >>> 12 = 3#32)) ⟨i, hi⟩ h9 h19
      simp only [decide_eq_true_eq] at this
      rw [BitVec.getElem_and, this]
      by_cases h8 : i = 8 <;> simp [h8]
    have hm1 : mode s1.r = .vm86 := by
      obtain ⟨h1, h2⟩ := mode_vm86.1 hm
      refine mode_vm86.2 ⟨by rw [hr1]; exact h1, ?_⟩
      rw [hfl 17 (by omega) (by omega) (by omega), if_neg (by omega)]; exact h2
    have hss : s1.r.ss = s.r.ss := by rw [hr1]; rfl
    have hesp : s1.r.esp = (s.r.esp &&& ~~~stackMask false) ||| (sp &&& stackMask false) := by rw [hr1]; rfl
    have hb1 : stack32 s1.r = false := by unfold stack32; rw [hm1]; rfl
    have item := fun i v => item_of_push (s1 := s1) (b := false) (base := s.r.ss.base) (e := s.r.esp) (sp := sp) (w := 2) (i := i) (v := v)
      hb1 (by rw [hss]) hesp
    rw [← hmm] at hit
    have hadr : ∀ i, stackAddr s1.r 2 i = s.r.ss.base + ((sp + BitVec.ofNat 32 (2 * i)) &&& stackMask false) := by
      intro i
      rw [stackAddr_eq, hb1, hss, hesp]
      congr 1
      exact esp_item false s.r.esp sp _
    constructor
    · exact hm1
    · exact ⟨item 0 _ (hit 0 (by omega)), (item 1 _ (hit 1 (by omega))).trans (sel_small _ 2 (Or.inl rfl))⟩
    · intro i hi
      have h2 : stackItem s1 2 2 = (redirFlags s.r).toNat % 65536 := item 2 _ (hit 2 (by omega))
      rw [h2, show 65536 = 2 ^ 16 from rfl, Nat.testBit_mod_two_pow, BitVec.testBit_toNat]
      simp only [hi, decide_true, Bool.true_and]
      unfold redirFlags
      by_cases hio : iopl s.r = 3#2
      · rw [if_neg (by rw [iopl_lt]; simp [hio]), if_pos hio]; rfl
      · rw [if_pos (by rw [iopl_lt]; exact hio), if_neg hio]
        exact imageBits _ ⟨i, hi⟩
    · unfold espAfter
      rw [hb1, hesp, hsp]
      exact esp_back false _ _
    · rw [hr1, ho]; exact hlow
    · rw [hr1, hse]; exact hhigh
    · rw [hr1]; exact sel_base _
    · rw [hr1]; exact ⟨rfl, rfl⟩
    · exact hfl
    · rw [hr1]; rfl
    · rw [hr1]; exact ⟨rfl, rfl, rfl, rfl, rfl, rfl, rfl⟩
    · rw [hr1]; exact ⟨rfl, if_neg h14, rfl, rfl, rfl, rfl, rfl, rfl⟩
    · intro x hx
      rw [hmm]
      apply hmem x
      intro i hi
      have := hx i (by omega)
      rwa [hadr i] at this

namespace EventP
open SegP

/-- A vm86 program with CR4.VME, IOPL 0 and virtual interrupts enabled (VIF); the map of the TSS redirects all its INT n, its own table
sends INT 0x21 to 0x200:0x50. -/
def vmeProg : Cpu := ⟨{ vprog.r with cr4 := 1#32, hflags := 0x1A80013#32, eflags := 0xA0002#32, eip := 0x22#32, arith := 0x41#32 },
  fun a => if a = 0x3066#32 then 0x88#8 else if a = 0x84#32 then 0x50#8 else if a = 0x87#32 then 2#8 else mem a⟩
def vmeEntry : Cpu := endState (deliver allOk ⟨2, false⟩ 0x21 0#16 0#32 vmeProg)

/-- The vm86 program with an IDT whose gate 13 names selector 0x2008, the same code segment again. -/
def farGate : Cpu := ⟨{ vprog.r with gdtLimit := 0x200F#32 },
  fun a => if a = 0x106B#32 then 0x20#8 else if a.toNat / 8 = 0x801 then mem (a - 0x2000#32) else mem a⟩
def farEntry : Cpu := endState (deliver allOk .exn 13 0#16 0#32 farGate)
end EventP
open EventP SegP

/-- The hypotheses of the theorems, and what the program's #GP handler finds. -/
example : AgreeCore vprog.r ∧ mode vprog.r = .vm86 ∧ deliver allOk .exn 13 0#16 0#32 vprog = .ok () ventry := by
  refine ⟨by constructor <;> decide, by decide, of_completed (by decide +kernel)⟩
example : esp0 vprog = 0x9000 ∧ ss0 vprog = 0x10#16 ∧ stackItem ventry 4 9 = 0 ∧ stackItem ventry 4 1 = 0x20 ∧ ventry.r.cs.sel = 8#16 := by
  decide +kernel
example : AgreeCore vmeProg.r ∧ mode vmeProg.r = .vm86 ∧ vmeProg.r.cr4[0] = true ∧ iopl vmeProg.r = 0#2 ∧ redirBit vmeProg 0x21 = false ∧
    deliver allOk ⟨2, false⟩ 0x21 0#16 0#32 vmeProg = .ok () vmeEntry := by
  refine ⟨by constructor <;> decide, by decide, by decide, by decide, by decide +kernel, of_completed (by decide +kernel)⟩
example : vmeEntry.r.eip = 0x50#32 ∧ vmeEntry.r.cs.base = 0x2000#32 ∧ stackItem vmeEntry 2 2 = 0x3243 := by decide +kernel

/-- C83 fails: the selector of the handler is cut to 12 bits. The gate names 0x2008, whose descriptor is loaded, but CS reads as 8. -/
theorem C83_selector_violation : AgreeCore farGate.r ∧ mode farGate.r = .vm86 ∧ gateSel (gateAt farGate 13) = 0x2008#16 ∧
    deliver allOk .exn 13 0#16 0#32 farGate = .ok () farEntry ∧ farEntry.r.cs.sel = 8#16 := by
  refine ⟨by constructor <;> decide, by decide, by decide +kernel, of_completed (by decide +kernel), by decide +kernel⟩

/-- C83 fails: a redirected INT n with IOPL below 3 leaves virtual interrupts enabled: VIF is in the frame as IF, but not cleared. -/
theorem C83_vif_violation : iopl vmeProg.r = 0#2 ∧ vmeProg.r.eflags[19] = true ∧
    deliver allOk ⟨2, false⟩ 0x21 0#16 0#32 vmeProg = .ok () vmeEntry ∧ vmeEntry.r.eflags[19] = true := by
  refine ⟨by decide, by decide, of_completed (by decide +kernel), by decide +kernel⟩

/-- C83 fails: it does not update the flat bit of CS; a program at segment 0 that executes INT 0x21 goes on at linear address 0x50, not
0x2050. -/
theorem C83_flat_violation : ∃ s s1 : Cpu, Agree s.r ∧ mode s.r = .vm86 ∧ deliver allOk ⟨2, false⟩ 0x21 0#16 0#32 s = .ok () s1 ∧
    s1.r.hflags[22] = true ∧ s1.r.cs.base = 0x2000#32 := by
  refine ⟨⟨{ vmeProg.r with cs := ⟨0#16, 0#32, 0xFFFF#32, 0xFB00#32⟩, hflags := 0x1E80013#32 }, vmeProg.mem⟩, _,
    ⟨by constructor <;> decide, by constructor <;> decide⟩, by decide, of_completed (by decide +kernel), by decide +kernel, by decide +kernel⟩

/-- C83: a redirected INT n is done with the rights of the program: its interrupt table and its stack are accessed at its own level.  If the program
itself may not read the entry of its interrupt table, or may not write below its stack pointer, the instruction does not complete. -/
theorem C83_redirected_rights (acc : Acc) (k : Kind) (idx : Nat) (code : BitVec 16) (cr2 : BitVec 32) (s s1 : Cpu)
    (ha : AgreeCore s.r) (hm : mode s.r = .vm86) (hk : k.intn = 2) (hv : s.r.cr4[0] = true) (hb : redirBit s idx = false)
    (h : deliver acc k idx code cr2 s = .ok () s1) :
    let own : Nat := 0
    acc s (s.r.ss.base + ((s.r.esp - 2#32) &&& 0xFFFF#32)) 2 true own = true ∧
    ∃ t : Cpu, t.r = s.r ∧ acc t (BitVec.ofNat 32 (idx * 4)) 4 false own = true := by
  intro own
  rw [deliver_vm ha hm, if_pos hk, hv, if_pos rfl] at h
  unfold vmeInt at h
  rw [bind_rd] at h
  split at h
  case isFalse => cases h
  rw [bind_rd] at h
  split at h
  case isFalse => cases h
  rw [if_pos (by rw [redir_eq]; exact hb), vmeRedirect_eq, bind_getR] at h
  have h32 : (s.r.hflags &&& H_SS32 != 0#32) = false := by
    rw [ss32_eq ha]; unfold stack32; rw [hm]; rfl
  rw [h32] at h
  obtain ⟨sp, sx, hpush, hx⟩ := bind_ok.1 h
  rw [bind_rd] at hx
  split at hx
  case isFalse => cases hx
  next hacc =>
  obtain ⟨-, hrx, -, -⟩ := pushAll_ok (by omega) _ (by simp) (by omega) hpush
  refine ⟨?_, sx, hrx, hacc⟩
  unfold pushAll at hpush
  obtain ⟨x, sy, hp, -⟩ := bind_ok.1 hpush
  unfold pushRaw at hp
  obtain ⟨u, sz, hw, -⟩ := bind_ok.1 hp
  unfold wr at hw
  split at hw
  case isFalse => cases hw
  next hq => exact hq

/-- Hypotheses met by `vmeProg` (see the examples below C83_redirected_partial), and not vacuous: with the stack out of reach INT n faults. -/
example : deliver allOk ⟨2, false⟩ 0x21 0#16 0#32 vmeProg = .ok () vmeEntry ∧ redirBit vmeProg 0x21 = false ∧
    completed (deliver (fun _ a _ w _ => !(w && a.toNat / 4096 == (vmeProg.r.ss.base.toNat + (vmeProg.r.esp - 2#32).toNat) / 4096)) ⟨2, false⟩ 0x21 0#16 0#32 vmeProg) = false := by
  refine ⟨of_completed (by decide +kernel), by decide +kernel, by decide +kernel⟩

end Verif.Seg
