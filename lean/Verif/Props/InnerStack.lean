import Verif.Spec.InnerStack
import Verif.Props.Vm86Event
import Verif.Props.FarCall
/-
C92: a more privileged level runs on the stack its task state segment names.
-/
namespace Verif.Seg
open Guest (load store load_lt)
open Spec

namespace InnerP

theorem two (x y : BitVec 2) (h0 : x.getLsbD 0 = y.getLsbD 0) (h1 : x.getLsbD 1 = y.getLsbD 1) : x = y := by
  apply BitVec.eq_of_getLsbD_eq
  intro i hi
  obtain rfl | rfl : i = 0 ∨ i = 1 := by omega
  · exact h0
  · exact h1

theorem callWord (d : BitVec 64) (ss : BitVec 16) (l : BitVec 2)
    (h : ((d &&& 0x100000000000#64) >>> 44) ||| ((d &&& 0x80000000000#64) >>> 42) |||
      ((d &&& 0x20000000000#64) >>> 39) ||| ((d &&& 0x600000000000#64) >>> 42) ||| (Seg.rpl ss <<< 5) =
      (5#64 ||| ((l.setWidth 64 : BitVec 64) <<< 3) ||| ((l.setWidth 64 : BitVec 64) <<< 5))) : StackSeg ss d l := by
  have b := fun i => congrArg (fun x : BitVec 64 => x.getLsbD i) h
  have b0 := b 0
  have b1 := b 1
  have b2 := b 2
  have b3 := b 3
  have b4 := b 4
  have b5 := b 5
  have b6 := b 6
  clear b h
  simp [Seg.rpl, BitVec.getLsbD_eq_getElem] at b0 b1 b2 b3 b4 b5 b6
  unfold StackSeg isSeg isCode rw dpl Spec.rpl
  refine ⟨b0, b1, b2, two _ _ ?_ ?_, two _ _ ?_ ?_⟩ <;> simp [BitVec.getLsbD_eq_getElem, *]

theorem newWord (d : BitVec 64) (ss : BitVec 16) (l : BitVec 2)
    (h : ((d &&& 0x100000000000#64) >>> 44) ||| ((d &&& 0x80000000000#64) >>> 42) |||
      ((d &&& 0x20000000000#64) >>> 39) ||| ((d &&& 0x600000000000#64) >>> 42) ||| (Seg.rpl ss <<< 5) ||| ((d &&& 0x800000000000#64) >>> 40) =
      (0x85#64 ||| ((l.setWidth 64 : BitVec 64) <<< 3) ||| ((l.setWidth 64 : BitVec 64) <<< 5))) : StackSeg ss d l ∧ present d = true := by
  have b := fun i => congrArg (fun x : BitVec 64 => x.getLsbD i) h
  have b0 := b 0
  have b1 := b 1
  have b2 := b 2
  have b3 := b 3
  have b4 := b 4
  have b5 := b 5
  have b6 := b 6
  have b7 := b 7
  clear b h
  simp [Seg.rpl, BitVec.getLsbD_eq_getElem] at b0 b1 b2 b3 b4 b5 b6 b7
  unfold StackSeg isSeg isCode rw dpl Spec.rpl present
  refine ⟨⟨b0, b1, b2, two _ _ ?_ ?_, two _ _ ?_ ?_⟩, b7⟩ <;> simp [BitVec.getLsbD_eq_getElem, *]

theorem tss_ok {acc : Acc} {p : Nat} {l : BitVec 2} {s s' : Cpu} {x : BitVec 32 × BitVec 16} (h : tssStack acc l.toNat p s = .ok x s') :
    s' = s ∧ HasSlot s.r l ∧ x.1 = BitVec.ofNat 32 (tssEsp s l) ∧ x.2 = tssSs s l := by
  unfold tssStack at h
  rw [bind_getR] at h
  dsimp only at h
  unfold HasSlot tssEsp tssSs slot slotWidth
  by_cases ht : tss32 s.r = true
  · rw [if_pos ((tss_flag s.r).2 ht)] at h
    simp only [if_pos ht]
    rw [bind_check] at h
    split at h
    · cases h
    rename_i hlim
    rw [bind_rd] at h
    split at h
    case isFalse => cases h
    rw [bind_rd] at h
    split at h
    case isFalse => cases h
    have e : 2 * 2 ^ 1 + l.toNat * (4 * 2 ^ 1) = 4 + 8 * l.toNat := by omega
    rw [e] at h hlim
    simp only [decide_eq_true_eq] at hlim
    cases h
    exact ⟨rfl, by omega, rfl, rfl⟩
  · rw [if_neg (fun x => ht ((tss_flag s.r).1 x))] at h
    simp only [if_neg ht]
    rw [bind_check] at h
    split at h
    · cases h
    rename_i hlim
    rw [bind_rd] at h
    split at h
    case isFalse => cases h
    rw [bind_rd] at h
    split at h
    case isFalse => cases h
    have e : 2 * 2 ^ 0 + l.toNat * (4 * 2 ^ 0) = 2 + 4 * l.toNat := by omega
    rw [e] at h hlim
    simp only [decide_eq_true_eq] at hlim
    cases h
    exact ⟨rfl, by omega, rfl, rfl⟩

theorem read_desc {acc : Acc} {sel : BitVec 16} {s s' : Cpu} {a : BitVec 32} {d : BitVec 64} (h : readDesc acc false sel s = .ok (a, d) s') :
    d = descAt s sel ∧ (TableFits s.r sel → InTable s.r sel) := by
  rw [readDesc_eq] at h
  split at h
  · cases h
  rename_i hout
  refine ⟨?_, fun hf => Decidable.not_not.1 (fun hc => hout ((outside_iff _ _ hf).2 hc))⟩
  split at h
  · cases h; rfl
  · cases h

theorem read_state {acc : Acc} {sel : BitVec 16} {s s' : Cpu} {p : BitVec 32 × BitVec 64} (h : readDesc acc false sel s = .ok p s') : s' = s := by
  rw [readDesc_eq] at h
  split at h
  · cases h
  split at h
  · cases h; rfl
  · cases h

theorem stack_of {s : Cpu} {l : BitVec 2} {ss : BitVec 16} {d : BitVec 64} (h1 : HasSlot s.r l) (hs : ss = tssSs s l) (h2 : ¬ isNull ss = true)
    (h3 : TableFits s.r ss → InTable s.r ss) (hd : d = descAt s ss) (h4 : StackSeg ss d l) (h5 : present d = true) : TaskStack s l := by
  subst hs
  subst hd
  exact ⟨h1, fun hc => h2 ((isNull_iff _).2 hc), h3, h4, h5⟩

theorem new_ok {acc : Acc} {x : BitVec 16} {vm : Bool} {l : BitVec 2} {s s' : Cpu} {e : BitVec 32} {ss : BitVec 16} {d : BitVec 64}
    (hv : vm = true → l = 0#2) (h : newStack acc x vm l.toNat s = .ok (e, ss, d) s') :
    s'.r = s.r ∧ e = BitVec.ofNat 32 (tssEsp s l) ∧ ss = tssSs s l ∧ d = descAt s ss ∧ TaskStack s l := by
  unfold newStack at h
  rw [bind_ok] at h
  obtain ⟨⟨e', ss'⟩, s1, h1, h⟩ := h
  rw [mapExc_ok] at h1
  obtain ⟨rfl, hsl, he, hs⟩ := tss_ok h1
  dsimp only at h he hs
  rw [bind_check] at h
  split at h
  · cases h
  rename_i hnull
  rw [bind_ok] at h
  obtain ⟨⟨a, d'⟩, s2, h2, h⟩ := h
  rw [mapExc_ok] at h2
  have hr2 : s2.r = s1.r := keeps_eq (fun P => keeps_readDesc acc false _) h2
  have hd := read_desc h2
  clear h2 h1
  have hn : BitVec.ofNat 64 (if vm = true then 0 else l.toNat) = l.setWidth 64 := by
    cases vm with
    | true => rw [hv rfl]; rfl
    | false => rw [if_neg (by simp)]; exact BitVec.ofNat_toNat 64 l
  simp only [hn, bind_check] at h
  split at h
  · cases h
  rename_i hw
  have hw' := xor_zero _ _ (by simpa using hw)
  rw [bind_ok] at h
  obtain ⟨_, s3, h3, h⟩ := h
  cases h
  have hk := newWord _ _ _ hw'
  exact ⟨(setAccessed_ok h3).1.trans hr2, he, hs, hd.1, stack_of hsl hs hnull hd.2 hd.1 hk.1 hk.2⟩

/-- The stack pointer of the new stack. -/
theorem esp_back' {t s1 : Cpu} {l : BitVec 2} {e sp : BitVec 32} {sd : BitVec 64} {n : Nat} (hb : stack32 s1.r = dDB sd)
    (hesp : s1.r.esp = (e &&& ~~~stackMask (dDB sd)) ||| (sp &&& stackMask (dDB sd)))
    (hn : sp = BitVec.ofNat 32 (tssEsp t l) - BitVec.ofNat 32 n) :
    if stack32 s1.r then s1.r.esp + BitVec.ofNat 32 n = BitVec.ofNat 32 (tssEsp t l)
    else (s1.r.esp + BitVec.ofNat 32 n).toNat % 65536 = tssEsp t l % 65536 := by
  have he := esp_item (dDB sd) e sp (BitVec.ofNat 32 n)
  rw [← hesp, hn, BitVec.sub_add_cancel, mask_eq, mask_eq] at he
  rw [hb]
  cases hdb : dDB sd
  · rw [hdb, if_neg (by simp), if_neg (by simp)] at he
    rw [if_neg (by simp)]
    have := congrArg BitVec.toNat he
    rw [low16_toNat, low16_toNat, BitVec.toNat_ofNat] at this
    rw [this]
    omega
  · rw [hdb, if_pos rfl, if_pos rfl] at he
    rw [if_pos rfl]; exact he


/-- What is pushed for an error code. -/
def codeItems (k : Kind) (idx : Nat) (code : BitVec 16) : List (BitVec 32) := if hasCode k idx then [code.setWidth 32] else []

/-- A delivery through the IDT, by cases: to an inner level in protected mode, from vm86 mode, to the same level. -/
theorem deliverIdt_cases {acc : Acc} {k : Kind} {idx : Nat} {code : BitVec 16} {cr2 : BitVec 32} {s s1 : Cpu}
    (h : deliverIdt acc k idx code cr2 s = .ok () s1) :
    ∃ (t : Cpu) (dl : BitVec 2) (cd : BitVec 64) (e n : BitVec 32),
      Marked s t (gateSel (gateAt s idx)) ∧ ((dl.setWidth 64 : BitVec 64) = if dConf cd then cpl s.r else dDpl cd) ∧
      ((s.r.eflags[17] = false ∧ ∃ nesp nss sd sx sy sp,
          newStack acc k.ext false dl.toNat t = .ok (nesp, nss, sd) sx ∧
          pushAll acc (if (gateAt s idx)[43] then 4 else 2) (descBase sd) (stackMask (dDB sd)) 2
            (s.r.ss.sel.setWidth 32 :: s.r.esp :: ([flagsWord s.r, s.r.cs.sel.setWidth 32, s.r.eip] ++ codeItems k idx code)) nesp sx = .ok sp sy ∧
          s1.r = finish idx cr2 (stackMask (dDB sd)) e n sp (gateSel (gateAt s idx)) cd (dl.setWidth 64) (switchSs nss sd (dl.setWidth 64) sy.r)) ∨
       (s.r.eflags[17] = true ∧ dl = 0#2 ∧ ∃ nesp nss sd sx sy sp,
          newStack acc k.ext true 0 t = .ok (nesp, nss, sd) sx ∧
          pushAll acc (if (gateAt s idx)[43] then 4 else 2) (descBase sd) (stackMask (dDB sd)) 2 (vmFrame t.r k idx code) nesp sx = .ok sp sy ∧
          s1.r = vmRegs idx cr2 (gateAt s idx)[43] e n (stackMask (dDB sd)) sp (gateSel (gateAt s idx)) nss cd sd sy.r) ∨
       (s.r.eflags[17] = false ∧ ¬ (dl.setWidth 64 < cpl s.r) ∧ ∃ mask sp, ∃ sy : Cpu,
          sy.r = s.r ∧ s1.r = finish idx cr2 mask e n sp (gateSel (gateAt s idx)) cd (dl.setWidth 64) sy.r)) := by
  unfold deliverIdt at h
  simp only [bind_getR, bind_check] at h
  split at h
  · cases h
  rw [bind_ok] at h
  obtain ⟨dv, sr, hrd, h⟩ := h
  unfold rd at hrd
  split at hrd
  case isFalse => cases hrd
  cases hrd
  simp only [bind_check] at h
  have hg : BitVec.ofNat 64 (load s.mem (s.r.idtBase + BitVec.ofNat 32 (idx * 8)) 8) = gateAt s idx := rfl
  rw [hg] at h
  generalize gateAt s idx = g at h ⊢
  clear hg
  split at h
  · cases h
  split at h
  · cases h
  rename_i hty
  split at h
  · cases h
  split at h
  · cases h
  split at h
  · cases h
  rw [bind_ok] at h
  obtain ⟨⟨ca, cd⟩, sr, hrd, h⟩ := h
  rw [mapExc_ok] at hrd
  have hcd : cd = descAt s (gateSel g) ∧ ca = descAddr s.r (gateSel g) ∧ sr = s := by
    rw [readDesc_eq, gateSel_eq] at hrd
    split at hrd
    · cases hrd
    split at hrd
    · cases hrd; exact ⟨rfl, rfl, rfl⟩
    · cases hrd
  obtain ⟨hcd, hca, rfl⟩ := hcd
  simp only [bind_check] at h
  split at h
  · cases h
  split at h
  · cases h
  rw [bind_ok] at h
  obtain ⟨_, t, hsa, h⟩ := h
  have hmark : Marked sr t (gateSel g) := by
    have := setAccessed_mem hsa
    rw [hca, hcd] at this
    exact ⟨(setAccessed_ok hsa).1, this⟩
  have hty2 : ((g >>> 40 &&& 0x1F#64).toNat = 6 ∨ (g >>> 40 &&& 0x1F#64).toNat = 14 ∨ (g >>> 40 &&& 0x1F#64).toNat = 7 ∨
      (g >>> 40 &&& 0x1F#64).toNat = 15) := by
    simp only [Bool.not_eq_true', Bool.not_eq_false, Bool.or_eq_true, beq_iff_eq] at hty
    omega
  obtain ⟨h43, -⟩ := ty_bits g hty2
  simp only [h43, gateSel_eq, gateOff_eq] at h
  clear hty hty2 h43 hcd hca hsa hrd
  obtain ⟨dl, hdl⟩ : ∃ dl : BitVec 2, (dl.setWidth 64 : BitVec 64) = if dConf cd = true then cpl sr.r else dDpl cd := by
    rw [dDpl_eq, cpl_eq]
    split
    · exact ⟨_, rfl⟩
    · exact ⟨_, rfl⟩
  rw [← hdl] at h
  have hf : readEflags sr.r = flagsWord sr.r := rfl
  rw [hf] at h
  generalize (if (g >>> 40 &&& 0x1F#64).toNat = 6 ∨ (g >>> 40 &&& 0x1F#64).toNat = 14 then sr.r.eflags &&& ~~~0x200#32 else sr.r.eflags) = e at h
  generalize gateOff g = n at h
  refine ⟨t, dl, cd, e, n, hmark, hdl, ?_⟩
  have hdn : (dl.setWidth 64 : BitVec 64).toNat = dl.toNat := by
    rw [BitVec.toNat_setWidth]; have := dl.isLt; omega
  cases hvm : sr.r.eflags[17]
  · have hv := vm_off hvm
    split at h
    · rw [bind_ok] at h
      obtain ⟨⟨nesp, nss, sd⟩, sx, hns, h⟩ := h
      rw [bind_ok] at h
      obtain ⟨sp, sy, hpush, h⟩ := h
      rw [hdn] at hns
      refine .inl ⟨rfl, nesp, nss, sd, sx, sy, sp, hns, hpush, ?_⟩
      cases h
      rfl
    · rename_i hlt
      simp only [bind_check] at h
      split at h
      · cases h
      rw [bind_ok] at h
      obtain ⟨sp, sy, hpush, h⟩ := h
      have hr4 : sy.r = sr.r := (keeps_eq (fun P => keeps_pushAll acc _ _ _ _ _ _) hpush).trans hmark.1
      have := modR_ok.1 h
      exact .inr (.inr ⟨rfl, hlt, _, sp, sy, hr4, by rw [this]⟩)
  · have hv := vm_on hvm
    split at h
    · rw [fromVm86_eq, bind_getR, bind_check] at h
      split at h
      · cases h
      rename_i hz
      have hz0 : (dl.setWidth 64 : BitVec 64).toNat = 0 := by simpa using hz
      rw [hz0, bind_ok] at h
      obtain ⟨⟨nesp, nss, sd⟩, sx, hns, h⟩ := h
      dsimp only at h
      rw [bind_ok] at h
      obtain ⟨sp, sy, hpush, h⟩ := h
      refine .inr (.inl ⟨rfl, BitVec.eq_of_toNat_eq (by rw [← hdn, hz0]; rfl), nesp, nss, sd, sx, sy, sp, hns, hpush, ?_⟩)
      have := modR_ok.1 h
      rw [this]
    · simp only [bind_check] at h
      rw [if_pos (vm_bit hvm)] at h
      cases h


theorem holds_sel {sel : BitVec 16} {d : BitVec 64} {l : BitVec 2} (h : Spec.rpl sel = l) :
    Holds ⟨(sel &&& 0xFFFC#16) ||| (l.setWidth 64 : BitVec 64).setWidth 16, descBase d, descLimit d, descFlags d⟩ sel d := by
  have : (sel &&& 0xFFFC#16) ||| (l.setWidth 64 : BitVec 64).setWidth 16 = sel := by
    subst h
    unfold Spec.rpl
    bits16
  rw [this]
  exact holds_desc sel d

/-- A state after a change of stack. -/
theorem on_of {t s1 : Cpu} {l : BitVec 2} {nesp e sp : BitVec 32} {nss : BitVec 16} {sd : BitVec 64} {n : Nat} (hm : mode s1.r = .prot)
    (hst : TaskStack t l) (hes : nesp = BitVec.ofNat 32 (tssEsp t l)) (hns : nss = tssSs t l) (hd : sd = descAt t nss) (hss : Holds s1.r.ss nss sd)
    (hesp : s1.r.esp = (e &&& ~~~stackMask (dDB sd)) ||| (sp &&& stackMask (dDB sd))) (hn : sp = nesp - BitVec.ofNat 32 n) : OnTaskStack t s1 l n := by
  have hb : stack32 s1.r = dDB sd := by
    unfold stack32
    have := hss.rights
    rw [← descFlags_eq] at this
    rw [hm, this, ← dDB_bit]; rfl
  refine ⟨hst, ?_, esp_back' hb hesp (by rw [← hes]; exact hn)⟩
  rw [← hns, ← hd]; exact hss

theorem redirRegs_level {idx : Nat} {cr2 io mask vec sp : BitVec 32} {r : Regs} (hm : mode r = .vm86) :
    level (redirRegs idx cr2 io mask vec sp r) = 3#2 := by
  obtain ⟨h0, h17⟩ := mode_vm86.1 hm
  have : mode (redirRegs idx cr2 io mask vec sp r) = .vm86 := by
    refine mode_vm86.2 ⟨h0, ?_⟩
    show (r.eflags &&& ~~~(if io = 3#32 then 0x80300#32 else 0x100#32))[17] = true
    have := redirMask (decide (io = 3#32)) ⟨17, by omega⟩ (by simp) (by simp)
    simp only [decide_eq_true_eq] at this
    rw [BitVec.getElem_and, this, h17]
    rfl
  unfold level
  rw [this]

/-- A redirected INT n stays in vm86 mode. -/
theorem redir_level {acc : Acc} {idx : Nat} {cr2 : BitVec 32} {s s1 : Cpu} (hm : mode s.r = .vm86) (h : vmeRedirect acc idx cr2 s = .ok () s1) : level s1.r = 3#2 := by
  rw [vmeRedirect_eq, bind_getR] at h
  obtain ⟨sp, sy, hp, h⟩ := bind_ok.1 h
  have hr : sy.r = s.r := keeps_eq (fun P => keeps_pushAll acc _ _ _ _ _ _) hp
  obtain ⟨v, sz, hv, h⟩ := bind_ok.1 h
  have hz : sz.r = sy.r := keeps_eq (fun P => keeps_rd acc _ _ _) hv
  rw [modR_ok.1 h]
  exact redirRegs_level (by rw [hz, hr]; exact hm)

theorem copy_sp {acc : Acc} {k : Nat} {base mask ob oe : BitVec 32} : ∀ (n : Nat) {sp sp' : BitVec 32} {s s' : Cpu},
    copyParams acc k base mask ob oe n sp s = .ok sp' s' → sp' = sp - BitVec.ofNat 32 (k * n) ∧ s'.r = s.r := by
  intro n
  induction n with
  | zero => intro sp sp' s s' h; cases h; exact ⟨by simp, rfl⟩
  | succ n ih =>
    intro sp sp' s s' h
    unfold copyParams at h
    rw [bind_rd] at h
    split at h
    case isFalse => cases h
    obtain ⟨_, _, b1, b2⟩ := bind_ok.1 h
    obtain ⟨i1, i2⟩ := ih b2
    obtain ⟨p1, p2, -⟩ := pushRaw_ok b1
    refine ⟨?_, i2.trans p2⟩
    rw [i1, p1, Nat.mul_succ, BitVec.ofNat_add, BitVec.sub_sub, BitVec.add_comm]

theorem inner_sp {acc : Acc} {r : Regs} {ret base mask tesp sp : BitVec 32} {w n : Nat} {s s' : Cpu}
    (h : callInner acc r ret w n base mask tesp s = .ok sp s') : sp = tesp - BitVec.ofNat 32 (w * (n + 4)) ∧ s'.r = s.r := by
  unfold callInner at h
  obtain ⟨_, _, a1, h⟩ := bind_ok.1 h
  obtain ⟨_, _, a2, h⟩ := bind_ok.1 h
  obtain ⟨_, _, a3, h⟩ := bind_ok.1 h
  obtain ⟨_, _, a4, a5⟩ := bind_ok.1 h
  obtain ⟨q1, r1, -⟩ := pushRaw_ok a1
  obtain ⟨q2, r2, -⟩ := pushRaw_ok a2
  obtain ⟨q3, r3⟩ := copy_sp n a3
  obtain ⟨q4, r4, -⟩ := pushRaw_ok a4
  obtain ⟨q5, r5, -⟩ := pushRaw_ok a5
  refine ⟨?_, r5.trans (r4.trans (r3.trans (r2.trans r1)))⟩
  rw [q5, q4, q3, q2, q1, show w * (n + 4) = w + w + w * n + w + w from by rw [Nat.mul_add]; omega]
  simp only [BitVec.ofNat_add]
  generalize BitVec.ofNat 32 w = x
  generalize BitVec.ofNat 32 (w * n) = y
  grind

theorem split_mask (x m : BitVec 32) : (x &&& ~~~m) ||| (x &&& m) = x := by
  apply BitVec.eq_of_getLsbD_eq
  intro i hi
  simp only [BitVec.getLsbD_or, BitVec.getLsbD_and, BitVec.getLsbD_not, hi]
  cases x.getLsbD i <;> cases m.getLsbD i <;> rfl

/-- A call to an inner level, from the stack segment found in the TSS. -/
theorem call_on {acc : Acc} {s s' : Cpu} {w n : Nat} {l : BitVec 2} {ret tesp sa ca neip : BitVec 32} {cd sd : BitVec 64} {ss csel : BitVec 16}
    (hl : dDpl cd = l.setWidth 64) (hm' : mode s'.r = .prot) (hsl : HasSlot s.r l) (he : tesp = BitVec.ofNat 32 (tssEsp s l)) (hs : ss = tssSs s l)
    (hn : ¬ isNull ss = true) (hd : sd = descAt s ss) (ht : TableFits s.r ss → InTable s.r ss)
    (h : callStack acc s.r ret w n cd tesp ss sa sd (callEnd acc csel neip ca cd) s = .ok () s') : OnTaskStack s s' l (w * (n + 4)) := by
  unfold callStack at h
  rw [hl] at h
  simp only [bind_check] at h
  split at h; · cases h
  rename_i hw
  split at h; · cases h
  rename_i hp
  have hk := callWord _ _ _ (xor_zero _ _ (by simpa using hw))
  have hp' : present sd = true := by rw [← dP_eq]; simpa using hp
  clear hw hp
  obtain ⟨sp, sx, h1, h⟩ := bind_ok.1 h
  obtain ⟨_, sy, h2, h⟩ := bind_ok.1 h
  rw [bind_loadDesc] at h
  generalize hz : ({ sy with r := _ } : Cpu) = z at h
  have hzr : z.r.ss = ⟨selErr ss ||| (l.setWidth 64 : BitVec 64).setWidth 16, descBase sd, descLimit sd, descFlags sd⟩ := by rw [← hz]; rfl
  clear hz
  obtain ⟨sz, -, -, g3, g4, -⟩ := callEnd_ok h
  obtain ⟨hsp, -⟩ := inner_sp h1
  refine on_of (e := sp) hm' (stack_of hsl hs hn ht hd hk hp') he hs hd ?_ (by rw [g4, split_mask]) hsp
  rw [g3, hzr]
  exact holds_sel hk.2.2.2.2

/-- A call through a gate to an inner level. -/
theorem call_gate {acc : Acc} {s s' : Cpu} {ret ca : BitVec 32} {d cd : BitVec 64} {csel : BitVec 16} {w n : Nat} {l : BitVec 2} (ha : AgreeCore s.r)
    (hm' : mode s'.r = .prot) (hw : (if dTy d >>> 3 = 0#64 then 2 else 4) = w) (hn : (d >>> 32 &&& 0x1F#64).toNat = n) (hc : dConf cd = false)
    (hd : dDpl cd = l.setWidth 64) (hl : l < level s.r) (h : callGate2 acc s.r ret d csel ca cd s = .ok () s') : OnTaskStack s s' l (w * (n + 4)) := by
  have hlt : (!dConf cd && decide (dDpl cd < cpl s.r)) = true := by
    rw [hc, hd, cpl_level ha]
    simpa [lt2] using hl
  unfold callGate2 at h
  simp only [bind_check] at h
  split at h; · cases h
  split at h; · cases h
  obtain ⟨t, s1, h1, h⟩ := bind_ok.1 h
  rw [hd] at h1
  have hdn : (l.setWidth 64 : BitVec 64).toNat = l.toNat := by
    rw [BitVec.toNat_setWidth]; have := l.isLt; omega
  rw [hdn] at h1
  obtain ⟨rfl, hsl, he, hs⟩ := tss_ok h1
  simp only [bind_check] at h
  split at h; · cases h
  rename_i hnull
  obtain ⟨p, s2, h2, h⟩ := bind_ok.1 h
  have h3 := read_state h2
  subst h3
  obtain ⟨r1, r2⟩ := read_desc h2
  rw [hw, hn] at h
  exact call_on hd hm' hsl he hs hnull r1 r2 h

theorem tss_acc {acc : Acc} {p : Nat} {l : BitVec 2} {s s' : Cpu} {x : BitVec 32 × BitVec 16} (h : tssStack acc l.toNat p s = .ok x s') :
    acc s (s.r.tr.base + BitVec.ofNat 32 (slot s.r l)) (slotWidth s.r) false p = true := by
  unfold tssStack at h
  rw [bind_getR] at h
  dsimp only at h
  unfold slot slotWidth
  by_cases ht : tss32 s.r = true
  · rw [if_pos ((tss_flag s.r).2 ht)] at h
    simp only [if_pos ht]
    rw [bind_check] at h
    split at h
    · cases h
    rw [bind_rd] at h
    split at h
    case isFalse => cases h
    rename_i h1
    have e : 2 * 2 ^ 1 + l.toNat * (4 * 2 ^ 1) = 4 + 8 * l.toNat := by omega
    rw [e] at h1
    exact h1
  · rw [if_neg (fun x => ht ((tss_flag s.r).1 x))] at h
    simp only [if_neg ht]
    rw [bind_check] at h
    split at h
    · cases h
    rw [bind_rd] at h
    split at h
    case isFalse => cases h
    rename_i h1
    have e : 2 * 2 ^ 0 + l.toNat * (4 * 2 ^ 0) = 2 + 4 * l.toNat := by omega
    rw [e] at h1
    exact h1

theorem new_acc {acc : Acc} {x : BitVec 16} {l : BitVec 2} {s s' : Cpu} {y : BitVec 32 × BitVec 16 × BitVec 64} (h : newStack acc x false l.toNat s = .ok y s') :
    acc s (s.r.tr.base + BitVec.ofNat 32 (slot s.r l)) (slotWidth s.r) false 0 = true := by
  unfold newStack at h
  obtain ⟨_, s1, h1, -⟩ := bind_ok.1 h
  rw [mapExc_ok] at h1
  exact tss_acc h1

end InnerP
open InnerP

/-- An event that ends at a more privileged level, from protected or vm86 mode: the handler is on the stack that the TSS names for that level, with
the frame on it: five items, nine from vm86 mode, and an error code. `t` is the state in which the TSS was read: the code segment may have been marked
accessed. -/
theorem C92_event (acc : Acc) (k : Kind) (idx : Nat) (code : BitVec 16) (cr2 : BitVec 32) (s s1 : Cpu)
    (ha : AgreeCore s.r) (hm : mode s.r ≠ .real) (h : deliver acc k idx code cr2 s = .ok () s1) (hl : level s1.r < level s.r) :
    ∃ t, Marked s t (gateSel (gateAt s idx)) ∧
      OnTaskStack t s1 (level s1.r) ((if (gateAt s idx)[43] then 4 else 2) *
        ((if mode s.r = .vm86 then 9 else 5) + (if (k.intn == 0 && !k.hw && codeVector idx) = true then 1 else 0))) := by
  have hcode : ∀ (k : Kind) (idx : Nat) (code : BitVec 16), (codeItems k idx code).length = if (k.intn == 0 && !k.hw && codeVector idx) = true then 1 else 0 := by
    intro k idx code
    unfold codeItems
    rw [hasCode_eq]
    split <;> rfl
  have hw : 0 < (if (gateAt s idx)[43] = true then 4 else 2) ∧ (if (gateAt s idx)[43] = true then 4 else 2) ≤ 16 := by split <;> omega
  have hlen : ∀ (r : Regs), (vmFrame r k idx code).length = 9 + (codeItems k idx code).length := by
    intro r
    unfold vmFrame codeItems
    rw [List.length_append]
    simp only [List.length_cons, List.length_nil]
  have hpe : s.r.cr0[0] = true := by
    cases hc : s.r.cr0[0]
    · exact absurd ((mode_real_iff _).2 hc) hm
    · rfl
  have idt : ∀ hm1 : s.r.eflags[17] = false → mode s1.r = .prot, deliverIdt acc k idx code cr2 s = .ok () s1 → ∃ t, Marked s t (gateSel (gateAt s idx)) ∧
      OnTaskStack t s1 (level s1.r) ((if (gateAt s idx)[43] then 4 else 2) *
        ((if mode s.r = .vm86 then 9 else 5) + (if (k.intn == 0 && !k.hw && codeVector idx) = true then 1 else 0))) := by
    intro hm1 h
    obtain ⟨t, dl, cd, e, n, hmk, hdl, hc⟩ := deliverIdt_cases h
    refine ⟨t, hmk, ?_⟩
    generalize gateAt s idx = g at hc hw ⊢
    generalize (if g[43] = true then 4 else 2) = w at hc hw ⊢
    rcases hc with ⟨hv, nesp, nss, sd, sx, sy, sp, hn, hp, hs1⟩ | ⟨hv, hd0, nesp, nss, sd, sx, sy, sp, hn, hp, hs1⟩ | ⟨hv, hge, mask, sp, sy, hsy, hs1⟩
    · have hm1 := hm1 hv
      obtain ⟨hr, hes, hns, hsd, hst⟩ := new_ok (fun hb => by cases hb) hn
      have hl1 : level s1.r = dl := by
        rw [level_prot hm1, hs1, finish_sel _ _ _ _ _ _ _ _ _ _ _ rfl, withRpl_low]
      rw [hl1]
      have hvm : ¬ mode s.r = .vm86 := fun hc => by rw [(mode_vm86.1 hc).2] at hv; cases hv
      rw [if_neg hvm, ← hcode k idx code]
      obtain ⟨hsp, -, -, -⟩ := pushAll_ok (by omega) _ (by rw [List.length_cons, List.length_cons, List.length_append, hcode]; simp only [List.length_cons, List.length_nil]; split <;> omega) (by omega) hp
      refine on_of (e := sy.r.esp) hm1 hst hes hns hsd ?_ (by rw [hs1]; rfl) ?_
      · have hrp : Spec.rpl nss = dl := by rw [hns]; exact hst.seg.2.2.2.2
        have := holds_sel (d := sd) hrp
        rw [hs1]; exact this
      · rw [hsp]
        congr 3
        simp only [List.length_cons, List.length_append, List.length_nil]
        omega
    · obtain ⟨hr, hes, hns, hsd, hst⟩ := new_ok (l := 0#2) (fun _ => rfl) hn
      have hvm : mode s.r = .vm86 := mode_vm86.2 ⟨hpe, hv⟩
      have hsr : sy.r = s.r := (keeps_eq (fun P => keeps_pushAll acc _ _ _ _ _ _) hp).trans (hr.trans hmk.1)
      have hm1 : mode s1.r = .prot := by
        refine mode_prot_mk (by rw [hs1, ← hpe, ← hsr]; rfl) ?_
        have e5 : s1.r.eflags = e &&& ~~~0x34100#32 := by rw [hs1]; rfl
        simp only [e5]
        simp
      have hl1 : level s1.r = 0#2 := by
        rw [level_prot hm1, hs1]; exact dpl_and _
      rw [hl1, if_pos hvm, ← hcode k idx code]
      obtain ⟨hsp, -, -, -⟩ := pushAll_ok (by omega) _ (by rw [hlen, hcode]; split <;> omega) (by omega) hp
      refine on_of (e := sy.r.esp) hm1 hst hes hns hsd ?_ (by rw [hs1]; rfl) ?_
      · have := holds_desc nss sd
        rw [hs1]; exact this
      · rw [hsp, hlen]
    · exfalso
      have hm1 := hm1 hv
      have hl1 : level s1.r = dl := by
        rw [level_prot hm1, hs1, finish_sel _ _ _ _ _ _ _ _ _ _ _ rfl, withRpl_low]
      rw [cpl_level ha, lt2, ← hl1] at hge
      exact hge hl
  cases hmode : mode s.r with
  | real => exact absurd hmode hm
  | prot =>
    have hp := prot_of ha hmode
    have hk1 := (keeps_deliver_prot (fl := false) acc k idx code cr2).run s hp
    rw [h] at hk1
    rw [deliver_prot hp] at h
    rw [hmode] at idt
    exact idt (fun _ => mode_prot_of hk1) h
  | vm86 =>
    rw [hmode] at idt
    have hv := (mode_vm86.1 hmode).2
    have hvp : s.r.eflags[17] = false → mode s1.r = .prot := fun hc => by rw [hv] at hc; cases hc
    rw [deliver_vm ha hmode] at h
    split at h
    · split at h
      · unfold vmeInt at h
        rw [bind_rd] at h
        split at h
        case isFalse => cases h
        rw [bind_rd] at h
        split at h
        case isFalse => cases h
        split at h
        · rw [redir_level hmode h] at hl
          have h3 : level s.r = 3#2 := by unfold level; rw [hmode]
          rw [h3] at hl
          exact absurd hl (by decide)
        · rw [bind_check] at h
          split at h
          · cases h
          · exact idt hvp h
      · split at h
        · exact idt hvp h
        · cases h
    · exact idt hvp h


/-- A far call that ends at a more privileged level: the procedure is on the stack that the TSS names for that level, with SS, ESP, the parameters, CS and EIP on
it.  Missing: a gate to conforming code (`C92_conforming_violation`). -/
theorem C92_call_partial (acc : Acc) (s s' : Cpu) (sel : BitVec 16) (k : Nat) (call ret : BitVec 32) (ha : AgreeCore s.r) (hm : mode s.r = .prot)
    (hc : conforming (descAt s (gateSel (descAt s sel))) = false)
    (h : instr acc (.farCall sel k call ret) s = .ok () s') (hl : level s'.r < level s.r) :
    OnTaskStack s s' (level s'.r) (gateWidth (descAt s sel) * (gateParams (descAt s sel) + 4)) := by
  have hs : isSeg (descAt s sel) = false := by
    cases hb : isSeg (descAt s sel)
    · rfl
    · rw [(C67_level_partial acc s s' sel k call ret ha hm h).1 hb] at hl
      exact absurd hl (BitVec.lt_irrefl _)
  have hlv := (C67_level_partial acc s s' sel k call ret ha hm h).2 hs hc
  have hgt := (C67_gate_target acc s s' sel k call ret ha hm h hs).1.gate
  have hm' := call_mode ha hm h
  obtain ⟨csel, hcs, hi⟩ := callGate_inv (ite_neg_call ((dS_eq _).trans hs) (lcall_inv ha hm h))
  subst hcs
  exact call_gate ha hm' ((gate_width' hgt)) ((gate_params _)) ((dConf_eq _).trans hc) ((dDpl_eq _).trans (congrArg (BitVec.setWidth 64) hlv.symm)) hl hi


/-- The TSS is read with the rights of the interrupted program: when a user program may not read the TSS, no event from protected mode reaches a more
privileged level. -/
theorem C92_user_rights_violation (acc : Acc) (k : Kind) (idx : Nat) (code : BitVec 16) (cr2 : BitVec 32) (s s1 : Cpu)
    (ha : AgreeCore s.r) (hm : mode s.r = .prot) (h : deliver acc k idx code cr2 s = .ok () s1)
    (hacc : ∀ t l, t.r = s.r → acc t (s.r.tr.base + BitVec.ofNat 32 (slot s.r l)) (slotWidth s.r) false 0 = false) :
    ¬ level s1.r < level s.r := by
  have hp := prot_of ha hm
  have hk1 := (keeps_deliver_prot (fl := false) acc k idx code cr2).run s hp
  rw [h] at hk1
  have hm1 : mode s1.r = .prot := mode_prot_of hk1
  rw [deliver_prot hp] at h
  obtain ⟨t, dl, cd, e, n, hmk, hdl, hc⟩ := deliverIdt_cases h
  rcases hc with ⟨hv, nesp, nss, sd, sx, sy, sp, hn, -, -⟩ | ⟨hv, -⟩ | ⟨hv, hge, mask, sp, sy, hsy, hs1⟩
  · have := new_acc hn
    rw [hmk.1, hacc t dl hmk.1] at this
    cases this
  · rw [hp.2.2] at hv; cases hv
  · have hl1 : level s1.r = dl := by
      rw [level_prot hm1, hs1, finish_sel _ _ _ _ _ _ _ _ _ _ _ rfl, withRpl_low]
    rw [cpl_level ha, lt2, ← hl1] at hge
    exact hge


namespace InnerP
open SegP EventP

/-- `prog` with a kernel stack segment that is not present. -/
def gone : Cpu := ⟨prog.r, fun a => if a = 0x2015#32 then 0x13#8 else prog.mem a⟩
/-- The user program of C89, whose GDT has call gates, with such a stack segment. -/
def goneCall : Cpu := ⟨CallP.user.r, fun a => if a = 0x2015#32 then 0x13#8 else CallP.user.mem a⟩
/-- The TSS is on a supervisor page. -/
def superTss : Acc := fun _ a _ _ p => p == 2 || a.toNat / 4096 != 3

/-- The exception a run ended with. -/
def gaveExc : Res Unit → Option (Nat × BitVec 16)
  | .stop (.exc i c) _ => some (i, c)
  | _ => none

/-- Did it end with a page fault? -/
def faulted : Res Unit → Bool
  | .stop .fault _ => true
  | _ => false
theorem of_faulted {x : Res Unit} (h : faulted x = true) : x = .stop .fault (endState x) := by
  cases x with
  | ok u s => cases h
  | stop e s => cases e <;> first | rfl | cases h

/-- The user program after its call to conforming code. -/
def conf : Cpu := endState (instr allOk (.farCall 0x28#16 4 0#32 0#32) confUser)
end InnerP
open SegP EventP CallP

/-- An event for which the task's inner stack segment is not present raises #TS, where #SS is required; a call through a gate raises #SS. -/
theorem C92_not_present_violation : HasSlot gone.r 0#2 ∧ StackSeg (tssSs gone 0#2) (descAt gone (tssSs gone 0#2)) 0#2 ∧
    present (descAt gone (tssSs gone 0#2)) = false ∧ gaveExc (deliver allOk .exn 13 0x18#16 0#32 gone) = some (10, 0x11#16) ∧
    gaveExc (instr allOk (.farCall 0x28#16 4 0#32 0#32) goneCall) = some (12, 0x10#16) := by
  refine ⟨?_, ?_, ?_, ?_, ?_⟩
  · unfold HasSlot; decide +kernel
  · unfold StackSeg; decide +kernel
  all_goals decide +kernel

/-- A call through a gate to conforming code of DPL 0 raises the level and keeps the stack of the caller. -/
theorem C92_conforming_violation : AgreeCore confUser.r ∧ mode confUser.r = .prot ∧
    instr allOk (.farCall 0x28#16 4 0#32 0#32) confUser = .ok () conf ∧ level conf.r < level confUser.r ∧
    ¬ ∃ n, OnTaskStack confUser conf (level conf.r) n := by
  refine ⟨user_core.1, user_core.2.1, of_completed (by decide +kernel), by decide +kernel, ?_⟩
  rintro ⟨n, h⟩
  have h1 := h.stack.seg.2.2.2.2
  rw [← h.ss.sel] at h1
  revert h1
  decide +kernel

-- The #GP handler of the user program runs on the stack 0x10:0x9000 of the TSS, with six items on it; a vm86 program's with ten.
example : AgreeCore prog.r ∧ mode prog.r ≠ .real ∧ deliver allOk .exn 13 0x18#16 0#32 prog = .ok () entry ∧ level entry.r < level prog.r ∧
    tssEsp prog 0#2 = 0x9000 ∧ tssSs prog 0#2 = 0x10#16 ∧ entry.r.esp = 0x9000#32 - 24#32 := by
  refine ⟨by constructor <;> decide, by decide, of_completed (by decide +kernel), by decide +kernel, by decide +kernel, by decide +kernel, by decide +kernel⟩
example : AgreeCore vprog.r ∧ mode vprog.r ≠ .real ∧ deliver allOk .exn 13 0#16 0#32 vprog = .ok () ventry ∧ level ventry.r < level vprog.r ∧
    ventry.r.esp = 0x9000#32 - 40#32 := by
  refine ⟨by constructor <;> decide, by decide, of_completed (by decide +kernel), by decide +kernel, by decide +kernel⟩
-- The procedure called through a gate with parameters.
example : conforming (descAt CallP.user (gateSel (descAt CallP.user 0x30#16))) = false ∧ level pcall.r < level CallP.user.r ∧
    gateParams (descAt CallP.user 0x30#16) = 1 ∧ pcall.r.esp = 0x9000#32 - 20#32 := by
  refine ⟨by decide +kernel, by decide +kernel, by decide +kernel, by decide +kernel⟩
-- With the TSS on a supervisor page the kernel can still take its own interrupts; the user program cannot take any.
example : (∀ t l, t.r = prog.r → superTss t (prog.r.tr.base + BitVec.ofNat 32 (slot prog.r l)) (slotWidth prog.r) false 0 = false) ∧
    deliver superTss .exn 13 0x18#16 0#32 prog = .stop .fault (endState (deliver superTss .exn 13 0x18#16 0#32 prog)) ∧
    completed (deliver superTss ⟨1, false⟩ 3 0#16 0#32 kprog) = true := by
  refine ⟨fun t l _ => ?_, ?_, by decide +kernel⟩
  · unfold superTss slot; revert l; decide
  · have h : faulted (deliver superTss .exn 13 0x18#16 0#32 prog) = true := by decide +kernel
    exact of_faulted h

end Verif.Seg
