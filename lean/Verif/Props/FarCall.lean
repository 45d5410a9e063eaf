import Verif.Lemmas.FarCall
import Verif.Lemmas.FarRet
import Verif.Props.RealEvent
import Verif.Props.IretFlags
import Verif.Lemmas.Bits
/-
C89: a far call leaves the return address where RETF finds it, and RETF goes back to the caller.
-/
namespace Verif.Seg
open Guest (load store load_store store_other load_congr)
open Spec (FaultOr stackAddr stackItem mode level stack32 AgreeCore CallFrame FrameApart Roomy)

theorem pushAll_two (acc : Acc) (k p : Nat) (base mask v1 v2 sp : BitVec 32) :
    pushAll acc k base mask p [v1, v2] sp = (pushRaw acc k base mask p sp v1 >>= fun sp => pushRaw acc k base mask p sp v2) := by
  unfold pushAll
  refine congrArg (pushRaw _ _ _ _ _ _ _ >>= ·) (funext fun x => ?_)
  unfold pushAll
  funext s
  cases h : pushRaw acc k base mask p x v2 s with
  | ok a s' => exact bind_of_ok h
  | stop e s' => exact bind_of_stop h

/-- Two pushes leave what is not in either of the two slots. -/
theorem pushAll_other {acc : Acc} {k p : Nat} {base mask v1 v2 sp sp' x : BitVec 32} {s s' : Cpu} {w : Nat}
    (h : pushAll acc k base mask p [v1, v2] sp s = .ok sp' s')
    (h1 : ∀ j, j < w → k ≤ (x + BitVec.ofNat 32 j - (base + ((sp' + BitVec.ofNat 32 k) &&& mask))).toNat)
    (h2 : ∀ j, j < w → k ≤ (x + BitVec.ofNat 32 j - (base + (sp' &&& mask))).toNat) :
    load s'.mem x w = load s.mem x w := by
  rw [pushAll_two] at h
  obtain ⟨sp1, s1, g1, g2⟩ := bind_ok.1 h
  obtain ⟨a1, -, a3⟩ := pushRaw_ok g1
  obtain ⟨b1, -, b3⟩ := pushRaw_ok g2
  rw [b3, load_congr _ s1.mem, a3]
  · apply load_congr
    intro j hj
    apply store_other
    have := h1 j hj
    rw [b1, BitVec.sub_add_cancel] at this
    exact this
  · intro j hj
    exact store_other _ _ _ _ _ (h2 j hj)

theorem callInner_ok {acc : Acc} {r : Regs} {ret base tesp sp : BitVec 32} {w n : Nat} {b : Bool} {s s' : Cpu} (hk : w = 2 ∨ w = 4) (hn : n ≤ 31)
    (h : callInner acc r ret w n base (stackMask b) tesp s = .ok sp s')
    (hpar : ∀ i, i < n → ∀ j, j < w → ∀ t, t < n + 4 → w ≤ (r.ss.base + ((r.esp + BitVec.ofNat 32 (w * i)) &&& stackMask b) + BitVec.ofNat 32 j -
      (base + ((sp + BitVec.ofNat 32 (w * t)) &&& stackMask b))).toNat) :
    s'.r = s.r ∧ load s'.mem (base + ((sp + BitVec.ofNat 32 (w * 0)) &&& stackMask b)) w = ret.toNat % 256 ^ w ∧
    load s'.mem (base + ((sp + BitVec.ofNat 32 (w * 1)) &&& stackMask b)) w = r.cs.sel.toNat ∧
    (∀ i, i < n → load s'.mem (base + ((sp + BitVec.ofNat 32 (w * (2 + i))) &&& stackMask b)) w =
      load s.mem (r.ss.base + ((r.esp + BitVec.ofNat 32 (w * i)) &&& stackMask b)) w) ∧
    load s'.mem (base + ((sp + BitVec.ofNat 32 (w * (2 + n))) &&& stackMask b)) w = r.esp.toNat % 256 ^ w ∧
    load s'.mem (base + ((sp + BitVec.ofNat 32 (w * (2 + n + 1))) &&& stackMask b)) w = r.ss.sel.toNat := by
  have hw0 : 0 < w := by omega
  have hwn : w * n ≤ 4 * 31 := Nat.mul_le_mul (by omega) hn
  have mul1 : ∀ a, w * (2 + a) = w * 2 + w * a := fun a => Nat.mul_add w 2 a
  unfold callInner at h
  obtain ⟨sp1, s1, g1, h⟩ := bind_ok.1 h
  obtain ⟨sp2, s2, g2, h⟩ := bind_ok.1 h
  obtain ⟨sp3, s3, g3, h⟩ := bind_ok.1 h
  obtain ⟨sp4, s4, g4, g5⟩ := bind_ok.1 h
  have p1 : pushAll acc w base (stackMask b) 2 [r.ss.sel.setWidth 32, r.esp] tesp s = .ok sp2 s2 := by
    rw [pushAll_two, bind_of_ok g1]; exact g2
  have p2 : pushAll acc w base (stackMask b) 2 [r.cs.sel.setWidth 32, ret] sp3 s3 = .ok sp s' := by
    rw [pushAll_two, bind_of_ok g4]; exact g5
  obtain ⟨e1, r1, -, i1⟩ := pushAll_ok hw0 _ (by simp only [List.length_cons, List.length_nil]; omega) (by omega) p1
  obtain ⟨e2, r2, k2, i2⟩ := pushAll_ok hw0 _ (by simp only [List.length_cons, List.length_nil]; omega) (by omega) p2
  simp only [List.length_cons, List.length_nil, Nat.zero_add] at e1 i1 e2 k2 i2
  have esp3 : sp3 = sp + BitVec.ofNat 32 (w * 2) := by rw [e2, BitVec.sub_add_cancel]
  obtain ⟨e3, r3, k3, i3⟩ := copyParams_ok hk n (by omega) g3 (by
    intro i hi j hj t ht
    have := hpar i hi j hj (2 + t) (by omega)
    rw [mul1, BitVec.ofNat_add] at this
    rw [← BitVec.add_assoc] at this
    rw [esp3, Nat.mul_comm i w]
    exact this)
  have esp2 : sp2 = sp + BitVec.ofNat 32 (w * (2 + n)) := by
    rw [mul1, BitVec.ofNat_add, ← BitVec.add_assoc, ← esp3, e3, BitVec.sub_add_cancel]
  refine ⟨r2.trans (r3.trans r1), ?_, ?_, ?_, ?_, ?_⟩
  · exact i2 0 (by omega)
  · exact (i2 1 (by omega)).trans (sel_small _ w hk)
  · intro i hi
    have hwi : w * i ≤ w * n := Nat.mul_le_mul_left w (by omega)
    rw [mul1, BitVec.ofNat_add, ← BitVec.add_assoc, ← esp3, k2 (w * i) w (by omega), i3 i hi, Nat.mul_comm i w]
    refine pushAll_other p1 ?_ ?_
    · intro j hj
      have := hpar i hi j hj (2 + n + 1) (by omega)
      rw [show w * (2 + n + 1) = w * (2 + n) + w from Nat.mul_succ .., BitVec.ofNat_add, ← BitVec.add_assoc, ← esp2] at this
      exact this
    · intro j hj
      have := hpar i hi j hj (2 + n) (by omega)
      rw [← esp2] at this
      exact this
  · have e : sp + BitVec.ofNat 32 (w * (2 + n)) = sp3 + BitVec.ofNat 32 (w * n) := by
      rw [mul1, BitVec.ofNat_add, ← BitVec.add_assoc, ← esp3]
    rw [e, k2 (w * n) w (by omega), ← e, ← esp2]
    have := k3 0 w (by omega)
    rw [BitVec.add_zero] at this
    rw [this]
    have := i1 0 (by omega)
    simpa using this
  · have e : sp + BitVec.ofNat 32 (w * (2 + n + 1)) = sp3 + BitVec.ofNat 32 (w * n + w) := by
      rw [show w * (2 + n + 1) = w * 2 + (w * n + w) from by rw [Nat.mul_succ, mul1]; omega, BitVec.ofNat_add, ← BitVec.add_assoc, ← esp3]
    have e' : sp3 + BitVec.ofNat 32 (w * n + w) = sp2 + BitVec.ofNat 32 w := by
      rw [e3, BitVec.ofNat_add, ← BitVec.add_assoc, BitVec.sub_add_cancel]
    rw [e, k2 (w * n + w) w (by omega), e', k3 w w (by omega)]
    have := (i1 1 (by omega)).trans (sel_small _ w hk)
    simpa using this

theorem callDirect_inv {acc : Acc} {sel : BitVec 16} {call ret a : BitVec 32} {k : Nat} {r : Regs} {d : BitVec 64} {s s' : Cpu}
    (hi : callDirect acc sel call k ret r a d s = .ok () s') : callPush acc sel call k ret r a d s = .ok () s' := by
  unfold callDirect at hi
  rw [bind_check] at hi
  split at hi
  case isTrue => cases hi
  have hi2 : (check (!dP d) (.exc NP (selErr sel)) >>= fun _ => callPush acc sel call k ret r a d) s = .ok () s' := by
    split at hi
    · rw [bind_check] at hi
      split at hi
      · cases hi
      · exact hi
    · rw [bind_check] at hi
      split at hi
      · cases hi
      · exact hi
  rw [bind_check] at hi2
  split at hi2
  case isTrue => cases hi2
  exact hi2

/-- A far call to a code segment leaves its return address on the stack of the caller. -/
theorem C89_direct_frame (acc : Acc) (s s' : Cpu) (sel : BitVec 16) (k : Nat) (call ret : BitVec 32) (ha : AgreeCore s.r) (hm : mode s.r = .prot)
    (hs : Spec.isSeg (Spec.descAt s sel) = true) (hk : k = 2 ∨ k = 4) (hroom : Roomy s.r k)
    (h : instr acc (.farCall sel k call ret) s = .ok () s') (hf : FrameApart s'.r k 2 (Spec.descAddr s.r sel)) :
    CallFrame s s' k 0 ret := by
  have hl := (C67_level_partial acc s s' sel k call ret ha hm h).1 hs
  have hi := lcall_inv ha hm h
  rw [if_pos ((dS_eq _).trans hs)] at hi
  exact callPush_frame ha hk (callDirect_inv hi) hf hroom (by rw [hl]; exact BitVec.lt_irrefl _)

theorem callGate_inv {acc : Acc} {sel : BitVec 16} {ret : BitVec 32} {d : BitVec 64} {s s' : Cpu} (h : callGate acc sel ret s.r d s = .ok () s') :
    ∃ csel, csel = Spec.gateSel d ∧ callGate2 acc s.r ret d csel (Spec.descAddr s.r csel) (Spec.descAt s csel) s = .ok () s' := by
  unfold callGate at h
  simp only [bind_check] at h
  split at h; · cases h
  split at h; · cases h
  split at h; · cases h
  split at h; · cases h
  split at h; · cases h
  rw [bind_readDesc] at h
  split at h; · cases h
  split at h
  case isFalse => cases h
  exact ⟨_, gateSel_eq d, h⟩

theorem tssStack_state {acc : Acc} {dpl p : Nat} {x : BitVec 32 × BitVec 16} {s s' : Cpu} (h : tssStack acc dpl p s = .ok x s') : s' = s := by
  unfold tssStack at h
  rw [bind_getR] at h
  dsimp only at h
  generalize (if s.r.tr.flags &&& 0x800#32 ≠ 0#32 then 1 else 0) = ty at h
  rw [bind_check] at h
  split at h; · cases h
  rw [bind_rd] at h
  split at h
  case isFalse => cases h
  rw [bind_rd] at h
  split at h
  case isFalse => cases h
  cases h; rfl

/-- Bit 3 of the type of a gate is bit 43. -/
theorem gate_width (d : BitVec 64) (h : dTy d = 4#64 ∨ dTy d = 12#64) : (if dTy d >>> 3 = 0#64 then 2 else 4) = Spec.gateWidth d := by
  have e : (dTy d).getLsbD 3 = d[43] := by
    unfold dTy
    rw [BitVec.getLsbD_ushiftRight, BitVec.getLsbD_and, BitVec.getLsbD_eq_getElem (i := 40 + 3) (by omega)]
    rw [show (16492674416640#64 : BitVec 64).getLsbD (40 + 3) = true from rfl, Bool.and_true]
  unfold Spec.gateWidth
  rw [← e]
  rcases h with h | h <;> rw [h] <;> decide

theorem gate_params (d : BitVec 64) : (d >>> 32 &&& 0x1F#64).toNat = Spec.gateParams d := by
  unfold Spec.gateParams
  rw [BitVec.toNat_and, BitVec.extractLsb'_toNat, BitVec.toNat_ushiftRight]
  exact Nat.and_two_pow_sub_one_eq_mod _ 5

theorem callGate2_inner {acc : Acc} {ret ca : BitVec 32} {d cd : BitVec 64} {csel : BitVec 16} {s s' : Cpu}
    (h : callGate2 acc s.r ret d csel ca cd s = .ok () s') (hc : (!dConf cd && decide (dDpl cd < cpl s.r)) = true) :
    ∃ (w : Nat) (tesp : BitVec 32) (ss : BitVec 16) (neip : BitVec 32), w = (if dTy d >>> 3 = 0#64 then 2 else 4) ∧
      callStack acc s.r ret w (d >>> 32 &&& 0x1F#64).toNat cd tesp ss (Spec.descAddr s.r ss) (Spec.descAt s ss) (callEnd acc csel neip ca cd) s = .ok () s' := by
  unfold callGate2 at h
  simp only [bind_check] at h
  split at h; · cases h
  split at h; · cases h
  obtain ⟨t, s1, h1, h⟩ := bind_ok.1 h
  have := tssStack_state h1
  subst this
  simp only [bind_check] at h
  split at h; · cases h
  rw [bind_readDesc] at h
  split at h; · cases h
  split at h
  case isFalse => cases h
  exact ⟨_, _, _, _, rfl, h⟩

theorem callGate2_same {acc : Acc} {ret ca : BitVec 32} {d cd : BitVec 64} {csel : BitVec 16} {s s' : Cpu}
    (h : callGate2 acc s.r ret d csel ca cd s = .ok () s') (hc : (!dConf cd && decide (dDpl cd < cpl s.r)) = false) :
    ∃ (w : Nat) (sp : BitVec 32) (sx : Cpu) (neip : BitVec 32), w = (if dTy d >>> 3 = 0#64 then 2 else 4) ∧
      pushAll acc w s.r.ss.base (stackMask (s.r.hflags &&& H_SS32 != 0#32)) 0 [s.r.cs.sel.setWidth 32, ret] s.r.esp s = .ok sp sx ∧
      callEnd acc csel neip ca cd sp sx = .ok () s' := by
  unfold callGate2 at h
  simp only [bind_check] at h
  split at h; · cases h
  split at h; · cases h
  rw [if_neg (by rw [hc]; exact Bool.false_ne_true)] at h
  obtain ⟨sp1, s1, h1, h⟩ := bind_ok.1 h
  obtain ⟨sp2, s2, h2, h⟩ := bind_ok.1 h
  refine ⟨_, sp2, s2, _, rfl, ?_, h⟩
  rw [pushAll_two, bind_of_ok h1]; exact h2

theorem stack32_db {r : Regs} {sd : BitVec 64} (h : mode r = .prot) (hf : r.ss.flags = descFlags sd) : stack32 r = dDB sd := by
  unfold stack32
  rw [h, hf, dDB_bit]
  rfl

/-- The stack segment selector after a call to an inner level. -/
theorem callStack_sel {acc : Acc} {s s' : Cpu} {r : Regs} {w n : Nat} {ret tesp sa ca neip : BitVec 32} {cd sd : BitVec 64} {ss csel : BitVec 16}
    (h : callStack acc r ret w n cd tesp ss sa sd (callEnd acc csel neip ca cd) s = .ok () s') :
    s'.r.ss.sel = (selErr ss ||| (dDpl cd).setWidth 16) := by
  unfold callStack at h
  simp only [bind_check] at h
  split at h; · cases h
  split at h; · cases h
  obtain ⟨sp, sx, h1, h⟩ := bind_ok.1 h
  obtain ⟨_, sy, h2, h⟩ := bind_ok.1 h
  rw [bind_loadDesc] at h
  generalize hz : ({ sy with r := _ } : Cpu) = z at h
  have hzr : z.r.ss.sel = selErr ss ||| (dDpl cd).setWidth 16 := by rw [← hz]; rfl
  clear hz
  obtain ⟨sz, g1, g2, g3, -⟩ := callEnd_ok h
  rw [g3]; exact hzr

/-- The frame of a call to an inner level. -/
theorem frame_inner {acc : Acc} {s s' : Cpu} {w n : Nat} {ret tesp sa ca neip : BitVec 32} {cd sd : BitVec 64} {ss csel : BitVec 16}
    (hk : w = 2 ∨ w = 4) (hn : n ≤ 31) (hm : mode s.r = .prot)
    (h : callStack acc s.r ret w n cd tesp ss sa sd (callEnd acc csel neip ca cd) s = .ok () s') (hl : level s'.r < level s.r)
    (hfs : FrameApart s'.r w (n + 4) sa) (hfc : FrameApart s'.r w (n + 4) ca)
    (hpar : 0 < n → stack32 s'.r = stack32 s.r ∧ Spec.ParamsApart s.r s'.r w n) :
    CallFrame s s' w n ret := by
  unfold callStack at h
  simp only [bind_check] at h
  split at h; · cases h
  split at h; · cases h
  obtain ⟨sp, sx, h1, h⟩ := bind_ok.1 h
  obtain ⟨_, sy, h2, h⟩ := bind_ok.1 h
  rw [bind_loadDesc] at h
  generalize hz : ({ sy with r := _ } : Cpu) = z at h
  have hzr : z.r.ss = ⟨selErr ss ||| (dDpl cd).setWidth 16, descBase sd, descLimit sd, descFlags sd⟩ ∧ z.r.cr0 = sy.r.cr0 ∧ z.r.eflags = sy.r.eflags ∧
      z.mem = sy.mem := by rw [← hz]; exact ⟨rfl, rfl, rfl, rfl⟩
  clear hz
  obtain ⟨sz, g1, g2, g3, g4, g5, g6, -⟩ := callEnd_ok h
  have hyr := (setAccessed_ok h2).1
  have hss : s'.r.ss = ⟨selErr ss ||| (dDpl cd).setWidth 16, descBase sd, descLimit sd, descFlags sd⟩ := g3.trans hzr.1
  have hxr : sx.r = s.r := by
    unfold callInner at h1
    obtain ⟨_, _, a1, h1⟩ := bind_ok.1 h1
    obtain ⟨_, _, a2, h1⟩ := bind_ok.1 h1
    obtain ⟨_, _, a3, h1⟩ := bind_ok.1 h1
    obtain ⟨_, _, a4, a5⟩ := bind_ok.1 h1
    have a3' : ∀ (n : Nat) {sp sp' : BitVec 32} {s s' : Cpu} {mask ob oe : BitVec 32}, copyParams acc w (descBase sd) mask ob oe n sp s = .ok sp' s' → s'.r = s.r := by
      intro n
      induction n with
      | zero => intro _ _ _ _ _ _ _ h; cases h; rfl
      | succ n ih =>
        intro sp sp' s s' mask ob oe h
        unfold copyParams at h
        rw [bind_rd] at h
        split at h
        case isFalse => cases h
        obtain ⟨_, _, b1, b2⟩ := bind_ok.1 h
        exact (ih b2).trans (pushRaw_ok b1).2.1
    exact (pushRaw_ok a5).2.1.trans ((pushRaw_ok a4).2.1.trans ((a3' n a3).trans ((pushRaw_ok a2).2.1.trans (pushRaw_ok a1).2.1)))
  have hm' : mode s'.r = .prot := mode_of hm (by rw [g5, hzr.2.1, hyr, hxr]) (by rw [g6, hzr.2.2.1, hyr, hxr])
  have hb : stack32 s'.r = dDB sd := stack32_db hm' (by rw [hss])
  have hbase : s'.r.ss.base = descBase sd := by rw [hss]
  obtain ⟨-, i0, i1, i2, i3, i4⟩ := callInner_ok hk hn h1 (by
    intro i hi j hj t ht
    obtain ⟨q1, q2⟩ := hpar (by omega)
    have := q2 i hi j hj t ht
    rw [stackAddr_eq, stackAddr_eq, ← q1, hb, hbase, g4] at this
    exact this)
  have item : ∀ t, t < n + 4 → stackItem s' w t = load sx.mem (descBase sd + ((sp + BitVec.ofNat 32 (w * t)) &&& stackMask (dDB sd))) w := by
    intro t ht
    unfold stackItem
    rw [g2, item_marked g1 (hfc t ht), hzr.2.2.2, item_marked h2 (hfs t ht), stackAddr_eq, hb, hbase, g4]
  refine ⟨(item 0 (by omega)).trans i0, (item 1 (by omega)).trans i1, fun _ i hi => (item (2 + i) (by omega)).trans ((i2 i hi).trans ?_),
    fun _ => (item (2 + n) (by omega)).trans i3, fun _ => (item (2 + n + 1) (by omega)).trans i4, fun hn => absurd hl hn⟩
  unfold stackItem
  rw [stackAddr_eq, ← (hpar (by omega)).1, hb]

theorem descAddr_rpl (r : Regs) (ss : BitVec 16) (l : BitVec 2) : Spec.descAddr r (Spec.withRpl ss l) = Spec.descAddr r ss := by
  have e : (Spec.withRpl ss l).toNat = ss.toNat / 4 * 4 + l.toNat := by
    unfold Spec.withRpl
    rw [BitVec.toNat_ofNat]
    have := l.isLt; have := ss.isLt
    omega
  have e2 : (Spec.withRpl ss l)[2] = ss[2] := by
    rw [← BitVec.getLsbD_eq_getElem, ← BitVec.getLsbD_eq_getElem]
    unfold BitVec.getLsbD
    rw [e]
    have := l.isLt
    simp only [Nat.testBit_eq_decide_div_mod_eq]
    congr 2
    omega
  have e3 : (Spec.withRpl ss l).toNat / 8 * 8 = ss.toNat / 8 * 8 := by
    rw [e]; have := l.isLt; omega
  unfold Spec.descAddr Spec.tableBase
  rw [e3, e2]

theorem gate_core {acc : Acc} {s s' : Cpu} {ret ca : BitVec 32} {csel : BitVec 16} {d cd : BitVec 64} {w n : Nat} (ha : AgreeCore s.r) (hm : mode s.r = .prot)
    (hi : callGate2 acc s.r ret d csel ca cd s = .ok () s') (hw' : (if dTy d >>> 3 = 0#64 then 2 else 4) = w) (hn' : (d >>> 32 &&& 0x1F#64).toNat = n)
    (hn31 : n ≤ 31) (hwk : w = 2 ∨ w = 4) (hdc1 : dConf cd = false) (hdc2 : dDpl cd = (level s'.r).setWidth 64)
    (hfc : FrameApart s'.r w (if level s'.r < level s.r then n + 4 else 2) ca)
    (hfs : level s'.r < level s.r → FrameApart s'.r w (n + 4) (Spec.descAddr s.r s'.r.ss.sel))
    (hpar : level s'.r < level s.r → 0 < n → stack32 s'.r = stack32 s.r ∧ Spec.ParamsApart s.r s'.r w n)
    (hroom : ¬ level s'.r < level s.r → stack32 s.r = true ∨ (2 * w ≤ s.r.esp.toNat ∧ s.r.esp.toNat < 65536)) :
    CallFrame s s' w n ret := by
  have hcond : (!dConf cd && decide (dDpl cd < cpl s.r)) = decide (level s'.r < level s.r) := by
    rw [hdc1, hdc2, cpl_level ha]
    simp only [lt2, Bool.not_false, Bool.true_and]
  by_cases hlt : level s'.r < level s.r
  · rw [decide_eq_true hlt] at hcond
    rw [if_pos hlt] at hfc
    obtain ⟨w2, tesp, ss, neip, hw2, hi⟩ := callGate2_inner hi hcond
    rw [hw'] at hw2
    subst hw2
    rw [hn'] at hi
    have hfs := hfs hlt
    have hsel := callStack_sel hi
    rw [hsel, hdc2, withRpl_eq, descAddr_rpl] at hfs
    exact frame_inner hwk hn31 hm hi hlt hfs hfc (hpar hlt)
  · rw [decide_eq_false hlt] at hcond
    rw [if_neg hlt] at hfc
    obtain ⟨w2, sp, sx, neip, hw2, hp, hi⟩ := callGate2_same hi hcond
    rw [hw'] at hw2
    subst hw2
    rw [ss32_eq ha] at hp
    obtain ⟨-, r2, -, -⟩ := pushAll_ok (by omega) _ (by simp only [List.length_cons, List.length_nil]; omega) (by omega) hp
    obtain ⟨sy, g1, g2, g3, g4, g5, g6, -⟩ := callEnd_ok hi
    rw [r2] at g3 g5 g6
    exact frame_same hwk hp g1 g2 (stack32_of g5 g6 g3) g3 g4 hfc (hroom hlt) hlt

theorem gate_width' {d : BitVec 64} (h : Spec.isGate d) : (if dTy d >>> 3 = 0#64 then 2 else 4) = Spec.gateWidth d := by
  refine gate_width d ?_
  rw [dTy_eq]
  rcases h.2 with e | e <;> rw [e] <;> decide

theorem gateParams_le (d : BitVec 64) : Spec.gateParams d ≤ 31 := by
  unfold Spec.gateParams
  have := (d.extractLsb' 32 5).isLt
  omega

theorem gateWidth_or (d : BitVec 64) : Spec.gateWidth d = 2 ∨ Spec.gateWidth d = 4 := by
  unfold Spec.gateWidth
  split
  · exact .inr rfl
  · exact .inl rfl

theorem ite_neg_call {b : Bool} {x y : M Unit} {s s' : Cpu} (hb : b = false) (h : (if b then x else y) s = .ok () s') : y s = .ok () s' := by
  subst hb; exact h

/-- A far call through a call gate to a segment that is not conforming: the frame, whether or not the level changes. -/
theorem C89_gate_frame (acc : Acc) (s s' : Cpu) (sel : BitVec 16) (k : Nat) (call ret : BitVec 32) (ha : AgreeCore s.r) (hm : mode s.r = .prot)
    (hs : Spec.isSeg (Spec.descAt s sel) = false) (hc : Spec.conforming (Spec.descAt s (Spec.gateSel (Spec.descAt s sel))) = false)
    (h : instr acc (.farCall sel k call ret) s = .ok () s') (w n : Nat) (hw : Spec.gateWidth (Spec.descAt s sel) = w)
    (hn : Spec.gateParams (Spec.descAt s sel) = n)
    (hfc : FrameApart s'.r w (if level s'.r < level s.r then n + 4 else 2) (Spec.descAddr s.r (Spec.gateSel (Spec.descAt s sel))))
    (hfs : level s'.r < level s.r → FrameApart s'.r w (n + 4) (Spec.descAddr s.r s'.r.ss.sel))
    (hpar : level s'.r < level s.r → 0 < n → stack32 s'.r = stack32 s.r ∧ Spec.ParamsApart s.r s'.r w n)
    (hroom : ¬ level s'.r < level s.r → stack32 s.r = true ∨ (2 * w ≤ s.r.esp.toNat ∧ s.r.esp.toNat < 65536)) :
    CallFrame s s' w n ret := by
  have hl := (C67_level_partial acc s s' sel k call ret ha hm h).2 hs hc
  have hgt := (C67_gate_target acc s s' sel k call ret ha hm h hs).1.gate
  obtain ⟨csel, hcs, hi⟩ := callGate_inv (ite_neg_call ((dS_eq _).trans hs) (lcall_inv ha hm h))
  subst hcs
  exact gate_core ha hm hi ((gate_width' hgt).trans hw) ((gate_params _).trans hn) (hn ▸ gateParams_le _) (hw ▸ gateWidth_or _)
    ((dConf_eq _).trans hc) ((dDpl_eq _).trans (congrArg (BitVec.setWidth 64) hl.symm)) hfc hfs hpar hroom

theorem validateSeg_arith (i : SR) (r : Regs) : (validateSeg i r).arith = r.arith := by
  unfold validateSeg
  dsimp only
  split
  · cases i <;> rfl
  · rfl

theorem validateAll_arith (r : Regs) : (validateAll r).arith = r.arith := by
  unfold validateAll
  rw [validateSeg_arith, validateSeg_arith, validateSeg_arith, validateSeg_arith]

namespace Rf

theorem lretPe_eq (acc : Acc) (k : Nat) : lretPe acc k = (getR >>= fun r => popV acc k r.esp >>= fun p => popV acc k p.2 >>= fun q =>
    retPe acc k p.1 (q.1.setWidth 16) q.2 none) := rfl

theorem lret_run {Q : Cpu → Prop} (acc : Acc) (s : Cpu) (hp : Prot false s.r) (ha : AgreeCore s.r)
    (eip csv : BitVec 32) (h0 : BitVec.ofNat 32 (stackItem s 4 0) = eip) (h1 : BitVec.ofNat 32 (stackItem s 4 1) = csv)
    (h : ∀ sp, sp &&& stackMask (stack32 s.r) = (s.r.esp + BitVec.ofNat 32 (4 * 2)) &&& stackMask (stack32 s.r) →
      FaultOr Q (retPe acc 4 eip (csv.setWidth 16) sp none s)) :
    FaultOr Q (instr acc (.farRet 4) s) := by
  obtain ⟨sp1, hsp1, hp1⟩ := pop_item acc s ha 0 s.r.esp (by simp)
  obtain ⟨sp2, hsp2, hp2⟩ := pop_item acc s ha 1 sp1 hsp1
  rw [h0] at hp1
  rw [h1] at hp2
  have hpe : instr acc (.farRet 4) s = lretPe acc 4 s := by
    show (if peNotVm s.r = true then lretPe acc 4 else farRetReal acc 4) s = _
    rw [if_pos (peNotVm_prot hp)]
  rw [hpe, lretPe_eq, bind_getR, hp1]
  apply faultOr_acc
  rw [hp2]
  apply faultOr_acc
  exact h sp2 hsp2

/-- The registers after a return to the same level. -/
theorem same_regs {r2 r : Regs} {eip sp esp : BitVec 32} {sel : BitVec 16} {d : BitVec 64} {b : Bool}
    (hx : r = writeSeg .cs sel (descBase d) (descLimit d) (descFlags d) (retPoint b sp eip r2)) (hm : mode r2 = .prot)
    (he : (r2.esp &&& ~~~stackMask b) ||| (sp &&& stackMask b) = esp) :
    mode r = .prot ∧ level r = sel.setWidth 2 ∧ r.eip = eip ∧ r.eflags = r2.eflags ∧ r.arith = r2.arith ∧ Spec.Holds r.cs sel d ∧
      r.ss = r2.ss ∧ r.esp = esp := by
  obtain ⟨p1, p2, p3, p4, p5, p6⟩ := point_core b sp eip r2
  have p7 : (retPoint b sp eip r2).arith = r2.arith := rfl
  generalize retPoint b sp eip r2 = x at *
  obtain ⟨q1, q2, q3, q4, q5, q6⟩ := wcs_core sel (descBase d) (descLimit d) (descFlags d) x
  have q7 := (writeSeg_cs_keep sel (descBase d) (descLimit d) (descFlags d) x).2.2.2
  rw [← hx] at q1 q2 q3 q4 q5 q6 q7
  have hmr : mode r = .prot := mode_of hm (q2.trans p2) (q1.trans p1)
  refine ⟨hmr, ?_, q3.trans p3, q1.trans p1, q7.trans p7, by rw [q6]; exact holds_desc _ _, q5.trans p4, by rw [q4, p6, he]⟩
  rw [level_prot hmr, q6]

/-- The registers after a return to an outer level. -/
theorem outer_regs {r2 r : Regs} {eip nesp : BitVec 32} {sel ss : BitVec 16} {d sd : BitVec 64}
    (hx : r = validateAll (retPoint (descFlags sd &&& HID_DB != 0#32) nesp eip
      (writeSeg .cs sel (descBase d) (descLimit d) (descFlags d) (writeSeg .ss ss (descBase sd) (descLimit sd) (descFlags sd) r2))))
    (hm : mode r2 = .prot) :
    mode r = .prot ∧ level r = sel.setWidth 2 ∧ r.eip = eip ∧ r.eflags = r2.eflags ∧ r.arith = r2.arith ∧ Spec.Holds r.cs sel d ∧
      Spec.Holds r.ss ss sd ∧ r.esp = (r2.esp &&& ~~~stackMask (dDB sd)) ||| (nesp &&& stackMask (dDB sd)) := by
  rw [db_eq] at hx
  obtain ⟨w1, w2, w3, w4⟩ := wss_core ss (descBase sd) (descLimit sd) (descFlags sd) r2
  have w7 : (writeSeg .ss ss (descBase sd) (descLimit sd) (descFlags sd) r2).arith = r2.arith := rfl
  generalize writeSeg .ss ss (descBase sd) (descLimit sd) (descFlags sd) r2 = w at *
  obtain ⟨q1, q2, q3, q4, q5, q6⟩ := wcs_core sel (descBase d) (descLimit d) (descFlags d) w
  have q7 := (writeSeg_cs_keep sel (descBase d) (descLimit d) (descFlags d) w).2.2.2
  generalize writeSeg .cs sel (descBase d) (descLimit d) (descFlags d) w = y at *
  obtain ⟨p1, p2, p3, p4, p5, p6⟩ := point_core (dDB sd) nesp eip y
  have p7 : (retPoint (dDB sd) nesp eip y).arith = y.arith := rfl
  generalize retPoint (dDB sd) nesp eip y = x at *
  obtain ⟨v1, v2, v3, v4, v5⟩ := validateAll_core x
  have vc := validateAll_cs x
  have va := validateAll_arith x
  rw [← hx] at v1 v2 v3 v4 v5 vc va
  have hf : r.eflags = r2.eflags := by rw [v3, p1, q1, w1]
  have hmr : mode r = .prot := mode_of hm (by rw [v4, p2, q2, w2]) hf
  have hcs : r.cs = ⟨sel, descBase d, descLimit d, descFlags d⟩ := by rw [vc, p5, q6]
  have hss : r.ss = ⟨ss, descBase sd, descLimit sd, descFlags sd⟩ := by rw [v5, p4, q5, w4]
  refine ⟨hmr, ?_, by rw [v2, p3], hf, by rw [va, p7, q7, w7], by rw [hcs]; exact holds_desc _ _, by rw [hss]; exact holds_desc _ _,
    by rw [v1, p6, q4, w3]⟩
  rw [level_prot hmr, hcs]

end Rf

/-- A procedure that was entered with a frame of double words, without parameters, and that executes RETF with its frame intact, goes back to
the caller, unless one of the memory accesses of RETF page faults. -/
theorem C89_returns (acc : Acc) (s s1 s2 : Cpu) (ret : BitVec 32) (hm : mode s.r = .prot) (hm1 : mode s1.r = .prot) (hfr : CallFrame s s1 4 0 ret)
    (hle : level s1.r ≤ level s.r) (hd : Spec.ProcDone s1 s2) (hr : Spec.Returnable s2 s.r.cs.sel)
    (hs : level s1.r < level s.r → Spec.ReturnableStack s2 s.r.ss.sel (level s.r)) :
    FaultOr (Spec.BackIn s s1 s2 · ret) (instr acc (.farRet 4) s2) := by
  have hp2 := prot_of hd.agree hd.prot
  have i0 : BitVec.ofNat 32 (stackItem s2 4 0) = ret := item_val ((hd.frame 0 (by omega)).trans hfr.eip)
  have i1 : ((BitVec.ofNat 32 (stackItem s2 4 1)).setWidth 16 : BitVec 16) = s.r.cs.sel := item_sel ((hd.frame 1 (by omega)).trans hfr.cs)
  have hl : Spec.rpl s.r.cs.sel = level s.r := (level_prot hm).symm
  apply Rf.lret_run acc s2 hp2 hd.agree _ _ i0 rfl
  rw [i1]
  intro sp hsp
  by_cases hin : level s1.r < level s.r
  · have hin2 : level s2.r < Spec.rpl s.r.cs.sel := by rw [hd.same_level, hl]; exact hin
    have hret := hs hin
    rw [← hl] at hret
    have i3 : BitVec.ofNat 32 (stackItem s2 4 2) = s.r.esp := item_val ((hd.frame 2 (by omega)).trans (hfr.esp hin))
    have i4 : ((BitVec.ofNat 32 (stackItem s2 4 3)).setWidth 16 : BitVec 16) = s.r.ss.sel :=
      item_sel ((hd.frame 3 (by omega)).trans (hfr.ss hin))
    generalize hd1 : Spec.descAt s2 s.r.cs.sel = d
    generalize hd2 : Spec.descAt s2 s.r.ss.sel = sd
    apply Rf.retPe_outer acc ret sp s.r.cs.sel s2 d sd hd1 2 hsp hd.agree hr hin2 s.r.ss.sel _ _ i3 rfl i4 hret hd2
    intro m
    generalize hx : validateAll _ = x
    obtain ⟨o1, o2, o3, o4, o5, o6, o7, o8⟩ := Rf.outer_regs hx.symm hd.prot
    refine ⟨o1, o2.trans (level_prot hm).symm, o3, ⟨o4, o5⟩, by rw [hd1]; exact o6, fun hn => absurd hin hn, fun _ => ⟨by rw [hd2]; exact o7, ?_, ?_⟩⟩
    · intro hb
      have : dDB sd = true := by
        unfold dDB
        rw [bit64b sd 0x40000000000000#64 54 (by omega) rfl, ← hd2, hb]
      exact o8.trans (by rw [this, esp_full])
    · have : (x.esp.setWidth 16 : BitVec 16) = s.r.esp.setWidth 16 := by
        rw [o8]
        cases dDB sd
        · exact esp_low _ _
        · rw [esp_full]
      exact this
  · have heq : level s1.r = level s.r := BitVec.le_antisymm hle (BitVec.not_lt.mp hin)
    have hrl : Spec.rpl s.r.cs.sel = level s2.r := by rw [hd.same_level, heq, hl]
    have hb : stack32 s2.r = stack32 s1.r := by
      unfold stack32; rw [hd.prot, hm1, hd.ss]
    have hesp : (s2.r.esp &&& ~~~stackMask (stack32 s2.r)) ||| (sp &&& stackMask (stack32 s2.r)) = s.r.esp := by
      rw [esp_after _ _ _ _ hsp, ← (hfr.same hin).2]
      unfold Spec.espAfter
      rw [hb, hd.esp]
    generalize hd1 : Spec.descAt s2 s.r.cs.sel = d
    apply Rf.retPe_same acc ret sp s.r.cs.sel s2 d hd1 hd.agree hr hrl
    intro m
    generalize hx : writeSeg .cs _ _ _ _ _ = x
    obtain ⟨o1, o2, o3, o4, o5, o6, o7, o8⟩ := Rf.same_regs hx.symm hd.prot hesp
    exact ⟨o1, o2.trans (level_prot hm).symm, o3, ⟨o4, o5⟩, by rw [hd1]; exact o6,
      fun _ => ⟨by rw [← (hfr.same hin).1, ← hd.ss]; exact o7, o8⟩, fun hn => absurd hn hin⟩

theorem call_mode {acc : Acc} {s s' : Cpu} {sel : BitVec 16} {k : Nat} {call ret : BitVec 32} (h : AgreeCore s.r)
    (hm : mode s.r = .prot) (hr : instr acc (.farCall sel k call ret) s = .ok () s') : mode s'.r = .prot := by
  have hp := prot_of h hm
  change (if peNotVm s.r = true then _ else _ : M Unit) s = _ at hr
  rw [peNotVm_prot hp, if_pos rfl] at hr
  have := (keeps_lcallPe (fl := false) acc sel call k ret).run s hp
  rw [hr] at this
  exact mode_prot_of this

/-- A far call to a code segment, 32 bit operands, and the RETF of the procedure. -/
theorem C89_direct_round_trip (acc acc' : Acc) (s s1 s2 : Cpu) (sel : BitVec 16) (call ret : BitVec 32) (ha : AgreeCore s.r) (hm : mode s.r = .prot)
    (hs : Spec.isSeg (Spec.descAt s sel) = true) (hroom : Roomy s.r 4) (h : instr acc (.farCall sel 4 call ret) s = .ok () s1)
    (hf : FrameApart s1.r 4 2 (Spec.descAddr s.r sel)) (hd : Spec.ProcDone s1 s2) (hr : Spec.Returnable s2 s.r.cs.sel) :
    FaultOr (Spec.BackIn s s1 s2 · ret) (instr acc' (.farRet 4) s2) := by
  have hl := (C67_level_partial acc s s1 sel 4 call ret ha hm h).1 hs
  exact C89_returns acc' s s1 s2 ret hm (call_mode ha hm h) (C89_direct_frame acc s s1 sel 4 call ret ha hm hs (.inr rfl) hroom h hf)
    (by rw [hl]; exact BitVec.le_refl _) hd hr (fun x => absurd x (by rw [hl]; exact BitVec.lt_irrefl _))

/-- A far call through a 32 bit call gate without parameters, to the same or an inner level, and the RETF of the procedure. -/
theorem C89_gate_round_trip_partial (acc acc' : Acc) (s s1 s2 : Cpu) (sel : BitVec 16) (k : Nat) (call ret : BitVec 32) (ha : AgreeCore s.r) (hm : mode s.r = .prot)
    (hs : Spec.isSeg (Spec.descAt s sel) = false) (hc : Spec.conforming (Spec.descAt s (Spec.gateSel (Spec.descAt s sel))) = false)
    (h : instr acc (.farCall sel k call ret) s = .ok () s1) (hw : Spec.gateWidth (Spec.descAt s sel) = 4)
    (hn : Spec.gateParams (Spec.descAt s sel) = 0)
    (hfc : FrameApart s1.r 4 (if level s1.r < level s.r then 4 else 2) (Spec.descAddr s.r (Spec.gateSel (Spec.descAt s sel))))
    (hfs : level s1.r < level s.r → FrameApart s1.r 4 4 (Spec.descAddr s.r s1.r.ss.sel))
    (hroom : ¬ level s1.r < level s.r → stack32 s.r = true ∨ (8 ≤ s.r.esp.toNat ∧ s.r.esp.toNat < 65536))
    (hd : Spec.ProcDone s1 s2) (hr : Spec.Returnable s2 s.r.cs.sel)
    (hst : level s1.r < level s.r → Spec.ReturnableStack s2 s.r.ss.sel (level s.r)) :
    FaultOr (Spec.BackIn s s1 s2 · ret) (instr acc' (.farRet 4) s2) := by
  have hl := (C67_level_partial acc s s1 sel k call ret ha hm h).2 hs hc
  have hle := (C67_gate_target acc s s1 sel k call ret ha hm h hs).2.1
  rw [← hl] at hle
  exact C89_returns acc' s s1 s2 ret hm (call_mode ha hm h)
    (C89_gate_frame acc s s1 sel k call ret ha hm hs hc h 4 0 hw hn hfc hfs (fun _ x => absurd x (by omega)) hroom) hle hd hr hst

theorem pushV_low (acc : Acc) (k : Nat) (hk : k = 2 ∨ k = 4) (sp sp' v : BitVec 32) (s : Cpu) (hb : s.r.hflags &&& H_SS32 = 0#32)
    (he : sp &&& 0xFFFF#32 = sp' &&& 0xFFFF#32) :
    pushV acc k sp v s = (match pushRaw acc k s.r.ss.base (stackMask false) 0 sp' v s with
      | .ok x s' => .ok (x &&& 0xFFFF#32) s' | .stop e s' => .stop e s') := by
  have e : (((sp.setWidth 16 : BitVec 16) - BitVec.ofNat 16 k).setWidth 32 : BitVec 32) = (sp' - BitVec.ofNat 32 k) &&& stackMask false := by
    have h1 : (sp.setWidth 16 : BitVec 16) = sp'.setWidth 16 := by
      have := congrArg (BitVec.setWidth 16) he
      apply BitVec.eq_of_toNat_eq
      have := congrArg BitVec.toNat he
      rw [show ∀ x : BitVec 32, (x &&& 0xFFFF#32).toNat = x.toNat % 65536 from fun x => by
        rw [BitVec.toNat_and]; exact Nat.and_two_pow_sub_one_eq_mod _ 16, BitVec.toNat_and] at this
      rw [BitVec.toNat_setWidth, BitVec.toNat_setWidth]
      rw [this]
      exact Nat.and_two_pow_sub_one_eq_mod _ 16
    rw [h1, mask_eq]
    apply BitVec.eq_of_toNat_eq
    rw [if_neg (by simp), low16_toNat, BitVec.toNat_setWidth, BitVec.toNat_sub, BitVec.toNat_sub, BitVec.toNat_setWidth, BitVec.toNat_ofNat, BitVec.toNat_ofNat]
    have := sp'.isLt
    rcases hk with rfl | rfl <;> omega
  unfold pushV pushRaw
  rw [bind_getR, if_neg (fun h => h.1 hb), e, BitVec.add_comm]
  simp only [bind, wr]
  split
  · rfl
  · rfl

theorem peNotVm_off {r : Regs} (ha : AgreeCore r) (hm : mode r ≠ .prot) : peNotVm r = false := by
  unfold peNotVm
  by_cases hp : r.cr0[0] = true
  · by_cases hv : r.eflags[17] = true
    · have := (and_ne_zero_bit r.eflags 0x20000#32 17 (by omega) rfl).2 hv
      simp [this]
    · exact absurd (mode_prot_mk hp (by simpa using hv)) hm
  · have h1 := and_ne_zero_bit r.hflags H_PE 4 (by omega) rfl
    rw [ha.pe] at h1
    simp at hp
    simp [hp] at h1
    simp [h1]

/-- A far call in real or vm86 mode. -/
theorem C89_real_frame (acc : Acc) (s s1 : Cpu) (sel : BitVec 16) (k : Nat) (call ret : BitVec 32) (ha : AgreeCore s.r) (hm : mode s.r ≠ .prot)
    (hk : k = 2 ∨ k = 4) (h : instr acc (.farCall sel k call ret) s = .ok () s1) :
    CallFrame s s1 k 0 ret ∧ s1.r.cs.sel = sel ∧ s1.r.cs.base.toNat = sel.toNat * 16 ∧ s1.r.eip = call ∧ mode s1.r = mode s.r ∧
      s1.r.eflags = s.r.eflags ∧ s1.r.arith = s.r.arith := by
  have hpn : peNotVm s.r = false := peNotVm_off ha hm
  have hst : stack32 s.r = false := by
    unfold stack32; simp [hm]
  have hb := (ss32_eq ha).trans hst
  have hb' : s.r.hflags &&& H_SS32 = 0#32 := by simpa using hb
  change (if peNotVm s.r = true then _ else farCallReal acc sel k call ret : M Unit) s = _ at h
  rw [hpn, if_neg Bool.false_ne_true, farCallReal.eq_1, bind_getR] at h
  rw [hb] at h
  obtain ⟨sp1, sa, h1, h⟩ := bind_ok.1 h
  obtain ⟨sp2, sb, h2, h⟩ := bind_ok.1 h
  rw [pushV_low acc k hk _ s.r.esp _ s hb' rfl] at h1
  cases g1 : pushRaw acc k s.r.ss.base (stackMask false) 0 s.r.esp (s.r.cs.sel.setWidth 32) s with
  | stop e x => rw [g1] at h1; cases h1
  | ok x sa' =>
  rw [g1] at h1
  cases h1
  obtain ⟨e1, r1, -⟩ := pushRaw_ok g1
  rw [pushV_low acc k hk _ x _ sa (by rw [r1]; exact hb') (by rw [BitVec.and_assoc, BitVec.and_self]), r1] at h2
  cases g2 : pushRaw acc k s.r.ss.base (stackMask false) 0 x ret sa with
  | stop e x => rw [g2] at h2; cases h2
  | ok y sb' =>
  rw [g2] at h2
  cases h2
  have hp : pushAll acc k s.r.ss.base (stackMask false) 0 [s.r.cs.sel.setWidth 32, ret] s.r.esp s = .ok y sb := by
    rw [pushAll_two, bind_of_ok g1]; exact g2
  obtain ⟨e, rr, -, items⟩ := pushAll_ok (by omega) _ (by simp only [List.length_cons, List.length_nil]; omega) (by omega) hp
  simp only [List.length_cons, List.length_nil, Nat.zero_add] at e items
  rw [bind_modR] at h
  have h3 := modR_ok.1 h
  subst h3
  rw [rr]
  generalize hz : ({ sb with r := _ } : Cpu) = z
  have z1 : z.mem = sb.mem := by rw [← hz]
  have z2 : z.r.esp = (s.r.esp &&& ~~~stackMask false) ||| ((y &&& 0xFFFF#32) &&& stackMask false) := by rw [← hz]
  have z3 : z.r.ss = s.r.ss ∧ z.r.cr0 = s.r.cr0 ∧ z.r.eflags = s.r.eflags ∧ z.r.arith = s.r.arith ∧ z.r.eip = call ∧ z.r.cs.sel = sel ∧
      z.r.cs.base = sel.setWidth 32 <<< 4 := by rw [← hz]; exact ⟨rfl, rfl, rfl, rfl, rfl, rfl, rfl⟩
  clear hz
  have hmz : mode z.r = mode s.r := by unfold mode; rw [z3.2.1, z3.2.2.1]
  have hsz : stack32 z.r = false := by unfold stack32; rw [hmz]; simp [hm]
  have hlz : ¬ level z.r < level s.r := by
    have : level z.r = level s.r := by
      unfold level
      rw [hmz]
      revert hm
      cases mode s.r
      · intro _; rfl
      · intro _; rfl
      · intro hm; exact absurd rfl hm
    rw [this]; exact BitVec.lt_irrefl _
  have item : ∀ i (hi : i < 2), stackItem z k i = ([s.r.cs.sel.setWidth 32, ret][1 - i]'(by simp only [List.length_cons, List.length_nil]; omega)).toNat % 256 ^ k := by
    intro i hi
    have := items i (by omega)
    simp only [show 1 + 1 - 1 - i = 1 - i from by omega] at this
    rw [← this]
    unfold stackItem
    rw [z1, stackAddr_eq, hsz, z3.1, z2]
    have e2 : (((s.r.esp &&& ~~~stackMask false) ||| ((y &&& 0xFFFF#32) &&& stackMask false)) + BitVec.ofNat 32 (k * i)) &&& stackMask false =
        (y + BitVec.ofNat 32 (k * i)) &&& stackMask false := by
      rw [show stackMask false = 0xFFFF#32 from rfl]
      have h1 : (((s.r.esp &&& ~~~0xFFFF#32) ||| ((y &&& 0xFFFF#32) &&& 0xFFFF#32)).setWidth 16 : BitVec 16) = y.setWidth 16 := by
        bits16
      generalize ((s.r.esp &&& ~~~0xFFFF#32) ||| ((y &&& 0xFFFF#32) &&& 0xFFFF#32)) = q at *
      have := low_add q y h1 (BitVec.ofNat 32 (k * i))
      have m16 : ∀ x : BitVec 32, x &&& 0xFFFF#32 = (x.setWidth 16 : BitVec 16).setWidth 32 := fun x => by
        have := mask_eq false x; exact this
      rw [m16, m16, this]
    rw [e2]
  refine ⟨⟨item 0 (by omega), (item 1 (by omega)).trans (sel_small _ k hk), fun x => absurd x hlz, fun x => absurd x hlz, fun x => absurd x hlz,
    fun _ => ⟨z3.1, ?_⟩⟩, z3.2.2.2.2.2.1, by rw [z3.2.2.2.2.2.2]; exact sel_base sel, z3.2.2.2.2.1, hmz, z3.2.2.1, z3.2.2.2.1⟩
  unfold Spec.espAfter
  rw [hsz, if_neg (by simp), z2, e]
  generalize hkk : k * 2 = kk
  have hkk' : kk < 65536 := by omega
  clear items item hp g1 g2 hkk
  generalize s.r.esp = x at *
  have h1 : ((x &&& ~~~stackMask false) ||| (((x - BitVec.ofNat 32 kk) &&& 0xFFFF#32) &&& stackMask false)).extractLsb' 16 16 = x.extractLsb' 16 16 := by
    generalize x - BitVec.ofNat 32 kk = q
    rw [show stackMask false = 0xFFFF#32 from rfl]
    bits16
  have h2 : (((x &&& ~~~stackMask false) ||| (((x - BitVec.ofNat 32 kk) &&& 0xFFFF#32) &&& stackMask false)).setWidth 16 : BitVec 16) =
      (x - BitVec.ofNat 32 kk).setWidth 16 := by
    generalize x - BitVec.ofNat 32 kk = q
    rw [show stackMask false = 0xFFFF#32 from rfl]
    bits16
  rw [h1, low_add _ _ h2, BitVec.sub_add_cancel]
  exact halves x

/-- RETF in real or vm86 mode. -/
theorem C89_real_returns (acc : Acc) (s s1 s2 : Cpu) (k : Nat) (ret : BitVec 32) (hk : k = 2 ∨ k = 4) (hm : mode s.r ≠ .prot) (hm1 : mode s1.r ≠ .prot)
    (hfr : CallFrame s s1 k 0 ret) (hl : ¬ level s1.r < level s.r) (ha : AgreeCore s2.r) (hm2 : mode s2.r = mode s.r) (hss : s2.r.ss = s1.r.ss)
    (hesp : s2.r.esp = s1.r.esp) (hst : ∀ i, i < 2 → stackItem s2 k i = stackItem s1 k i) :
    FaultOr (fun s3 => mode s3.r = mode s.r ∧ s3.r.eip.toNat = ret.toNat % 256 ^ k ∧ s3.r.cs.sel = s.r.cs.sel ∧
      s3.r.cs.base.toNat = s.r.cs.sel.toNat * 16 ∧ s3.r.ss = s.r.ss ∧ s3.r.esp = s.r.esp ∧ s3.r.eflags = s2.r.eflags ∧ s3.r.arith = s2.r.arith ∧
      s3.mem = s2.mem) (instr acc (.farRet k) s2) := by
  have hmm : mode s2.r ≠ .prot := by rw [hm2]; exact hm
  have hpn : peNotVm s2.r = false := peNotVm_off ha hmm
  have hst2 : stack32 s2.r = false := by
    unfold stack32; simp [hmm]
  have hst1 : stack32 s1.r = false := by
    unfold stack32; simp [hm1]
  have hb := (ss32_eq ha).trans hst2
  have hir : ∀ n, Spec.ItemsReached s2.r k n := fun n _ h => by rw [hst2] at h; cases h
  change FaultOr _ ((if peNotVm s2.r = true then _ else farRetReal acc k : M Unit) s2)
  rw [hpn, if_neg Bool.false_ne_true]
  have heq : farRetReal acc k = (getR >>= fun r => popV acc k r.esp >>= fun p => popV acc k p.2 >>= fun q =>
      modR (fun r' => { r' with esp := (r'.esp &&& ~~~stackMask (r.hflags &&& H_SS32 != 0#32)) ||| (q.2 &&& stackMask (r.hflags &&& H_SS32 != 0#32)) }) >>= fun _ =>
      farReal (q.1.setWidth 16) p.1) := rfl
  rw [heq, bind_getR, hb]
  cases g1 : popV acc k s2.r.esp s2 with
  | stop e x =>
    rw [bind_of_stop g1, popV_stop g1]; trivial
  | ok p sa =>
  obtain ⟨ea, p1, at1⟩ := pop_any ha hk (hir 0) ⟨by simp, fun _ _ => by simp⟩ g1
  subst ea
  rw [bind_of_ok g1]
  cases g2 : popV acc k p.2 sa with
  | stop e x =>
    rw [bind_of_stop g2, popV_stop g2]; trivial
  | ok q sb =>
  obtain ⟨eb, q1, at2⟩ := pop_any ha hk (hir 1) at1 g2
  subst eb
  rw [bind_of_ok g2, bind_modR]
  have hsel : (q.1.setWidth 16 : BitVec 16) = s.r.cs.sel := by
    rw [q1]
    exact item_sel ((hst 1 (by omega)).trans hfr.cs)
  rw [hsel]
  refine ⟨hm2, ?_, rfl, sel_base _, ?_, ?_, rfl, rfl, rfl⟩
  · show p.1.toNat = _
    rw [p1, (hst 0 (by omega)).trans hfr.eip, BitVec.toNat_ofNat]
    have := ret.isLt
    rcases hk with rfl | rfl <;> omega
  · show sb.r.ss = _
    rw [hss, (hfr.same hl).1]
  · show (sb.r.esp &&& ~~~stackMask false) ||| (q.2 &&& stackMask false) = _
    rw [← (hfr.same hl).2]
    unfold Spec.espAfter
    rw [hst1, if_neg (by simp), ← hesp]
    have h2 := at2.1
    have e1 : ((sb.r.esp &&& ~~~stackMask false) ||| (q.2 &&& stackMask false)).setWidth 16 = (q.2.setWidth 16 : BitVec 16) := by
      rw [show stackMask false = 0xFFFF#32 from rfl]; exact esp_low _ _
    have e2 : ((sb.r.esp &&& ~~~stackMask false) ||| (q.2 &&& stackMask false)).extractLsb' 16 16 = sb.r.esp.extractLsb' 16 16 := by
      rw [show stackMask false = 0xFFFF#32 from rfl]; exact esp_high16 _ _
    rw [← halves ((sb.r.esp &&& ~~~stackMask false) ||| (q.2 &&& stackMask false)), e1, e2, h2]

/-- RETF with an immediate to the same level: the caller goes on with its parameters off the stack. -/
theorem C89_retf_imm_partial (acc : Acc) (s s1 s2 : Cpu) (ret : BitVec 32) (imm : BitVec 16) (hm : mode s.r = .prot) (hm1 : mode s1.r = .prot)
    (hfr : CallFrame s s1 4 0 ret) (hle : level s1.r = level s.r) (hd : Spec.ProcDone s1 s2) (hr : Spec.Returnable s2 s.r.cs.sel) :
    FaultOr (fun s4 => ∃ s3, Spec.BackIn s s1 s2 s3 ret ∧ s4 = { s3 with r := { s3.r with esp := Spec.dropped s.r imm } })
      (farRetImm acc 4 imm s2) := by
  have hlt : ¬ level s1.r < level s.r := by rw [hle]; exact BitVec.lt_irrefl _
  have h := C89_returns acc s s1 s2 ret hm hm1 hfr (by rw [hle]; exact BitVec.le_refl _) hd hr (fun x => absurd x hlt)
  have hb : (s2.r.hflags &&& H_SS32 != 0#32) = stack32 s.r := by
    rw [ss32_eq hd.agree]
    unfold stack32
    rw [hd.prot, hm, hd.ss, (hfr.same hlt).1]
  unfold farRetImm
  rw [bind_getR, hb]
  cases g : instr acc (.farRet 4) s2 with
  | stop e x =>
    rw [g] at h
    rw [bind_of_stop g]
    cases e with
    | fault => trivial
    | exc i c => exact h.elim
    | abort => exact h.elim
  | ok u s3 =>
    rw [g] at h
    rw [bind_of_ok g]
    refine ⟨s3, h, ?_⟩
    have he := (h.same hlt).2
    show (⟨addImm (stack32 s.r) imm s3.r, s3.mem⟩ : Cpu) = _
    unfold addImm Spec.dropped
    cases stack32 s.r
    · rw [if_neg (by simp), if_neg (by simp), he]
      congr 2
      generalize (s.r.esp.setWidth 16 : BitVec 16) + imm = y
      have h1 : ((s.r.esp &&& 0xFFFF0000#32) ||| y.setWidth 32).extractLsb' 16 16 = s.r.esp.extractLsb' 16 16 := by
        bits16
      have h2 : (((s.r.esp &&& 0xFFFF0000#32) ||| y.setWidth 32).setWidth 16 : BitVec 16) = y := by
        bits16
      rw [← halves ((s.r.esp &&& 0xFFFF0000#32) ||| y.setWidth 32), h1, h2]
    · rw [if_pos rfl, if_pos rfl, he]

namespace CallP
open SegP EventP

/-- GDT at 0x2000 as in `EventP.mem`, and 0x28 a 32 bit call gate to 8:0x5678 of DPL 3 without parameters, 0x30 one with a parameter, 0x38 a 64 KiB
data segment of 16 bits, DPL 0; TSS at 0x3000: ESP0 = 0x9000, SS0 = 0x10; the parameter 0x1234 at 0x17000. -/
def mem : Guest.Mem := ModeP.memOf
  [(0x2008, 0xFF), (0x2009, 0xFF), (0x200D, 0x9B), (0x200E, 0xCF),
   (0x2010, 0xFF), (0x2011, 0xFF), (0x2015, 0x93), (0x2016, 0xCF),
   (0x2018, 0xFF), (0x2019, 0xFF), (0x201D, 0xF3), (0x201E, 0xCF),
   (0x2020, 0xFF), (0x2021, 0xFF), (0x2025, 0xFB), (0x2026, 0xCF),
   (0x2028, 0x78), (0x2029, 0x56), (0x202A, 8), (0x202D, 0xEC),
   (0x2030, 0x78), (0x2031, 0x56), (0x2032, 8), (0x2034, 1), (0x2035, 0xEC),
   (0x2038, 0xFF), (0x2039, 0xFF), (0x203D, 0x93),
   (0x3005, 0x90), (0x3008, 0x10), (0x17000, 0x34), (0x17001, 0x12)]
/-- A user program with its stack above 64 KiB; a kernel; a kernel on a 16 bit stack whose ESP has a set upper half. -/
def user : Cpu := ⟨{ EventP.prog.r with esp := 0x17000#32 }, mem⟩
def kern : Cpu := ⟨{ ModeP.kernel with gdtLimit := 0x3F#32, esp := 0x18000#32 }, mem⟩
def small : Cpu := ⟨{ kern.r with ss := ⟨0x38#16, 0#32, 0xFFFF#32, 0x9300#32⟩, esp := 0x18000#32, hflags := kern.r.hflags &&& ~~~0x8#32 }, mem⟩
/-- The user program whose task has a 16 bit inner stack. -/
def user16 : Cpu := ⟨user.r, fun a => if a = 0x3008#32 then 0x38#8 else mem a⟩

/-- The procedures that they call. -/
def kcall : Cpu := endState (instr allOk (.farCall 8#16 4 0x5000#32 0x401007#32) kern)
def ucall : Cpu := endState (instr allOk (.farCall 0x28#16 4 0#32 0x401007#32) user)
def pcall : Cpu := endState (instr allOk (.farCall 0x30#16 4 0#32 0x401007#32) user)
def pcall16 : Cpu := endState (instr allOk (.farCall 0x30#16 4 0#32 0x401007#32) user16)
def wcall : Cpu := endState (instr allOk (.farCall 8#16 2 0x5000#32 0x1007#32) kern)
def scall : Cpu := endState (instr allOk (.farCall 8#16 4 0x5000#32 0x401007#32) small)
/-- A program in real mode and the procedure it calls. -/
def rprog : Cpu := ⟨{ EventP.vprog.r with cr0 := 0#32, hflags := 0#32, eflags := 2#32, esp := 0x10002#32 }, mem⟩
def rcall : Cpu := endState (instr allOk (.farCall 0x100#16 2 0x5000#32 0x1007#32) rprog)
end CallP
open CallP SegP EventP

theorem kcall_ok : instr allOk (.farCall 8#16 4 0x5000#32 0x401007#32) CallP.kern = .ok () kcall := of_completed (by decide +kernel)
theorem ucall_ok : instr allOk (.farCall 0x28#16 4 0#32 0x401007#32) CallP.user = .ok () ucall := of_completed (by decide +kernel)
theorem pcall_ok : instr allOk (.farCall 0x30#16 4 0#32 0x401007#32) CallP.user = .ok () pcall := of_completed (by decide +kernel)
theorem rcall_ok : instr allOk (.farCall 0x100#16 2 0x5000#32 0x1007#32) rprog = .ok () rcall := of_completed (by decide +kernel)

theorem callUser_core : AgreeCore CallP.user.r ∧ mode CallP.user.r = .prot ∧ level CallP.user.r = 3#2 := by
  refine ⟨?_, by decide, by decide⟩; constructor <;> decide
theorem callKern_core : AgreeCore CallP.kern.r ∧ mode CallP.kern.r = .prot ∧ level CallP.kern.r = 0#2 := by
  refine ⟨?_, by decide, by decide⟩; constructor <;> decide

theorem apart_of {r : Regs} {w n : Nat} {a : BitVec 32}
    (h : ∀ i : Fin n, ∀ j : Fin w, 8 ≤ (stackAddr r w i.val + BitVec.ofNat 32 j.val - a).toNat) : FrameApart r w n a :=
  fun i hi j hj => h ⟨i, hi⟩ ⟨j, hj⟩

-- The hypotheses of `C89_direct_frame` and of `C89_direct_round_trip` are met by a call in the kernel.
example : Spec.isSeg (Spec.descAt CallP.kern 8#16) = true ∧ Roomy CallP.kern.r 4 ∧ FrameApart kcall.r 4 2 (Spec.descAddr CallP.kern.r 8#16) ∧
    Spec.ProcDone kcall kcall ∧ Spec.Returnable kcall CallP.kern.r.cs.sel ∧ kcall.r.eip = 0x5000#32 := by
  refine ⟨by decide +kernel, .inl ⟨by decide, rfl⟩, apart_of (by decide +kernel), ?_, ?_, by decide +kernel⟩
  · refine ⟨?_, by decide +kernel, rfl, rfl, rfl, fun _ _ => rfl⟩
    constructor <;> decide +kernel
  · constructor
    · unfold Spec.nullSel; decide
    · unfold Spec.TableFits; decide +kernel
    · unfold Spec.InTable; decide +kernel
    all_goals decide +kernel

-- The hypotheses of `C89_gate_frame` and `C89_gate_round_trip_partial` are met by a user program that calls through a gate without parameters ...
example : Spec.isSeg (Spec.descAt CallP.user 0x28#16) = false ∧
    Spec.conforming (Spec.descAt CallP.user (Spec.gateSel (Spec.descAt CallP.user 0x28#16))) = false ∧
    Spec.gateWidth (Spec.descAt CallP.user 0x28#16) = 4 ∧ Spec.gateParams (Spec.descAt CallP.user 0x28#16) = 0 ∧ level ucall.r < level CallP.user.r ∧
    FrameApart ucall.r 4 4 (Spec.descAddr CallP.user.r (Spec.gateSel (Spec.descAt CallP.user 0x28#16))) ∧
    FrameApart ucall.r 4 4 (Spec.descAddr CallP.user.r ucall.r.ss.sel) ∧ Spec.ProcDone ucall ucall ∧ Spec.Returnable ucall CallP.user.r.cs.sel ∧
    Spec.ReturnableStack ucall CallP.user.r.ss.sel (level CallP.user.r) := by
  refine ⟨by decide +kernel, by decide +kernel, by decide +kernel, by decide +kernel, by decide +kernel, apart_of (by decide +kernel), apart_of (by decide +kernel), ?_, ?_, ?_⟩
  · refine ⟨?_, by decide +kernel, rfl, rfl, rfl, fun _ _ => rfl⟩
    constructor <;> decide +kernel
  · constructor
    · unfold Spec.nullSel; decide
    · unfold Spec.TableFits; decide +kernel
    · unfold Spec.InTable; decide +kernel
    all_goals decide +kernel
  · constructor
    · unfold Spec.nullSel; decide
    · unfold Spec.TableFits; decide +kernel
    · unfold Spec.InTable; decide +kernel
    · unfold Spec.StackSeg; decide +kernel
    · decide +kernel

-- ... and with a parameter.
example : Spec.gateParams (Spec.descAt CallP.user 0x30#16) = 1 ∧ level pcall.r < level CallP.user.r ∧ stack32 pcall.r = stack32 CallP.user.r ∧
    FrameApart pcall.r 4 5 (Spec.descAddr CallP.user.r (Spec.gateSel (Spec.descAt CallP.user 0x30#16))) ∧
    FrameApart pcall.r 4 5 (Spec.descAddr CallP.user.r pcall.r.ss.sel) ∧ Spec.ParamsApart CallP.user.r pcall.r 4 1 ∧ stackItem pcall 4 2 = 0x1234 := by
  refine ⟨by decide +kernel, by decide +kernel, by decide +kernel, apart_of (by decide +kernel), apart_of (by decide +kernel), ?_, by decide +kernel⟩
  have h : ∀ i : Fin 1, ∀ j : Fin 4, ∀ t : Fin 5, 4 ≤ (stackAddr CallP.user.r 4 i.val + BitVec.ofNat 32 j.val - stackAddr pcall.r 4 t.val).toNat := by
    decide +kernel
  exact fun i hi j hj t ht => h ⟨i, hi⟩ ⟨j, hj⟩ ⟨t, ht⟩

-- A call in real mode that wraps around the stack segment, with the upper half of ESP set.
example : AgreeCore rprog.r ∧ mode rprog.r = .real ∧ CallFrame rprog rcall 2 0 0x1007#32 ∧ rcall.r.esp = 0x1FFFE#32 ∧ AgreeCore rcall.r := by
  refine ⟨?_, by decide, (C89_real_frame allOk rprog rcall 0x100#16 2 0x5000#32 0x1007#32 ?_ (by decide) (.inl rfl) rcall_ok).1, by decide +kernel, ?_⟩
  all_goals constructor <;> decide +kernel

/-- A 16 bit far call on a 32 bit stack at or above 64 KiB cuts ESP to 16 bits: ESP was 0x18000 and the frame is at 0x7FFC. -/
theorem C89_wide_violation : AgreeCore CallP.kern.r ∧ mode CallP.kern.r = .prot ∧ stack32 CallP.kern.r = true ∧
    completed (instr allOk (.farCall 8#16 2 0x5000#32 0x1007#32) CallP.kern) = true ∧ wcall.r.esp = 0x7FFC#32 ∧
    ¬ CallFrame CallP.kern wcall 2 0 0x1007#32 := by
  refine ⟨callKern_core.1, callKern_core.2.1, by decide, by decide +kernel, by decide +kernel, fun h => ?_⟩
  exact absurd (h.same (by decide +kernel)).2 (by decide +kernel)

/-- A far call in protected mode on a 16 bit stack clears the upper half of ESP, which RETF does not bring back. -/
theorem C89_small_violation : AgreeCore small.r ∧ mode small.r = .prot ∧ stack32 small.r = false ∧
    completed (instr allOk (.farCall 8#16 4 0x5000#32 0x401007#32) small) = true ∧ scall.r.esp = 0x7FF8#32 ∧
    ¬ CallFrame small scall 4 0 0x401007#32 := by
  refine ⟨?_, by decide, by decide, by decide +kernel, by decide +kernel, fun h => ?_⟩
  · constructor <;> decide
  · exact absurd (h.same (by decide +kernel)).2 (by decide +kernel)

/-- A call gate to a 16 bit inner stack copies the parameters from the low 64 KiB of the caller's stack. -/
theorem C89_params_violation : completed (instr allOk (.farCall 0x30#16 4 0#32 0x401007#32) user16) = true ∧ level pcall16.r < level user16.r ∧
    stackItem user16 4 0 = 0x1234 ∧ stackItem pcall16 4 2 = 0 ∧ stackItem pcall16 4 0 = 0x401007 := by
  refine ⟨by decide +kernel, by decide +kernel, by decide +kernel, by decide +kernel, by decide +kernel⟩

/-- A procedure called through a gate with a parameter cannot return with RETF 4: RETF takes the parameter for the caller's ESP and the
caller's ESP for its SS, here #GP(0x7000), although the frame is intact and the segments are returnable. -/
theorem C89_retf_imm_violation : CallFrame CallP.user pcall 4 1 0x401007#32 ∧ Spec.Returnable pcall CallP.user.r.cs.sel ∧
    Spec.ReturnableStack pcall CallP.user.r.ss.sel 3#2 ∧
    (match farRetImm allOk 4 4#16 pcall with | .stop (.exc i c) _ => (i, c) | _ => (0, 0#16)) = (13, 0x7000#16) := by
  refine ⟨?_, ?_, ?_, by decide +kernel⟩
  · have h : ∀ i : Fin 1, ∀ j : Fin 4, ∀ t : Fin 5, 4 ≤ (stackAddr CallP.user.r 4 i.val + BitVec.ofNat 32 j.val - stackAddr pcall.r 4 t.val).toNat := by
      decide +kernel
    refine C89_gate_frame allOk _ _ 0x30#16 4 0#32 0x401007#32 callUser_core.1 callUser_core.2.1 (by decide +kernel) (by decide +kernel) pcall_ok 4 1
      (by decide +kernel) (by decide +kernel) ?_ (fun _ => apart_of (by decide +kernel)) (fun _ _ => ⟨by decide +kernel,
        fun i hi j hj t ht => h ⟨i, hi⟩ ⟨j, hj⟩ ⟨t, ht⟩⟩) (fun hn => absurd (by decide +kernel) hn)
    rw [if_pos (by decide +kernel)]
    exact apart_of (by decide +kernel)
  · constructor
    · unfold Spec.nullSel; decide
    · unfold Spec.TableFits; decide +kernel
    · unfold Spec.InTable; decide +kernel
    all_goals decide +kernel
  · constructor
    · unfold Spec.nullSel; decide
    · unfold Spec.TableFits; decide +kernel
    · unfold Spec.InTable; decide +kernel
    · unfold Spec.StackSeg; decide +kernel
    · decide +kernel
end Verif.Seg
