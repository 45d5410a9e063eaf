import Verif.Spec.EmitFpu
import Verif.Props.FpuMachine
import Verif.Props.FpuMem
import Verif.Lemmas.Bits

namespace Verif.EmitFpu
open Verif.Fpu Verif.EmitFpu.Spec Verif.Bits

theorem over_false {s : St} (h : (stackOverflow s).2 = false) : (stackOverflow s).1 = s := by
  unfold stackOverflow at h ⊢; split <;> simp_all
theorem under_false {s : St} {a b : Nat} {p : Bool} (h : (underflowReg s a b p).2 = false) : (underflowReg s a b p).1 = s := by
  unfold underflowReg at h ⊢; split <;> simp_all
theorem underM_false {s : St} {a : Nat} {p : Bool} (h : (underflowMem s a p).2 = false) : (underflowMem s a p).1 = s := by
  unfold underflowMem at h ⊢; split <;> simp_all
theorem patan_false {s : St} (h : (faultFpatan s).2 = false) : (faultFpatan s).1 = s := by
  unfold faultFpatan at h ⊢; split <;> simp_all
theorem sincos_false {s : St} (h : (faultFsincos s).2 = false) : (faultFsincos s).1 = s := by
  unfold faultFsincos at h ⊢; split <;> simp_all
theorem xch_false {s : St} {i : Nat} (h : (faultFxch s i).2 = false) : (faultFxch s i).1 = s := by
  unfold faultFxch at h ⊢; split <;> simp_all
theorem com_false {s : St} {a b : Bool} {n : Nat} (h : (faultFcom s a b n).2 = false) : (faultFcom s a b n).1 = s := by
  unfold faultFcom at h ⊢; split <;> simp_all

theorem fpuPost_congr (c s x f : BitVec 16) (h : x &&& 0x473F#16 = f &&& 0x473F#16) (m : BitVec 16) (hm : m = 0x3F#16 ∨ m = 1#16) :
    Sticky.fpuPost c s x m = Sticky.fpuPost c s f m := by
  unfold Sticky.fpuPost
  have h2 : ~~~c &&& x &&& m = ~~~c &&& f &&& m := by
    rcases hm with rfl | rfl
    · have : ∀ y : BitVec 16, ~~~c &&& y &&& 0x3F#16 = ~~~c &&& (y &&& 0x473F#16) &&& 0x3F#16 := by intro y; bits16
      rw [this x, this f, h]
    · have : ∀ y : BitVec 16, ~~~c &&& y &&& 1#16 = ~~~c &&& (y &&& 0x473F#16) &&& 1#16 := by intro y; bits16
      rw [this x, this f, h]
  dsimp only
  rw [h, h2]

theorem sw_eq (x f : BitVec 16) (t : BitVec 3) :
    (((x &&& 0x7F00#16 &&& 0x3F#16) ||| f) ||| (t.setWidth 16 <<< 11)) &&& 0x473F#16 = f &&& 0x473F#16 := by
  have ht : (t.setWidth 16 <<< 11) &&& 0x473F#16 = 0#16 := by revert t; decide +kernel
  have hx : x &&& 0x7F00#16 &&& 0x3F#16 = 0#16 := by bits16
  rw [hx, BitVec.zero_or, BitVec.and_comm, BitVec.and_or_distrib_left] 
  rw [BitVec.and_comm _ (t.setWidth 16 <<< 11), ht, BitVec.or_zero, BitVec.and_comm]

theorem post_sw (c s x f : BitVec 16) (t : BitVec 3) (m : BitVec 16) (hm : m = 0x3F#16 ∨ m = 1#16) :
    Sticky.fpuPost c s (((x &&& 0x7F00#16 &&& 0x3F#16) ||| f) ||| (t.setWidth 16 <<< 11)) m = Sticky.fpuPost c s f m :=
  fpuPost_congr c s _ f (sw_eq x f t) m hm

theorem reg_eq (s : St) (ht : s.ftop < 8) (n : Nat) : reg s n = (n + s.ftop) % 8 := by
  unfold reg; split
  · rename_i h; subst h; omega
  · rw [Nat.add_comm]

/-- The state in which the host's instructions run. -/
def inCtx (h : H) : H := { h with stk := [], sw := h.sw &&& 0x7F00#16, saved := h.cw, cw := h.frp }

theorem run_setCtx (A : Alu) (k : Code) (h : H) : run A (setCtx k) h = run A k (inCtx h) := rfl

theorem run_seq (A : Alu) (i : HI) (k : Code) (h : H) : run A (.seq i k) h = (exec A h i).bind (run A k) := rfl
theorem run_nil (A : Alu) (h : H) : run A .nil h = some h := rfl
theorem run_check (A : Alu) (f : St → St × Bool) (k : Code) (h : H) :
    run A (.check f k) h = if (f h.g).2 then some { h with g := (f h.g).1 } else run A k { h with g := (f h.g).1 } := rfl

theorem run_post (A : Alu) (m : BitVec 16) (un k : Code) (h : H) (f : BitVec 16) (hm : m = 0x3F#16 ∨ m = 1#16)
    (hs : ∃ x, h.sw = (x &&& 0x7F00#16 &&& 0x3F#16) ||| f) :
    run A (.post m un k) h = if (post h.g f m).2 then run A un { h with g := (post h.g f m).1 } else run A k { h with g := (post h.g f m).1 } := by
  obtain ⟨x, hx⟩ := hs
  have e : Sticky.fpuPost h.g.fctrl h.g.fstatus h.fnstsw m = Sticky.fpuPost h.g.fctrl h.g.fstatus f m := by
    unfold H.fnstsw
    rw [hx]
    exact post_sw _ _ _ _ _ _ hm
  unfold post
  dsimp only
  show (if (Sticky.fpuPost h.g.fctrl h.g.fstatus h.fnstsw m).2 then _ else _) = _
  rw [e]

theorem run_postL (A : Alu) (m : BitVec 16) (un k : Code) (h : H) (f : BitVec 16) (hm : m = 0x3F#16 ∨ m = 1#16)
    (hs : ∃ x, h.sw = (x &&& 0x7F00#16 &&& 0x3F#16) ||| f) :
    run A (.postL m un k) h = if (post h.g f m).2 then run A un { h with r11 := (post h.g f m).1.fstatus, g := (post h.g f m).1 }
      else run A k { h with r11 := (post h.g f m).1.fstatus } := by
  obtain ⟨x, hx⟩ := hs
  have e : Sticky.fpuPost h.g.fctrl h.g.fstatus h.fnstsw m = Sticky.fpuPost h.g.fctrl h.g.fstatus f m := by
    unfold H.fnstsw
    rw [hx]
    exact post_sw _ _ _ _ _ _ hm
  unfold post
  dsimp only
  show (if (Sticky.fpuPost h.g.fctrl h.g.fstatus h.fnstsw m).2 then _ else _) = _
  rw [e]

theorem exec_ldSt (A : Alu) (h : H) (n : Nat) (hl : h.stk.length < 8) (ht : h.g.ftop < 8) :
    exec A h (.ldSt n) = some { h with stk := stn h.g n :: h.stk, top := h.top - 1#3 } := by
  show h.pushH (h.g.fr (reg h.g n)) = _
  unfold H.pushH stn
  rw [if_pos hl]
  rw [reg_eq _ ht, Nat.add_comm]

theorem exec_stSt (A : Alu) (h : H) (n : Nat) (v : BitVec 80) (t : List (BitVec 80)) (hs : h.stk = v :: t) (ht : h.g.ftop < 8) :
    exec A h (.stSt n) = some { h with stk := t, top := h.top + 1#3, g := storeSt h.g n v } := by
  show h.popH.map _ = _
  unfold H.popH
  rw [hs]
  unfold storeSt
  rw [← reg_eq _ ht]
  rfl

theorem exec_st (A : Alu) (h : H) (f : Fmt) (v : BitVec 80) (t : List (BitVec 80)) (hs : h.stk = v :: t) :
    exec A h (.st f) = some { h with stk := t, top := h.top + 1#3, sw := (h.sw &&& 0x3F#16) ||| (A.st f h.cw v).2, loc := (A.st f h.cw v).1 } := by
  show h.popH.map _ = _
  unfold H.popH
  rw [hs]
  rfl

theorem stn_clr (s : St) (m : BitVec 16) (n : Nat) : stn (clr s m) n = stn s n := rfl

theorem clr_top (s : St) (m : BitVec 16) : (clr s m).ftop = s.ftop := rfl

theorem run_leave (A : Alu) (h : H) : run A leave h = some { h with cw := h.saved } := rfl

theorem run_drop (A : Alu) (k : Code) (h : H) (v : BitVec 80) (t : List (BitVec 80)) (hs : h.stk = v :: t) :
    run A (drop k) h = run A k { h with stk := t, top := h.top + 1#3, sw := (h.sw &&& 0x3F#16) ||| (A.st .r80 h.cw v).2, loc := (A.st .r80 h.cw v).1 } := by
  unfold drop
  rw [run_seq, exec_st A h .r80 v t hs]
  rfl

/-- What is to be shown of an instruction. -/
def Does (A : Alu) (c : Code) (h : H) (g : St) : Prop :=
  ∃ h', run A c h = some h' ∧ HostKept h h' ∧ h'.frp = h.frp ∧ h'.g = g

theorem run_popIf (A : Alu) (b : Bool) (h : H) : run A (if b then popg .nil else .nil) h = some { h with g := if b then popInstr h.g else h.g } := by
  cases b <;> rfl

theorem run_arith (A : Alu) (h : H) (o : Bin) (d j : Nat) (toI pop : Bool) (i : Nat) (hd : d = if toI then i else 0) (hr : Ready h) :
    Does A (.seq (.clr 0x200#16) (.check (underflowReg · i 0 false) (.check (underflowReg · 0 0 false) (setCtx
    (.seq (.ldSt j) (.seq (.ldSt d) (.seq (.bin o) (.post 0x3F#16 (drop (drop leave))
      (.seq (.stSt d) (drop (.seq .restore (.seq (.tag true d) (if pop then popg .nil else .nil)))))))))))))
      h (arithReg h.g i toI pop (A.bin o h.frp (stn h.g d) (stn h.g j)).1 (A.bin o h.frp (stn h.g d) (stn h.g j)).2) := by
  unfold Does arithReg
  rw [← hd]
  simp only [run_seq, run_check, exec, Option.bind_some]
  cases h1 : (underflowReg (clr h.g 0x200#16) i 0 false).2 with
  | true => exact ⟨_, rfl, ⟨rfl, hr.stk⟩, rfl, rfl⟩
  | false =>
    simp only [Bool.false_eq_true, if_false, under_false h1]
    cases h2 : (underflowReg (clr h.g 0x200#16) 0 0 false).2 with
    | true => exact ⟨_, rfl, ⟨rfl, hr.stk⟩, rfl, rfl⟩
    | false =>
      simp only [Bool.false_eq_true, if_false, under_false h2, run_setCtx]
      rw [run_seq, exec_ldSt A _ _ (by simp [inCtx]) (by exact hr.top), Option.bind_some, run_seq, exec_ldSt A _ _ (by simp [inCtx]) (by exact hr.top), Option.bind_some, run_seq]
      simp only [exec, Option.bind_some, inCtx, H.flags, stn_clr]
      rw [run_post A _ _ _ _ _ (Or.inl rfl) ⟨h.sw, rfl⟩]
      dsimp only
      split
      · rw [run_drop A _ _ _ _ rfl, run_drop A _ _ _ _ rfl, run_leave]
        exact ⟨_, rfl, ⟨rfl, rfl⟩, rfl, rfl⟩
      · rw [run_seq, exec_stSt A _ _ _ _ rfl (by exact hr.top), Option.bind_some, run_drop A _ _ _ _ rfl]
        simp only [run_seq, exec, Option.bind_some, run_popIf]
        exact ⟨_, rfl, ⟨rfl, rfl⟩, rfl, rfl⟩

theorem push_ok (h : H) (v : BitVec 80) (hl : h.stk.length < 8) : h.pushH v = some { h with stk := v :: h.stk, top := h.top - 1#3 } := if_pos hl

theorem push_top (s : St) : (push s).ftop < 8 := Nat.mod_lt _ (by decide)

theorem run_const (A : Alu) (h : H) (k : Fin 7) (hr : Ready h) : Does A (emitConst k) h (ldConst h.g (A.const k h.frp)) := by
  unfold Does emitConst ldConst
  simp only [run_seq, run_check, exec, Option.bind_some]
  cases h1 : (stackOverflow (clr h.g 0x200#16)).2 with
  | true => exact ⟨_, rfl, ⟨rfl, hr.stk⟩, rfl, rfl⟩
  | false =>
    simp only [Bool.false_eq_true, if_false, over_false h1, run_setCtx]
    rw [run_seq]
    simp only [exec]
    rw [push_ok _ _ (by simp [inCtx]), Option.bind_some, run_seq]
    simp only [exec, Option.bind_some]
    rw [run_seq, exec_stSt A _ _ _ _ rfl (by exact push_top _)]
    exact ⟨_, rfl, ⟨rfl, rfl⟩, rfl, rfl⟩

theorem run_fldReg (A : Alu) (h : H) (i : Nat) (hr : Ready h) : Does A (emitFldReg i) h (ldReg h.g i) := by
  unfold Does emitFldReg ldReg
  simp only [run_seq, run_check, exec, Option.bind_some]
  cases h1 : (stackOverflow (clr h.g 0x200#16)).2 with
  | true => exact ⟨_, rfl, ⟨rfl, hr.stk⟩, rfl, rfl⟩
  | false =>
    simp only [Bool.false_eq_true, if_false, over_false h1]
    cases h2 : (underflowReg (clr h.g 0x200#16) i 0 false).2 with
    | true => exact ⟨_, rfl, ⟨rfl, hr.stk⟩, rfl, rfl⟩
    | false =>
      simp only [Bool.false_eq_true, if_false, under_false h2, run_setCtx]
      rw [run_seq, exec_ldSt A _ _ (by simp [inCtx]) (by exact hr.top), Option.bind_some, run_seq]
      simp only [exec, Option.bind_some]
      rw [run_seq, exec_stSt A _ _ _ _ rfl (by exact push_top _)]
      refine ⟨_, rfl, ⟨rfl, rfl⟩, rfl, ?_⟩
      unfold pushVal loadSt
      rw [Nat.add_comm i]
      rfl

theorem run_fldMem (A : Alu) (h : H) (f : Fmt) (hr : Ready h) : Does A (emitFldMem f) h
    (if f.isInt then ldConst h.g (A.ld f h.frp h.mem).1 else ldMem h.g (A.ld f h.frp h.mem).1 (A.ld f h.frp h.mem).2) := by
  unfold Does emitFldMem ldConst ldMem
  simp only [run_seq, run_check, exec, Option.bind_some]
  cases h1 : (stackOverflow (clr h.g 0x200#16)).2 with
  | true => exact ⟨_, rfl, ⟨rfl, hr.stk⟩, rfl, by simp only [if_true, ite_self]⟩
  | false =>
    simp only [Bool.false_eq_true, if_false, over_false h1, run_setCtx]
    rw [run_seq]
    simp only [exec]
    rw [push_ok _ _ (by simp [inCtx]), Option.map_some, Option.bind_some]
    simp only [H.flags, inCtx]
    by_cases hf : f.isInt = true
    · rw [if_pos hf, if_pos hf, run_seq]
      simp only [exec, Option.bind_some]
      rw [run_seq, exec_stSt A _ _ _ _ rfl (by exact push_top _)]
      exact ⟨_, rfl, ⟨rfl, rfl⟩, rfl, rfl⟩
    · rw [if_neg hf, if_neg hf, run_post A _ _ _ _ _ (Or.inr rfl) ⟨h.sw, rfl⟩]
      dsimp only
      split
      · rw [run_seq, exec_st A _ _ _ _ rfl, Option.bind_some, run_leave]
        exact ⟨_, rfl, ⟨rfl, rfl⟩, rfl, rfl⟩
      · rw [run_seq]
        simp only [exec, Option.bind_some]
        rw [run_seq, exec_stSt A _ _ _ _ rfl (by exact push_top _)]
        exact ⟨_, rfl, ⟨rfl, rfl⟩, rfl, rfl⟩

theorem run_fstReg (A : Alu) (h : H) (i : Nat) (pop : Bool) (hr : Ready h) : Does A (emitFstReg i pop) h (stReg h.g i pop) := by
  unfold Does emitFstReg stReg
  simp only [run_seq, run_check, exec, Option.bind_some]
  cases h1 : (underflowReg (clr h.g 0x200#16) 0 i pop).2 with
  | true => exact ⟨_, rfl, ⟨rfl, hr.stk⟩, rfl, rfl⟩
  | false =>
    simp only [Bool.false_eq_true, if_false, under_false h1]
    by_cases hi : i = 0
    · rw [if_pos hi, if_pos hi, run_popIf]
      exact ⟨_, rfl, ⟨rfl, hr.stk⟩, rfl, rfl⟩
    · rw [if_neg hi, if_neg hi, run_setCtx, run_seq, exec_ldSt A _ _ (by simp [inCtx]) (by exact hr.top), Option.bind_some, run_seq, exec_stSt A _ _ _ _ rfl (by exact hr.top), Option.bind_some]
      simp only [run_seq, exec, Option.bind_some, run_popIf]
      refine ⟨_, rfl, ⟨rfl, rfl⟩, rfl, ?_⟩
      unfold loadSt
      rw [Nat.add_comm 0]
      rfl

theorem run_arithMem (A : Alu) (h : H) (o : Bin) (f : Fmt) (hr : Ready h) : Does A (emitArithMem o f) h
    (arithSt0 h.g (A.binM o f h.frp (stn h.g 0) h.mem).1 (A.binM o f h.frp (stn h.g 0) h.mem).2 false) := by
  unfold Does emitArithMem arithSt0
  simp only [run_seq, run_check, exec, Option.bind_some, Bool.false_eq_true, if_false, false_and]
  cases h1 : (underflowReg (clr h.g 0x200#16) 0 0 false).2 with
  | true => exact ⟨_, rfl, ⟨rfl, hr.stk⟩, rfl, rfl⟩
  | false =>
    simp only [Bool.false_eq_true, if_false, under_false h1, run_setCtx]
    rw [run_seq, exec_ldSt A _ _ (by simp [inCtx]) (by exact hr.top), Option.bind_some, run_seq]
    simp only [exec, Option.bind_some, inCtx, H.flags, stn_clr]
    rw [run_post A _ _ _ _ _ (Or.inl rfl) ⟨h.sw, rfl⟩]
    dsimp only
    split
    · rw [run_drop A _ _ _ _ rfl, run_leave]
      exact ⟨_, rfl, ⟨rfl, rfl⟩, rfl, rfl⟩
    · rw [run_seq, exec_stSt A _ _ _ _ rfl (by exact hr.top)]
      exact ⟨_, rfl, ⟨rfl, rfl⟩, rfl, rfl⟩

theorem run_chs (A : Alu) (h : H) (hr : Ready h) : Does A emitChs h (fchs h.g (A.chs (stn h.g 0))) := by
  unfold Does emitChs fchs
  simp only [run_check]
  cases h1 : (underflowReg h.g 0 0 false).2 with
  | true => exact ⟨_, rfl, ⟨rfl, hr.stk⟩, rfl, rfl⟩
  | false =>
    simp only [Bool.false_eq_true, if_false, under_false h1]
    rw [run_seq]
    simp only [exec, Option.bind_some, run_setCtx]
    rw [run_seq, exec_ldSt A _ _ (by simp [inCtx]) (by exact hr.top), Option.bind_some, run_seq]
    simp only [exec, Option.bind_some, inCtx, stn_clr]
    rw [run_seq, exec_stSt A _ _ _ _ rfl (by exact hr.top)]
    exact ⟨_, rfl, ⟨rfl, rfl⟩, rfl, rfl⟩

theorem run_popgs (A : Alu) : ∀ (n : Nat) (h : H), run A (popgs n) h = some { h with g := popInstrN n h.g }
  | 0, _ => rfl
  | n + 1, h => run_popgs A n { h with g := popInstr h.g }

theorem run_comEnd (A : Alu) (pops : Nat) (h : H) (f : BitVec 16) (hs : ∃ x, h.sw = (x &&& 0x7F00#16 &&& 0x3F#16) ||| f) :
    run A (comEnd pops) h = some { h with cw := h.saved, g := if (post h.g f 0x3F#16).2 then (post h.g f 0x3F#16).1 else popInstrN pops (post h.g f 0x3F#16).1 } := by
  unfold comEnd
  rw [run_post A _ _ _ _ f (Or.inl rfl) hs]
  split
  · rfl
  · rw [run_seq]
    simp only [exec, Option.bind_some]
    rw [run_popgs]

theorem fcom_some (s : St) (i pops : Nat) (f : BitVec 16) : fcom s (some i) pops f =
    if (faultFcom (clr s 0x200#16) (isEmpty (clr s 0x200#16) 0) (isEmpty (clr s 0x200#16) i) pops).2 then (faultFcom (clr s 0x200#16) (isEmpty (clr s 0x200#16) 0) (isEmpty (clr s 0x200#16) i) pops).1
    else if (post (faultFcom (clr s 0x200#16) (isEmpty (clr s 0x200#16) 0) (isEmpty (clr s 0x200#16) i) pops).1 f 0x3F#16).2 then (post (faultFcom (clr s 0x200#16) (isEmpty (clr s 0x200#16) 0) (isEmpty (clr s 0x200#16) i) pops).1 f 0x3F#16).1
    else popInstrN pops (post (faultFcom (clr s 0x200#16) (isEmpty (clr s 0x200#16) 0) (isEmpty (clr s 0x200#16) i) pops).1 f 0x3F#16).1 := rfl

theorem fcom_none (s : St) (pops : Nat) (f : BitVec 16) : fcom s none pops f =
    if (faultFcom (clr s 0x200#16) (isEmpty (clr s 0x200#16) 0) false pops).2 then (faultFcom (clr s 0x200#16) (isEmpty (clr s 0x200#16) 0) false pops).1
    else if (post (faultFcom (clr s 0x200#16) (isEmpty (clr s 0x200#16) 0) false pops).1 f 0x3F#16).2 then (post (faultFcom (clr s 0x200#16) (isEmpty (clr s 0x200#16) 0) false pops).1 f 0x3F#16).1
    else popInstrN pops (post (faultFcom (clr s 0x200#16) (isEmpty (clr s 0x200#16) 0) false pops).1 f 0x3F#16).1 := rfl

theorem run_comReg (A : Alu) (h : H) (i pops : Nat) (hr : Ready h) : Does A (emitComReg i pops) h
    (fcom h.g (some i) pops (A.com h.frp (stn h.g 0) (stn h.g i))) := by
  unfold Does emitComReg
  rw [fcom_some]
  simp only [run_seq, run_check, exec, Option.bind_some]
  by_cases h1 : (faultFcom (clr h.g 0x200#16) (isEmpty (clr h.g 0x200#16) 0) (isEmpty (clr h.g 0x200#16) i) pops).2 = true
  · rw [if_pos h1, if_pos h1]
    exact ⟨_, rfl, ⟨rfl, hr.stk⟩, rfl, rfl⟩
  · rw [if_neg h1, if_neg h1, com_false (Bool.eq_false_iff.2 h1), run_setCtx]
    rw [run_seq, exec_ldSt A _ _ (by simp [inCtx]) (by exact hr.top), Option.bind_some, run_seq, exec_ldSt A _ _ (by simp [inCtx]) (by exact hr.top), Option.bind_some, run_seq]
    simp only [exec, Option.bind_some, inCtx, H.flags, stn_clr]
    rw [run_comEnd A _ _ _ ⟨h.sw, rfl⟩]
    exact ⟨_, rfl, ⟨rfl, rfl⟩, rfl, rfl⟩

theorem run_comMem (A : Alu) (h : H) (f : Fmt) (pops : Nat) (hr : Ready h) : Does A (emitComMem f pops) h
    (fcom h.g none pops (A.comM f h.frp (stn h.g 0) h.mem)) := by
  unfold Does emitComMem
  rw [fcom_none]
  simp only [run_seq, run_check, exec, Option.bind_some]
  by_cases h1 : (faultFcom (clr h.g 0x200#16) (isEmpty (clr h.g 0x200#16) 0) false pops).2 = true
  · rw [if_pos h1, if_pos h1]
    exact ⟨_, rfl, ⟨rfl, hr.stk⟩, rfl, rfl⟩
  · rw [if_neg h1, if_neg h1, com_false (Bool.eq_false_iff.2 h1), run_setCtx]
    rw [run_seq, exec_ldSt A _ _ (by simp [inCtx]) (by exact hr.top), Option.bind_some, run_seq]
    simp only [exec, Option.bind_some, inCtx, H.flags, stn_clr]
    rw [run_comEnd A _ _ _ ⟨h.sw, rfl⟩]
    exact ⟨_, rfl, ⟨rfl, rfl⟩, rfl, rfl⟩

theorem run_patan (A : Alu) (h : H) (hr : Ready h) : Does A emitPatan h
    (fpatan h.g (A.patan h.frp (stn h.g 0) (stn h.g 1)).1 (A.patan h.frp (stn h.g 0) (stn h.g 1)).2) := by
  unfold Does emitPatan fpatan
  simp only [run_seq, run_check, exec, Option.bind_some]
  cases h1 : (faultFpatan (clr h.g 0x200#16)).2 with
  | true => exact ⟨_, rfl, ⟨rfl, hr.stk⟩, rfl, rfl⟩
  | false =>
    simp only [Bool.false_eq_true, if_false, patan_false h1, run_setCtx]
    rw [run_seq, exec_ldSt A _ _ (by simp [inCtx]) (by exact hr.top), Option.bind_some, run_seq, exec_ldSt A _ _ (by simp [inCtx]) (by exact hr.top), Option.bind_some, run_seq]
    simp only [exec, Option.bind_some, inCtx, H.flags, stn_clr]
    rw [run_post A _ _ _ _ _ (Or.inl rfl) ⟨h.sw, rfl⟩]
    dsimp only
    split
    · rw [run_drop A _ _ _ _ rfl, run_leave]
      exact ⟨_, rfl, ⟨rfl, rfl⟩, rfl, rfl⟩
    · rw [run_seq, exec_stSt A _ _ _ _ rfl (by exact hr.top)]
      exact ⟨_, rfl, ⟨rfl, rfl⟩, rfl, rfl⟩

theorem run_xch (A : Alu) (h : H) (i : Nat) (hr : Ready h) : Does A (emitXch i) h (fxch h.g i) := by
  unfold Does emitXch fxch
  simp only [run_seq, run_check, exec, Option.bind_some]
  cases h1 : (faultFxch (clr h.g 0x200#16) i).2 with
  | true => exact ⟨_, rfl, ⟨rfl, hr.stk⟩, rfl, rfl⟩
  | false =>
    simp only [Bool.false_eq_true, if_false, xch_false h1, run_setCtx]
    rw [run_seq, exec_ldSt A _ _ (by simp [inCtx]) (by exact hr.top), Option.bind_some, run_seq, exec_ldSt A _ _ (by simp [inCtx]) (by exact hr.top), Option.bind_some,
      run_seq, exec_stSt A _ _ _ _ rfl (by exact hr.top), Option.bind_some, run_seq, exec_stSt A _ _ _ _ rfl (by exact hr.top)]
    refine ⟨_, rfl, ⟨rfl, rfl⟩, rfl, ?_⟩
    unfold loadSt
    rw [Nat.add_comm 0, Nat.add_comm i]
    rfl

theorem bit10 (f : BitVec 16) : f &&& 0x400#16 ≠ 0#16 ↔ f.getLsbD 10 = true := by
  constructor
  · intro h
    refine Classical.byContradiction fun hn => h ?_
    rw [Bool.not_eq_true] at hn
    apply BitVec.eq_of_getLsbD_eq
    intro i hi
    rw [BitVec.getLsbD_and, BitVec.getLsbD_zero]
    by_cases h10 : i = 10
    · subst h10; rw [hn]; rfl
    · have : (0x400#16).getLsbD i = false := by
        have : ∀ j : Fin 16, j.val ≠ 10 → (0x400#16).getLsbD j.val = false := by decide
        exact this ⟨i, hi⟩ h10
      rw [this, Bool.and_false]
  · intro h h0
    have := congrArg (fun x : BitVec 16 => x.getLsbD 10) h0
    rw [BitVec.getLsbD_and, h] at this
    cases this

/-- C2 after the check is the host's. -/
theorem post_c2 (s : St) (f : BitVec 16) : (post s f 0x3F#16).1.fstatus.getLsbD 10 = f.getLsbD 10 := by
  unfold post Sticky.fpuPost
  dsimp only
  split <;> simp

theorem clr_clr (s : St) : clr (clr s 0x200#16) 0x400#16 = clr s 0x600#16 := by
  unfold clr
  dsimp only
  have : s.fstatus &&& ~~~0x200#16 &&& ~~~0x400#16 = s.fstatus &&& ~~~0x600#16 := by
    rw [BitVec.and_assoc]; rfl
  rw [this]

theorem run_un (A : Alu) (h : H) (u : Un) (hr : Ready h) (hf : u ≠ .sqrt → (A.un u h.frp (stn h.g 0)).2.getLsbD 10 = false) : Does A (emitUn u) h
    (arithSt0 h.g (A.un u h.frp (stn h.g 0)).1 (A.un u h.frp (stn h.g 0)).2 (u != .sqrt)) := by
  have key : ∀ (m : BitVec 16) (e : Code) (tr : Bool), (tr = true → (A.un u h.frp (stn h.g 0)).2.getLsbD 10 = false) →
      (∀ x : H, x.g.fstatus.getLsbD 10 = false ∨ tr = false → run A e x = run A (.seq (.stSt 0) (.seq .restore (.seq (.tag true 0) .nil))) x) →
      Does A (.check (underflowReg · 0 0 false) (setCtx (.seq (.ldSt 0) (.seq (.un u) (.post 0x3F#16 (drop leave) e))))) { h with g := clr h.g m }
        (let v := underflowReg (clr h.g m) 0 0 false
         if v.2 then v.1 else
          let p := post v.1 (A.un u h.frp (stn h.g 0)).2 0x3F#16
          if p.2 then p.1 else
            if tr ∧ p.1.fstatus &&& 0x400#16 ≠ 0#16 then p.1
            else updateTag (storeSt p.1 0 (A.un u h.frp (stn h.g 0)).1) true 0) := by
    intro m e tr ht he
    unfold Does
    simp only [run_check]
    cases h1 : (underflowReg (clr h.g m) 0 0 false).2 with
    | true => exact ⟨_, rfl, ⟨rfl, hr.stk⟩, rfl, rfl⟩
    | false =>
      simp only [Bool.false_eq_true, if_false, under_false h1, run_setCtx]
      rw [run_seq, exec_ldSt A _ _ (by simp [inCtx]) (by exact hr.top), Option.bind_some, run_seq]
      simp only [exec, Option.bind_some, inCtx, H.flags, stn_clr]
      rw [run_post A _ _ _ _ _ (Or.inl rfl) ⟨h.sw, rfl⟩]
      dsimp only
      split
      · rw [run_drop A _ _ _ _ rfl, run_leave]
        exact ⟨_, rfl, ⟨rfl, rfl⟩, rfl, rfl⟩
      · have hc : tr = true → (post (clr h.g m) (A.un u h.frp (stn h.g 0)).2 0x3F#16).1.fstatus.getLsbD 10 = false := by
          intro h; rw [post_c2]; exact ht h
        rw [if_neg (show ¬ (tr = true ∧ _) from fun hx => by
          have h1 := (bit10 _).1 hx.2
          rw [hc hx.1] at h1
          cases h1)]
        rw [he _ (by cases htr : tr with
          | false => exact Or.inr rfl
          | true => exact Or.inl (hc htr))]
        rw [run_seq, exec_stSt A _ _ _ _ rfl (by exact hr.top)]
        exact ⟨_, rfl, ⟨rfl, rfl⟩, rfl, rfl⟩
  unfold Does emitUn arithSt0
  rw [run_seq]
  simp only [exec, Option.bind_some]
  by_cases hu : u = .sqrt
  · rw [if_pos hu, if_pos hu]
    have hb : (u != Un.sqrt) = false := by rw [hu]; rfl
    rw [hb]
    exact key 0x200#16 _ false (fun h => by cases h) (fun _ _ => rfl)
  · rw [if_neg hu, if_neg hu, run_seq]
    simp only [exec, Option.bind_some, clr_clr]
    have hb : (u != Un.sqrt) = true := by rw [bne_iff_ne]; exact hu
    rw [hb]
    refine key 0x600#16 _ true (fun _ => hf hu) (fun x hx => ?_)
    have hx' : x.g.fstatus.getLsbD 10 = false := hx.elim id (fun h => by cases h)
    show (if x.g.fstatus &&& 0x400#16 ≠ 0#16 then _ else _) = _
    rw [if_neg (fun h => by have := (bit10 _).1 h; rw [hx'] at this; cases this)]

theorem exec_sincos (A : Alu) (h : H) (a : BitVec 80) (hs : h.stk = [a]) (hf : ¬ (A.sincos h.cw a).2.2 &&& 0x400#16 ≠ 0#16) :
    exec A h .sincos = some { h with sw := (h.sw &&& 0x3F#16) ||| (A.sincos h.cw a).2.2, stk := [(A.sincos h.cw a).2.1, (A.sincos h.cw a).1], top := h.top - 1#3 } := by
  unfold exec
  rw [hs]
  dsimp only
  rw [if_neg hf, push_ok _ _ (by simp)]
  rfl

theorem exec_sincos_far (A : Alu) (h : H) (a : BitVec 80) (hs : h.stk = [a]) (hf : (A.sincos h.cw a).2.2 &&& 0x400#16 ≠ 0#16) :
    exec A h .sincos = some { h with sw := (h.sw &&& 0x3F#16) ||| (A.sincos h.cw a).2.2 } := by
  unfold exec
  rw [hs]
  dsimp only
  rw [if_pos hf]
  unfold H.flags
  rw [hs]

theorem run_sincos (A : Alu) (h : H) (hr : Ready h) (hf : (A.sincos h.frp (stn h.g 0)).2.2.getLsbD 10 = false) : Does A emitSincos h
    (fsincos h.g (A.sincos h.frp (stn h.g 0)).1 (A.sincos h.frp (stn h.g 0)).2.1 (A.sincos h.frp (stn h.g 0)).2.2) := by
  have hc : ∀ f : BitVec 16, f.getLsbD 10 = false → ¬ f &&& 0x400#16 ≠ 0#16 := fun f h hn => by
    have := (bit10 _).1 hn; rw [h] at this; cases this
  unfold Does emitSincos fsincos
  simp only [run_seq, run_check, exec, Option.bind_some, clr_clr]
  cases h1 : (faultFsincos (clr h.g 0x600#16)).2 with
  | true => exact ⟨_, rfl, ⟨rfl, hr.stk⟩, rfl, rfl⟩
  | false =>
    simp only [Bool.false_eq_true, if_false, sincos_false h1, run_setCtx]
    rw [run_seq, exec_ldSt A _ _ (by simp [inCtx]) (by exact hr.top), Option.bind_some, run_seq, exec_sincos A _ (stn h.g 0) rfl (by exact hc _ hf), Option.bind_some]
    simp only [inCtx]
    rw [run_post A _ _ _ _ (A.sincos h.frp (stn h.g 0)).2.2 (Or.inl rfl) ⟨h.sw, rfl⟩]
    dsimp only
    split
    · rw [run_drop A _ _ _ _ rfl, run_drop A _ _ _ _ rfl, run_leave]
      exact ⟨_, rfl, ⟨rfl, rfl⟩, rfl, rfl⟩
    · have hp := hc _ ((post_c2 (clr h.g 0x600#16) _).trans hf)
      rw [if_neg hp]
      show ∃ h', (if (post (clr h.g 0x600#16) (A.sincos h.frp (stn h.g 0)).2.2 0x3F#16).1.fstatus &&& 0x400#16 ≠ 0#16 then _ else _) = some h' ∧ _
      rw [if_neg hp, run_seq]
      simp only [exec, Option.bind_some]
      rw [run_seq, exec_stSt A _ _ _ _ rfl (by exact hr.top), Option.bind_some, run_seq]
      simp only [exec, Option.bind_some]
      rw [run_seq, exec_stSt A _ _ _ _ rfl (by exact push_top _)]
      exact ⟨_, rfl, ⟨rfl, rfl⟩, rfl, rfl⟩

/-- FST and its like, with what they store. -/
theorem run_fstMem (A : Alu) (h : H) (f : Fmt) (pop : Bool) (hr : Ready h) :
    ∃ h', run A (emitFstMem f pop) h = some h' ∧ HostKept h h' ∧ h'.frp = h.frp ∧ h'.g = stMem h.g (A.st f h.frp (stn h.g 0)).2 pop ∧
      h'.out = if (underflowMem (clr h.g 0x200#16) 0 pop).2 || (post (clr h.g 0x200#16) (A.st f h.frp (stn h.g 0)).2 0x3F#16).2 then h.out
        else some (A.st f h.frp (stn h.g 0)).1 := by
  unfold emitFstMem stMem
  simp only [run_seq, run_check, exec, Option.bind_some]
  cases h1 : (underflowMem (clr h.g 0x200#16) 0 pop).2 with
  | true => exact ⟨_, rfl, ⟨rfl, hr.stk⟩, rfl, rfl, rfl⟩
  | false =>
    simp only [Bool.false_eq_true, if_false, underM_false h1, run_setCtx, Bool.false_or]
    by_cases hp : (post (clr h.g 0x200#16) (A.st f h.frp (stn h.g 0)).2 0x3F#16).2 = true
    · rw [if_pos hp, if_pos hp, run_seq, exec_ldSt A _ _ (by simp [inCtx]) (by exact hr.top), Option.bind_some, run_seq, exec_st A _ _ _ _ rfl, Option.bind_some,
        run_postL A _ _ _ _ (A.st f h.frp (stn h.g 0)).2 (Or.inl rfl) ⟨h.sw, rfl⟩]
      split
      · rw [run_leave]
        exact ⟨_, rfl, ⟨rfl, rfl⟩, rfl, rfl, rfl⟩
      · rename_i hx; exact absurd hp hx
    · rw [if_neg hp, if_neg hp, run_seq, exec_ldSt A _ _ (by simp [inCtx]) (by exact hr.top), Option.bind_some, run_seq, exec_st A _ _ _ _ rfl, Option.bind_some,
        run_postL A _ _ _ _ (A.st f h.frp (stn h.g 0)).2 (Or.inl rfl) ⟨h.sw, rfl⟩]
      split
      · rename_i hx; exact absurd hx hp
      · simp only [run_seq, exec, Option.bind_some, run_popIf]
        exact ⟨_, rfl, ⟨rfl, rfl⟩, rfl, rfl, rfl⟩

theorem Does.body {A : Alu} {i : Ins} {c : Code} {h : H} {op : Op} {g : St} (hr : Ready h) (hi : emit i = .check pending c)
    (hs : step h.g op = if h.g.fstatus &&& 0x80#16 != 0#16 then h.g else g) (hd : Does A c h g) : Does A (emit i) h (step h.g op) := by
  unfold Does at hd ⊢
  rw [hi, hs, run_check]
  unfold pending
  dsimp only
  split
  · exact ⟨_, rfl, ⟨rfl, hr.stk⟩, rfl, rfl⟩
  · exact hd

/-- C111: the emitted code of every x87 instruction does what the instruction means: the host's instruction of the same name on the
guest's operands in the guest's order, with the guest's rounding and precision control; afterwards the host's control word and
registers are as before, whatever exceptions there were.  What is missing is the operand out of range of FSIN, FCOS and FSINCOS. -/
theorem C111_code_partial (A : Alu) (h : H) (i : Ins) (hr : Ready h) (hi : Coded i) (hf : ¬ Far A h.g i) :
    ∃ h', run A (emit i) h = some h' ∧ HostKept h h' ∧ h'.frp = h.frp ∧ h'.g = step h.g (means A h.g h.mem i) := by
  have hc : h.frp = cwOf h.g := hr.frp
  show Does A (emit i) h _
  cases i with
  | const k => exact Does.body hr rfl rfl (by have t := run_const A h k hr; rw [hc] at t; exact t)
  | fldReg i => exact Does.body hr rfl rfl (run_fldReg A h i hr)
  | fldMem f =>
    have := run_fldMem A h f hr
    rw [hc] at this
    unfold means
    dsimp only
    split
    · rename_i hx; rw [if_pos hx] at this; exact Does.body hr rfl rfl this
    · rename_i hx; rw [if_neg hx] at this; exact Does.body hr rfl rfl this
  | fstReg i p => exact Does.body hr rfl rfl (run_fstReg A h i p hr)
  | fstMem f p =>
    obtain ⟨h', a, b, c, d, -⟩ := run_fstMem A h f p hr
    rw [hc] at d
    exact Does.body hr rfl rfl ⟨h', a, b, c, d⟩
  | arith o form i =>
    cases form with
    | d8 => exact Does.body hr rfl rfl (by have t := run_arith A h o 0 i false false i rfl hr; rw [hc] at t; exact t)
    | dc => exact Does.body hr rfl rfl (by have t := run_arith A h o i 0 true false i rfl hr; rw [hc] at t; exact t)
    | de => exact Does.body hr rfl rfl (by have t := run_arith A h o i 0 true true i rfl hr; rw [hc] at t; exact t)
  | arithMem o f => exact Does.body hr rfl rfl (by have t := run_arithMem A h o f hr; rw [hc] at t; exact t)
  | un u =>
    cases u with
    | sqrt => exact Does.body hr rfl rfl (by have t := run_un A h .sqrt hr (fun h => absurd rfl h); rw [hc] at t; exact t)
    | sin => exact Does.body hr rfl rfl (by have t := run_un A h .sin hr (fun _ => by rw [hc]; exact Bool.eq_false_iff.2 hf); rw [hc] at t; exact t)
    | cos => exact Does.body hr rfl rfl (by have t := run_un A h .cos hr (fun _ => by rw [hc]; exact Bool.eq_false_iff.2 hf); rw [hc] at t; exact t)
  | chs => exact Does.body hr rfl rfl (run_chs A h hr)
  | comReg i p => exact Does.body hr rfl rfl (by have t := run_comReg A h i p hr; rw [hc] at t; exact t)
  | comMem f p => exact Does.body hr rfl rfl (by have t := run_comMem A h f p hr; rw [hc] at t; exact t)
  | patan => exact Does.body hr rfl rfl (by have t := run_patan A h hr; rw [hc] at t; exact t)
  | sincos => exact Does.body hr rfl rfl (by have t := run_sincos A h hr (by rw [hc]; exact Bool.eq_false_iff.2 hf); rw [hc] at t; exact t)
  | xch i => exact Does.body hr rfl rfl (run_xch A h i hr)

theorem pend_false {s : St} (hp : NoPending s) : (s.fstatus &&& 0x80#16 != 0#16) = false := by
  unfold NoPending at hp
  rw [hp]
  rfl

/-- C111 in terms of the registers the program sees: with its operands present, room for its result and no unmasked exception, an
instruction changes the stack of registers as the manual says, with the values the host's FPU computes. -/
theorem C111_result_partial (A : Alu) (h : H) (i : Ins) (hr : Ready h) (hw : Fpu.Wf h.g) (hi : Coded i) (hf : ¬ Far A h.g i) (hp : NoPending h.g)
    (hneed : ∀ j ∈ Fpu.Spec.needs (means A h.g h.mem i), view h.g j ≠ none) (hgrow : Fpu.Spec.grows (means A h.g h.mem i) = true → view h.g 7 = none)
    (hm : ~~~h.g.fctrl &&& Fpu.Spec.raised (means A h.g h.mem i) = 0#16) :
    ∃ h', run A (emit i) h = some h' ∧ HostKept h h' ∧ view h'.g = Fpu.Spec.effect (means A h.g h.mem i) (view h.g) := by
  obtain ⟨h', a, b, -, d⟩ := C111_code_partial A h i hr hi hf
  refine ⟨h', a, b, ?_⟩
  rw [d]
  refine C77_stack_machine h.g _ hw hp ?_ hneed hgrow hm
  cases i with
  | fldMem f => unfold means; dsimp only; split <;> trivial
  | arith o form i => cases form <;> exact hi
  | un u => cases u <;> trivial
  | fldReg i => exact hi
  | fstReg i _ => exact hi
  | comReg i _ => exact hi
  | xch i => exact hi
  | _ => trivial

/-- C111: FST and FIST store the host's conversion of ST(0), under the guest's rounding, unless an unmasked exception prevents it. -/
theorem C111_store (A : Alu) (h : H) (f : Fmt) (pop : Bool) (hr : Ready h) (hp : NoPending h.g) (h0 : FpuMem.HasSt0 h.g) (ho : h.out = none) :
    ∃ h', run A (emit (.fstMem f pop)) h = some h' ∧
      (¬ FpuMem.Unmasked h.g (A.st f (cwOf h.g) (stn h.g 0)).2 → h'.out = some (A.st f (cwOf h.g) (stn h.g 0)).1) ∧
      (FpuMem.Unmasked h.g (A.st f (cwOf h.g) (stn h.g 0)).2 → h'.out = none) := by
  obtain ⟨h', a, -, -, -, e⟩ := run_fstMem A h f pop hr
  have hu : (underflowMem (clr h.g 0x200#16) 0 pop).2 = false := by
    unfold underflowMem
    rw [if_neg (show ¬ isEmpty (clr h.g 0x200#16) 0 = true from fun hx => (FpuMem.empty_iff h.g).1 hx h0)]
  refine ⟨h', ?_, ?_, ?_⟩
  · unfold emit
    rw [run_check]
    unfold pending
    dsimp only
    rw [pend_false hp]
    exact a
  · intro hn
    rw [hu, Bool.false_or, hr.frp, if_neg (fun hx => hn ((FpuMem.post_iff (clr h.g 0x200#16) _).1 hx))] at e
    exact e
  · intro hn
    rw [hu, Bool.false_or, hr.frp, if_pos ((FpuMem.post_iff (clr h.g 0x200#16) _).2 hn)] at e
    rw [e, ho]

/-- C111: whatever the guest does to its control words, the host runs with the guest's rounding and precision control (and flush to zero)
and all exceptions masked. -/
theorem C111_control (c : Cws) (hist : List CwOp) :
    let d := hist.foldl Cws.step (c.step .reset)
    (∀ i, i < 16 → d.frp.getLsbD i = (d.fctrl.getLsbD i || decide (i < 6))) ∧
    (∀ i, i < 32 → d.shadow.getLsbD i = if i < 6 then false else if 7 ≤ i ∧ i < 13 then true else d.mxcsr.getLsbD i) := by
  have inv : ∀ (hist : List CwOp) (c : Cws), c.frp = c.fctrl ||| 0x3F#16 ∧ c.shadow = (c.mxcsr ||| (0x3F#32 <<< 7)) &&& ~~~0x3F#32 →
      (hist.foldl Cws.step c).frp = (hist.foldl Cws.step c).fctrl ||| 0x3F#16 ∧
      (hist.foldl Cws.step c).shadow = ((hist.foldl Cws.step c).mxcsr ||| (0x3F#32 <<< 7)) &&& ~~~0x3F#32 := by
    intro hist
    induction hist with
    | nil => intro c h; exact h
    | cons o hist ih =>
      intro c h
      refine ih (c.step o) ?_
      cases o with
      | reset => exact ⟨rfl, by show (0x1F80#32 : BitVec 32) = (0x1F80#32 ||| (0x3F#32 <<< 7)) &&& ~~~0x3F#32; decide⟩
      | fldcw v => exact ⟨rfl, h.2⟩
      | fninit => exact ⟨by show (0x37F#16 : BitVec 16) = 0x37F#16 ||| 0x3F#16; decide, h.2⟩
      | fxrstor os v m =>
        unfold Cws.step
        dsimp only
        split
        · exact h
        · cases os with
          | false => exact ⟨rfl, h.2⟩
          | true => exact ⟨rfl, rfl⟩
      | simd r =>
        refine ⟨h.1, ?_⟩
        show c.shadow = (((c.mxcsr &&& ~~~0x3F#32) ||| (r &&& 0x3F#32)) ||| (0x3F#32 <<< 7)) &&& ~~~0x3F#32
        rw [h.2]
        bits32
  intro d
  obtain ⟨h1, h2⟩ := inv hist (c.step .reset) ⟨rfl, by show (0x1F80#32 : BitVec 32) = (0x1F80#32 ||| (0x3F#32 <<< 7)) &&& ~~~0x3F#32; decide⟩
  refine ⟨fun i hi => ?_, fun i hi => ?_⟩
  · show (hist.foldl Cws.step (c.step .reset)).frp.getLsbD i = _
    rw [h1, BitVec.getLsbD_or]
    have : ∀ j : Fin 16, (0x3F#16).getLsbD j.val = decide (j.val < 6) := by decide
    rw [this ⟨i, hi⟩]
  · show (hist.foldl Cws.step (c.step .reset)).shadow.getLsbD i = _
    rw [h2, BitVec.getLsbD_and, BitVec.getLsbD_or]
    have a : ∀ j : Fin 32, (0x3F#32 <<< 7).getLsbD j.val = decide (7 ≤ j.val ∧ j.val < 13) := by decide
    have b : ∀ j : Fin 32, (~~~0x3F#32).getLsbD j.val = decide (6 ≤ j.val) := by decide
    rw [a ⟨i, hi⟩, b ⟨i, hi⟩]
    dsimp only
    by_cases h6 : i < 6
    · rw [if_pos h6]; simp; omega
    · rw [if_neg h6]
      by_cases h7 : 7 ≤ i ∧ i < 13
      · rw [if_pos h7]; simp [h7]; omega
      · rw [if_neg h7, decide_eq_false h7, decide_eq_true (show 6 ≤ i by omega), Bool.or_false, Bool.and_true]

/-- C111 fails: when the operand of FSIN, FCOS or FSINCOS is out of range, the emulator leaves the host's control word as the guest
wants it, and a register of the host in use. -/
theorem C111_far_violation (A : Alu) (h : H) (i : Ins) (hr : Ready h) (hp : NoPending h.g) (h0 : FpuMem.HasSt0 h.g)
    (h7 : i = .sincos → isEmpty (clr h.g 0x600#16) 0xFFFFFFFF = true) (hf : Far A h.g i)
    (hm : ∀ f, (∀ u, i = .un u → f = (A.un u (cwOf h.g) (stn h.g 0)).2) → (i = .sincos → f = (A.sincos (cwOf h.g) (stn h.g 0)).2.2) → ¬ FpuMem.Unmasked h.g f) :
    ∃ h', run A (emit i) h = some h' ∧ h'.cw = cwOf h.g ∧ h'.stk.length = 1 := by
  have hu : (underflowReg (clr h.g 0x600#16) 0 0 false).2 = false := by
    unfold underflowReg
    rw [if_neg (show ¬ isEmpty (clr h.g 0x600#16) 0 = true from fun hx => (FpuMem.empty_iff h.g).1 hx h0)]
  have trig : ∀ u, u ≠ .sqrt → i = .un u → (A.un u (cwOf h.g) (stn h.g 0)).2.getLsbD 10 = true → ∃ h', run A (emit i) h = some h' ∧ h'.cw = cwOf h.g ∧ h'.stk.length = 1 := by
    intro u hs hi hc
    subst hi
    unfold emit
    rw [run_check]
    unfold pending
    dsimp only
    rw [pend_false hp, if_neg (by decide)]
    unfold emitUn
    rw [run_seq]
    simp only [exec, Option.bind_some]
    rw [if_neg hs, if_neg hs, run_seq]
    simp only [exec, Option.bind_some, clr_clr]
    rw [run_check]
    dsimp only
    rw [hu, if_neg (by decide), under_false hu, run_setCtx, run_seq, exec_ldSt A _ _ (by simp [inCtx]) (by exact hr.top), Option.bind_some, run_seq]
    simp only [exec, Option.bind_some, inCtx, H.flags, stn_clr]
    rw [run_post A _ _ _ _ _ (Or.inl rfl) ⟨h.sw, rfl⟩, hr.frp]
    dsimp only
    have hn : ¬ (post (clr h.g 0x600#16) (A.un u (cwOf h.g) (stn h.g 0)).2 0x3F#16).2 = true :=
      fun hx => hm _ (fun u' hu' => by cases hu'; rfl) (fun h => by cases h) ((FpuMem.post_iff (clr h.g 0x600#16) _).1 hx)
    rw [if_neg hn]
    show ∃ h', (if (post (clr h.g 0x600#16) (A.un u (cwOf h.g) (stn h.g 0)).2 0x3F#16).1.fstatus &&& 0x400#16 ≠ 0#16 then _ else _) = some h' ∧ _
    rw [if_pos ((bit10 _).2 (by rw [post_c2]; exact hc))]
    exact ⟨_, rfl, rfl, rfl⟩
  cases i with
  | un u =>
    cases u with
    | sqrt => exact absurd hf id
    | sin => exact trig .sin (by decide) rfl hf
    | cos => exact trig .cos (by decide) rfl hf
  | sincos =>
    have hu : (faultFsincos (clr h.g 0x600#16)).2 = false := by
      unfold faultFsincos
      rw [if_neg]
      rw [h7 rfl, Bool.or_eq_true]
      rintro (hx | hx)
      · exact (FpuMem.empty_iff h.g).1 hx h0
      · cases hx
    unfold emit
    rw [run_check]
    unfold pending
    dsimp only
    rw [pend_false hp, if_neg (by decide)]
    unfold emitSincos
    rw [run_seq]
    simp only [exec, Option.bind_some]
    rw [run_seq]
    simp only [exec, Option.bind_some, clr_clr]
    rw [run_check]
    dsimp only
    rw [hu, if_neg (by decide), sincos_false hu, run_setCtx, run_seq, exec_ldSt A _ _ (by simp [inCtx]) (by exact hr.top), Option.bind_some, run_seq,
      exec_sincos_far A _ (stn h.g 0) rfl (by
        show (A.sincos h.frp (stn h.g 0)).2.2 &&& 0x400#16 ≠ 0#16
        rw [hr.frp]
        exact (bit10 _).2 hf), Option.bind_some]
    simp only [inCtx]
    rw [run_post A _ _ _ _ (A.sincos h.frp (stn h.g 0)).2.2 (Or.inl rfl) ⟨h.sw, rfl⟩, hr.frp]
    dsimp only
    have hn : ¬ (post (clr h.g 0x600#16) (A.sincos (cwOf h.g) (stn h.g 0)).2.2 0x3F#16).2 = true :=
      fun hx => hm _ (fun u' hu' => by cases hu') (fun h => rfl) ((FpuMem.post_iff (clr h.g 0x600#16) _).1 hx)
    rw [if_neg hn]
    show ∃ h', (if (post (clr h.g 0x600#16) (A.sincos (cwOf h.g) (stn h.g 0)).2.2 0x3F#16).1.fstatus &&& 0x400#16 ≠ 0#16 then _ else _) = some h' ∧ _
    rw [if_pos ((bit10 _).2 (by rw [post_c2]; exact hf))]
    exact ⟨_, rfl, rfl, rfl⟩
  | _ => exact absurd hf id

namespace EmitFpuP

/-- A host whose arithmetic is on integers: FSIN and its like are out of range above 0x1000; loads of 32 bits report a denormal operand for 5. -/
def alu : Alu where
  bin := fun o _ a b => (match o with | .sub => a - b | .add => a + b | .mul => a * b | .divr => b / a | .div => a / b | .subr => b - a, 0x20#16)
  binM := fun _ _ _ a b => (a + b, 0#16)
  un := fun _ _ a => if 0x1000#80 < a then (a, 0x400#16) else (a + 7#80, 0x20#16)
  chs := fun a => a ^^^ 0x80000000000000000000#80
  sincos := fun _ a => if 0x1000#80 < a then (a, a, 0x400#16) else (a + 1#80, a + 2#80, 0x20#16)
  patan := fun _ a b => (a + b, 0#16)
  com := fun _ a b => if a = b then 0x4000#16 else 0#16
  comM := fun _ _ a b => if a = b then 0x4000#16 else 0#16
  const := fun k _ => BitVec.ofNat 80 k.val
  ld := fun _ _ m => (m, if m = 5#80 then 2#16 else 0#16)
  st := fun _ _ v => (v, 0x20#16)

/-- Three registers in use from 3 on; ST(0) is `v`, ST(1) 2 and ST(2) 3; the host's own control word is 0x27F. -/
def host (cw : BitVec 16) (v : BitVec 80) : H :=
  { stk := [], top := 0#3, cw := 0x27F#16, sw := 0x41#16, loc := 0#80, saved := 0#16, r11 := 0#16, mem := 5#80, out := none,
    g := { fctrl := cw, fstatus := 0x200#16, ftop := 3, tags := fun i => if 3 ≤ i ∧ i < 6 then 0#8 else 3#8,
           fr := fun i => if i = 3 then v else if i = 4 then 2#80 else if i = 5 then 3#80 else 0#80 },
    frp := cw ||| 0x3F#16 }

theorem host_ready (cw : BitVec 16) (v : BitVec 80) : Ready (host cw v) := ⟨by show 3 < 8; decide, rfl, rfl⟩

/-- Status, TOP, ST(0), ST(1), host's control word, host's stack, the value stored. -/
def look (h : Option H) : Option (List Nat × List Nat × Option Nat) :=
  h.map fun h => ([h.g.fstatus.toNat, h.g.ftop, (stn h.g 0).toNat, (stn h.g 1).toNat, h.cw.toNat], h.stk.map (·.toNat), h.out.map (·.toNat))

example : look (run alu (emit (.arith .sub .d8 1)) (host 0x37F#16 9#80)) = some ([0x20, 3, 7, 2, 0x27F], [], none) := by decide +kernel
example : look (run alu (emit (.arith .subr .de 1)) (host 0x37F#16 9#80)) = some ([0x20, 4, 7, 3, 0x27F], [], none) := by decide +kernel
example : look (run alu (emit (.un .sin)) (host 0x37F#16 9#80)) = some ([0x20, 3, 16, 2, 0x27F], [], none) := by decide +kernel
example : look (run alu (emit .sincos) (host 0x37F#16 9#80)) = some ([0x20, 2, 11, 10, 0x27F], [], none) := by decide +kernel
example : look (run alu (emit (.fstMem .r64 true)) (host 0x37F#16 9#80)) = some ([0x20, 4, 2, 3, 0x27F], [], some 9) := by decide +kernel
example : look (run alu (emit (.fstMem .r64 true)) (host 0x35F#16 9#80)) = some ([0xA0, 3, 9, 2, 0x27F], [], none) := by decide +kernel
example : Coded (.arith .subr .de 1) ∧ ¬ Far alu (host 0x37F#16 9#80).g (.un .sin) ∧ Far alu (host 0x37F#16 0x2000#80).g (.un .sin) := by
  refine ⟨by show 1 < 8; decide, ?_, ?_⟩
  · show ¬ ((alu.un .sin (cwOf (host 0x37F#16 9#80).g) (stn (host 0x37F#16 9#80).g 0)).2.getLsbD 10 = true)
    decide +kernel
  · show (alu.un .sin (cwOf (host 0x37F#16 0x2000#80).g) (stn (host 0x37F#16 0x2000#80).g 0)).2.getLsbD 10 = true
    decide +kernel
example : NoPending (host 0x37F#16 9#80).g ∧ FpuMem.HasSt0 (host 0x37F#16 9#80).g ∧ Fpu.Wf (host 0x37F#16 9#80).g ∧ view (host 0x37F#16 9#80).g 7 = none := by
  refine ⟨by unfold NoPending; decide +kernel, by unfold FpuMem.HasSt0; decide +kernel, ?_, by decide +kernel⟩
  exact ⟨by show 3 < 8; decide, fun i _ => by show (if 3 ≤ i ∧ i < 6 then 0#8 else 3#8 : BitVec 8).toNat < 4; split <;> decide⟩
example : look (run alu (emit (.un .sin)) (host 0x07F#16 0x2000#80)) = some ([0x400, 3, 0x2000, 2, 0x07F], [0x2000], none) := by decide +kernel
example : isEmpty (clr (host 0x37F#16 0x2000#80).g 0x600#16) 0xFFFFFFFF = true := by decide +kernel
example : ([.fldcw 0x040#16, .simd 0x21#32, .fxrstor true 0x27F#16 0x9F80#32, .simd 0x20#32] : List CwOp).foldl Cws.step
    ((⟨0#16, 0#16, 0#32, 0#32⟩ : Cws).step .reset) = ⟨0x27F#16, 0x27F#16, 0x9FA0#32, 0x9F80#32⟩ := rfl

end EmitFpuP

open EmitFpuP in
/-- C111 fails: with denormal operands unmasked, FLD of a denormal number in memory records the exception but does not report it: the
summary stays clear and the value is loaded. -/
theorem C111_denormal_violation : ∃ h', run alu (emit (.fldMem .r32)) (host 0x37D#16 9#80) = some h' ∧
    FpuMem.Unmasked (host 0x37D#16 9#80).g (alu.ld .r32 (cwOf (host 0x37D#16 9#80).g) (host 0x37D#16 9#80).mem).2 ∧
    h'.g.fstatus.getLsbD 1 = true ∧ h'.g.fstatus.getLsbD 7 = false ∧ view h'.g 0 = some 5#80 ∧ view h'.g 1 = some 9#80 :=
  ⟨_, rfl, ⟨1, by decide, by decide +kernel, by decide +kernel⟩, by decide +kernel, by decide +kernel, by decide +kernel, by decide +kernel⟩

end Verif.EmitFpu
