import Verif.Spec.Fpu
import Verif.Props.FpuStack
/-
C77: the FPU registers as a stack of values.
-/
namespace Verif.Fpu
open Spec

/-- ST(i) as a program sees it. -/
def view (s : St) : Regs := fun i => if i < 8 then (if s.tags ((s.ftop + i) % 8) = 3#8 then none else some (s.fr ((s.ftop + i) % 8))) else none

theorem tagOf_ne (v : BitVec 80) : tagOf v ≠ 3#8 := by
  unfold tagOf
  dsimp only
  split
  · decide
  · split <;> decide

theorem view_congr {s t : St} (h1 : t.ftop = s.ftop) (h2 : t.tags = s.tags) (h3 : t.fr = s.fr) : view t = view s := by
  unfold view; rw [h1, h2, h3]

theorem view_store_tag (s : St) (hw : Wf s) (i : Nat) (hi : i < 8) (v : BitVec 80) :
    view (updateTag (storeSt s i v) true i) = put (view s) i (some v) := by
  funext j
  have ht := hw.top
  have he : idx (storeSt s i v) i = (s.ftop + i) % 8 := by rw [idx_eq, Nat.add_comm]; rfl
  have he' : (i + s.ftop) % 8 = (s.ftop + i) % 8 := by rw [Nat.add_comm]
  unfold view updateTag
  simp only [if_true]
  rw [he]
  have ef : (storeSt s i v).ftop = s.ftop := rfl
  have et : (storeSt s i v).tags = s.tags := rfl
  have er : (storeSt s i v).fr = set s.fr ((s.ftop + i) % 8) v := by unfold storeSt; rw [he']
  rw [ef, et, er]
  unfold put
  dsimp only
  by_cases hj : j < 8
  · rw [if_pos hj]
    by_cases hji : j = i
    · subst hji
      rw [set_eq, set_eq, if_neg (tagOf_ne v), if_pos rfl]
    · have hne : (s.ftop + j) % 8 ≠ (s.ftop + i) % 8 := by omega
      rw [set_ne _ _ _ _ hne, set_ne _ _ _ _ hne, if_neg hji, if_pos hj]
  · rw [if_neg hj, if_neg (by omega), if_neg hj]

theorem view_store (s : St) (hw : Wf s) (i : Nat) (hi : i < 8) (hne : view s i ≠ none) (v : BitVec 80) :
    view (storeSt s i v) = put (view s) i (some v) := by
  funext j
  have ht := hw.top
  have he' : (i + s.ftop) % 8 = (s.ftop + i) % 8 := by rw [Nat.add_comm]
  have ef : (storeSt s i v).ftop = s.ftop := rfl
  have et : (storeSt s i v).tags = s.tags := rfl
  have er : (storeSt s i v).fr = set s.fr ((s.ftop + i) % 8) v := by unfold storeSt; rw [he']
  have hnt : s.tags ((s.ftop + i) % 8) ≠ 3#8 := by
    intro h
    apply hne
    unfold view
    rw [if_pos hi, if_pos h]
  unfold view
  rw [ef, et, er]
  unfold put
  dsimp only
  by_cases hj : j < 8
  · rw [if_pos hj]
    by_cases hji : j = i
    · subst hji
      rw [set_eq, if_neg hnt, if_pos rfl]
    · have hne : (s.ftop + j) % 8 ≠ (s.ftop + i) % 8 := by omega
      rw [set_ne _ _ _ _ hne, if_neg hji, if_pos hj]
  · rw [if_neg hj, if_neg (by omega), if_neg hj]

theorem view_popInstr (s : St) (hw : Wf s) : view (popInstr s) = pop (view s) := by
  funext j
  have ht := hw.top
  have e1 : (popInstr s).ftop = (s.ftop + 1) % 8 := rfl
  have e2 : (popInstr s).tags = set s.tags s.ftop 3#8 := by
    show set s.tags (idx s 0) _ = _
    rw [idx_top s ht]; rfl
  have e3 : (popInstr s).fr = s.fr := rfl
  unfold view pop
  dsimp only
  rw [e1, e2, e3]
  by_cases hj : j < 7
  · have h1 : ((s.ftop + 1) % 8 + j) % 8 = (s.ftop + (j + 1)) % 8 := by omega
    rw [h1, if_pos (show j < 8 by omega), if_pos hj, if_pos (show j + 1 < 8 by omega), set_ne _ _ _ _ (by omega)]
  · rw [if_neg hj]
    by_cases hj8 : j < 8
    · have h1 : ((s.ftop + 1) % 8 + j) % 8 = s.ftop := by omega
      rw [h1, if_pos hj8, set_eq, if_pos rfl]
    · rw [if_neg hj8]

theorem view_popN (n : Nat) : ∀ (s : St), Wf s → view (popInstrN n s) = popTimes n (view s) := by
  induction n with
  | zero => intro s _; rfl
  | succ n ih => intro s hw; rw [popInstrN, ih _ (wf_popInstr hw), view_popInstr s hw]; rfl

theorem view_push (s : St) (hw : Wf s) (v : BitVec 80) : view (pushVal s v) = Spec.push (some v) (view s) := by
  obtain ⟨h1, h2, h3, h4, -, -⟩ := pushVal_spec s v hw.top
  have ht := hw.top
  funext j
  unfold view
  rw [h1]
  cases j with
  | zero =>
    have e : ((s.ftop + 7) % 8 + 0) % 8 = (s.ftop + 7) % 8 := by omega
    rw [e, h2, h3, if_pos (by omega), if_neg (tagOf_ne v)]
    rfl
  | succ j =>
    show _ = if j < 7 then _ else none
    by_cases hj : j < 7
    · have e : ((s.ftop + 7) % 8 + (j + 1)) % 8 = (s.ftop + j) % 8 := by omega
      obtain ⟨a, b⟩ := h4 ((s.ftop + j) % 8) (Nat.mod_lt _ (by omega)) (by omega)
      rw [e, if_pos (by omega), if_pos hj, if_pos (show j < 8 by omega), a, b]
    · rw [if_neg (by omega), if_neg hj]

theorem view_post (s : St) (sw e : BitVec 16) : view (post s sw e).1 = view s := rfl
theorem view_clr (s : St) (m : BitVec 16) : view (clr s m) = view s := rfl

theorem load_view {s : St} {i : Nat} (hi : i < 8) (h : view s i ≠ none) : view s i = some (loadSt s i) := by
  unfold view at h ⊢
  rw [if_pos hi] at h ⊢
  split
  · rename_i hc; rw [if_pos hc] at h; exact absurd rfl h
  · unfold loadSt; rw [Nat.add_comm]

theorem nonempty {s : St} {i : Nat} (hi : i < 8) (h : view s i ≠ none) : isEmpty s i = false := by
  cases he : isEmpty s i with
  | false => rfl
  | true =>
    exfalso
    apply h
    unfold view
    exact (if_pos hi).trans (if_pos ((isEmpty_iff' s i).1 he))

theorem free7 {s : St} (h : view s 7 = none) : s.tags ((s.ftop + 7) % 8) = 3#8 := by
  unfold view at h
  rw [if_pos (by omega)] at h
  split at h
  · assumption
  · cases h

theorem under_no {s : St} {i : Nat} (hi : i < 8) (h : view s i ≠ none) (d : Nat) (p : Bool) : underflowReg s i d p = (s, false) := by
  unfold underflowReg; rw [nonempty hi h]; rfl

theorem post_no {s : St} {sw e : BitVec 16} (h : ~~~s.fctrl &&& (sw &&& e) = 0#16) : (post s sw e).2 = false := by
  unfold post Sticky.fpuPost
  dsimp only
  rw [BitVec.and_assoc, if_pos h]

theorem post_c2 (s : St) (sw : BitVec 16) (h : (post s sw 0x3F#16).2 = false) :
    ((post s sw 0x3F#16).1.fstatus &&& 0x400#16 = 0#16) ↔ sw.getLsbD 10 = false := by
  have e : (post s sw 0x3F#16).1.fstatus = (s.fstatus &&& ~~~0x473F#16) ||| (sw &&& 0x473F#16) := by
    unfold post Sticky.fpuPost at h ⊢
    dsimp only at h ⊢
    split
    · rfl
    · rename_i hc; rw [if_neg hc] at h; cases h
  rw [e]
  generalize s.fstatus = f
  constructor
  · intro h
    have := congrArg (fun x : BitVec 16 => x.getLsbD 10) h
    simpa using this
  · intro h
    bits16 <;> simp_all

theorem popIf_step (s : St) (hw : Wf s) (p : Bool) : view (if p then popInstr s else s) = popIf p (view s) := by
  cases p
  · rfl
  · exact view_popInstr s hw

/-- **C77**: in every state without a pending exception, an instruction that finds its operands (and, to push, a free place) and raises no unmasked
exception does to the stack exactly what the specification says; in particular nothing else in the stack changes. -/
theorem C77_stack_machine (s : St) (op : Op) (hw : Wf s) (hp : NoPending s) (henc : Encodable op)
    (hneed : ∀ i ∈ needs op, view s i ≠ none) (hgrow : grows op = true → view s 7 = none)
    (hm : ~~~s.fctrl &&& raised op = 0#16) : view (step s op) = effect op (view s) := by
  unfold step
  rw [step_go hp]
  simp only [Bool.false_eq_true, if_false]
  unfold effect
  cases op with
  | ldConst v =>
    simp only [outOfRange, Bool.false_eq_true, if_false, ldConst, overflow_no (free7 (hgrow rfl))]
    exact view_push _ (wf_clr hw _) v
  | ldMem v sw =>
    simp only [outOfRange, Bool.false_eq_true, if_false, ldMem, overflow_no (free7 (hgrow rfl))]
    have hc : (post (clr s 512#16) sw 1#16).2 = false := post_no hm
    rw [hc]
    simp only [Bool.false_eq_true, if_false]
    exact view_push _ (wf_post (wf_clr hw _) _ _) v
  | ldReg i =>
    have hi := hneed i (by simp [needs])
    simp only [outOfRange, Bool.false_eq_true, if_false, ldReg, overflow_no (free7 (hgrow rfl)), under_no (s := clr s 512#16) henc hi]
    rw [view_push _ (wf_clr hw _), view_clr, load_view henc hi]
    rfl
  | stReg i p =>
    have h0 := hneed 0 (by simp [needs])
    simp only [outOfRange, Bool.false_eq_true, if_false, stReg, under_no (s := clr s 512#16) (show 0 < 8 by omega) h0]
    by_cases hi0 : i = 0
    · rw [if_pos hi0, popIf_step _ (wf_clr hw _), view_clr, hi0]
      congr 1
      funext j
      unfold put
      split
      · rename_i h; rw [h]
      · rfl
    · rw [if_neg hi0, popIf_step _ (wf_updateTag (wf_storeSt (wf_clr hw _) _ _) _ _), view_store_tag _ (wf_clr hw _) i henc, view_clr,
        load_view (by omega) h0]
      rfl
  | stMem sw p =>
    have h0 := hneed 0 (by simp [needs])
    have hu : underflowMem (clr s 512#16) 0 p = (clr s 512#16, false) := by
      unfold underflowMem; rw [nonempty (s := clr s 512#16) (by omega) h0]; rfl
    simp only [outOfRange, Bool.false_eq_true, if_false, stMem, hu]
    have hc : (post (clr s 512#16) sw 0x3F#16).2 = false := post_no hm
    rw [hc]
    simp only [Bool.false_eq_true, if_false]
    rw [popIf_step _ (wf_post (wf_clr hw _) _ _)]
    rfl
  | arithReg i toI p v sw =>
    have h0 := hneed 0 (by simp [needs])
    have hi := hneed i (by simp [needs])
    simp only [outOfRange, Bool.false_eq_true, if_false, arithReg, under_no (s := clr s 512#16) (show 0 < 8 by omega) h0,
      under_no (s := clr s 512#16) henc hi]
    have hc : (post (clr s 512#16) sw 0x3F#16).2 = false := post_no hm
    rw [hc]
    simp only [Bool.false_eq_true, if_false]
    have hd : (if toI then i else 0) < 8 := by
      have : i < 8 := henc
      split <;> omega
    rw [popIf_step _ (wf_updateTag (wf_storeSt (wf_post (wf_clr hw _) _ _) _ _) _ _), view_store_tag _ (wf_post (wf_clr hw _) _ _) _ hd]
    rfl
  | arithSt0 v sw t =>
    have h0 := hneed 0 (by simp [needs])
    simp only [arithSt0]
    generalize (if t = true then 0x600#16 else 0x200#16) = m
    simp only [under_no (s := clr s m) (show 0 < 8 by omega) h0, Bool.false_eq_true, if_false]
    have hc : (post (clr s m) sw 0x3F#16).2 = false := post_no hm
    have h2 := post_c2 (clr s m) sw hc
    rw [hc]
    simp only [Bool.false_eq_true, if_false]
    have hwp := wf_post (wf_clr hw m) sw 0x3F#16
    have hv : view (post (clr s m) sw 0x3F#16).1 = view s := rfl
    generalize (post (clr s m) sw 0x3F#16).1 = q at *
    have hst := view_store_tag q hwp 0 (by omega) v
    rw [hv] at hst
    cases t with
    | false =>
      simp only [outOfRange, Bool.false_eq_true, if_false, false_and]
      exact hst
    | true =>
      simp only [true_and]
      rcases Bool.eq_false_or_eq_true (sw.getLsbD 10) with hb | hb
      · rw [if_pos (fun h => by rw [h2.1 h] at hb; cases hb), if_pos (show outOfRange (.arithSt0 v sw true) = true from hb)]
        exact hv
      · rw [if_neg (fun h => h (h2.2 hb)), if_neg (show ¬ outOfRange (.arithSt0 v sw true) = true by rw [show outOfRange (.arithSt0 v sw true) = sw.getLsbD 10 from rfl, hb]; exact Bool.false_ne_true)]
        exact hst
  | fchs v =>
    have h0 := hneed 0 (by simp [needs])
    simp only [outOfRange, Bool.false_eq_true, if_false, fchs, under_no (s := s) (show 0 < 8 by omega) h0]
    exact view_store_tag _ (wf_clr hw _) 0 (by omega) v
  | fcom src n sw =>
    have h0 : view s 0 ≠ none := hneed 0 (by cases src <;> simp [needs])
    have hs : src.elim false (isEmpty (clr s 512#16)) = false := by
      cases src with
      | none => rfl
      | some i => exact nonempty (s := clr s 512#16) henc (hneed i (by simp [needs]))
    have hu : faultFcom (clr s 512#16) (isEmpty (clr s 512#16) 0) (src.elim false (isEmpty (clr s 512#16))) n = (clr s 512#16, false) := by
      unfold faultFcom; rw [hs, nonempty (s := clr s 512#16) (by omega) h0]; rfl
    simp only [outOfRange, Bool.false_eq_true, if_false, fcom, hu]
    have hc : (post (clr s 512#16) sw 0x3F#16).2 = false := post_no hm
    rw [hc]
    simp only [Bool.false_eq_true, if_false]
    exact view_popN n _ (wf_post (wf_clr hw _) _ _)
  | fpatan v sw =>
    have h0 := hneed 0 (by simp [needs])
    have h1 := hneed 1 (by simp [needs])
    have hu : faultFpatan (clr s 512#16) = (clr s 512#16, false) := by
      unfold faultFpatan
      rw [nonempty (s := clr s 512#16) (by omega) h0, nonempty (s := clr s 512#16) (by omega) h1]; rfl
    simp only [outOfRange, Bool.false_eq_true, if_false, fpatan, hu]
    have hc : (post (clr s 512#16) sw 0x3F#16).2 = false := post_no hm
    rw [hc]
    simp only [Bool.false_eq_true, if_false]
    rw [view_popInstr _ (wf_storeSt (wf_post (wf_clr hw _) _ _) _ _), view_store _ (wf_post (wf_clr hw _) _ _) 1 (by omega) h1]
    rfl
  | fsincos sn cs sw =>
    have h0 := hneed 0 (by simp [needs])
    have hu : faultFsincos (clr s 0x600#16) = (clr s 0x600#16, false) := by
      unfold faultFsincos
      have he : isEmpty (clr s 0x600#16) 0xFFFFFFFF = true := by
        simp only [isEmpty, idx_m1, clr, free7 (hgrow rfl)]; rfl
      rw [nonempty (s := clr s 0x600#16) (by omega) h0, he]; rfl
    simp only [fsincos, hu, Bool.false_eq_true, if_false]
    have hc : (post (clr s 0x600#16) sw 0x3F#16).2 = false := post_no hm
    have h2 := post_c2 (clr s 0x600#16) sw hc
    rw [hc]
    simp only [Bool.false_eq_true, if_false]
    have hwp := wf_post (wf_clr hw 0x600#16) sw 0x3F#16
    have hv : view (post (clr s 0x600#16) sw 0x3F#16).1 = view s := rfl
    generalize (post (clr s 0x600#16) sw 0x3F#16).1 = q at *
    rcases Bool.eq_false_or_eq_true (sw.getLsbD 10) with hb | hb
    · rw [if_pos (fun h => by rw [h2.1 h] at hb; cases hb), if_pos (show outOfRange (.fsincos sn cs sw) = true from hb), hv]
    · rw [if_neg (fun h => h (h2.2 hb)), if_neg (show ¬ outOfRange (.fsincos sn cs sw) = true by rw [show outOfRange (.fsincos sn cs sw) = sw.getLsbD 10 from rfl, hb]; exact Bool.false_ne_true)]
      have hq0 : view q 0 ≠ none := by rw [hv]; exact h0
      have e1 : view (storeSt q 0 sn) = put (view s) 0 (some sn) := by rw [view_store q hwp 0 (by omega) hq0, hv]
      have e2 := view_push (storeSt q 0 sn) (wf_storeSt hwp 0 sn) cs
      rw [e1] at e2
      rw [← e2]
      have e3 : updateTag (storeSt (push (storeSt q 0 sn)) 0 cs) true 0 = pushVal (storeSt q 0 sn) cs := rfl
      rw [e3]
      generalize hz : pushVal (storeSt q 0 sn) cs = z
      have hwz : Wf z := by
        rw [← hz]
        exact wf_pushVal (wf_storeSt hwp _ _) _
      -- the second update of a tag in use changes no view
      funext j
      unfold view
      have hf : (updateTag z true 1).ftop = z.ftop := rfl
      have hr : (updateTag z true 1).fr = z.fr := rfl
      have hg : (updateTag z true 1).tags = set z.tags ((1 + z.ftop) % 8) (tagOf (z.fr ((1 + z.ftop) % 8))) := by
        show set z.tags (idx z 1) _ = _
        rw [idx_eq]; rfl
      rw [hf, hr, hg]
      by_cases hj : j < 8
      · rw [if_pos hj, if_pos hj]
        by_cases hj1 : (z.ftop + j) % 8 = (1 + z.ftop) % 8
        · rw [hj1, set_eq, if_neg (tagOf_ne _)]
          have hne : view z 1 ≠ none := by
            rw [← hz, e2]
            simp [Spec.push, put]
          have : z.tags ((z.ftop + 1) % 8) ≠ 3#8 := by
            intro h
            apply hne
            unfold view
            rw [if_pos (by omega), if_pos h]
          rw [Nat.add_comm 1, if_neg this]
        · rw [set_ne _ _ _ _ hj1]
      · rw [if_neg hj, if_neg hj]
  | fxch i =>
    have h0 := hneed 0 (by simp [needs])
    have hi := hneed i (by simp [needs])
    have henc' : i < 8 := henc
    have hu : faultFxch (clr s 512#16) i = (clr s 512#16, false) := by
      unfold faultFxch
      rw [nonempty (s := clr s 512#16) (by omega) h0, nonempty (s := clr s 512#16) henc' hi]; rfl
    simp only [outOfRange, Bool.false_eq_true, if_false, fxch, hu]
    have e1 : view (storeSt (clr s 512#16) 0 (loadSt (clr s 512#16) i)) = put (view s) 0 (view s i) := by
      rw [view_store _ (wf_clr hw _) 0 (by omega) h0, view_clr, load_view henc' hi]; rfl
    rw [view_store _ (wf_storeSt (wf_clr hw _) _ _) i henc', e1]
    · rw [load_view (by omega) h0]; rfl
    · rw [e1]; unfold put; split <;> assumption
  | fninit =>
    simp only [outOfRange, Bool.false_eq_true, if_false]
    funext j
    unfold view
    have : (fninit s).tags (((fninit s).ftop + j) % 8) = 3#8 := if_pos (Nat.mod_lt _ (by omega))
    rw [if_pos this]
    split <;> rfl
  | emms =>
    simp only [outOfRange, Bool.false_eq_true, if_false]
    funext j
    unfold view
    have : (emms s).tags (((emms s).ftop + j) % 8) = 3#8 := if_pos (Nat.mod_lt _ (by omega))
    rw [if_pos this]
    split <;> rfl
  | fnclex => rfl
  | fldcw v => rfl
  | setStatus v => exact absurd henc id
  | setTags v => exact absurd henc id

/-- C77: the tag given to a value is the documented one. -/
theorem C77_tag (v : BitVec 80) : (tagOf v).toNat = tag v := by
  unfold tagOf tag
  have he : (((v >>> 64).setWidth 16 : BitVec 16) &&& 0x7FFF#16).toNat = v.toNat / 2 ^ 64 % 2 ^ 15 := by
    rw [BitVec.toNat_and, BitVec.toNat_setWidth, BitVec.toNat_ushiftRight, Nat.shiftRight_eq_div_pow]
    show _ &&& (2 ^ 15 - 1) = _
    rw [Nat.and_two_pow_sub_one_eq_mod]
    omega
  have hm : (v.setWidth 64 : BitVec 64).toNat = v.toNat % 2 ^ 64 := BitVec.toNat_setWidth ..
  have hs : ((v.setWidth 64 : BitVec 64) &&& 0x8000000000000000#64 = 0#64) ↔ (v.setWidth 64 : BitVec 64).toNat < 2 ^ 63 := by
    generalize (v.setWidth 64 : BitVec 64) = m
    rw [show (0x8000000000000000#64) = BitVec.twoPow 64 63 by decide, BitVec.and_twoPow]
    have : m.getLsbD 63 = decide (2 ^ 63 ≤ m.toNat) := by
      rw [← BitVec.msb_eq_decide (x := m)]
      rfl
    rw [this]
    by_cases h : 2 ^ 63 ≤ m.toNat
    · simp only [h, decide_true, if_true]
      constructor
      · intro h'; exact absurd h' (by decide)
      · intro h'; omega
    · simp only [h, decide_false, Bool.false_eq_true, if_false]
      constructor
      · intro; omega
      · intro; trivial
  dsimp only
  rw [← he, ← hm]
  rw [hm] at hs
  generalize ((v >>> 64).setWidth 16 : BitVec 16) &&& 0x7FFF#16 = e
  rw [← hm] at hs
  generalize (v.setWidth 64 : BitVec 64) = m at *
  have e1 : e = 0#16 ↔ e.toNat = 0 := by rw [← BitVec.toNat_inj]; rfl
  have e2 : e = 0x7FFF#16 ↔ e.toNat = 2 ^ 15 - 1 := by rw [← BitVec.toNat_inj]; rfl
  have e3 : m = 0#64 ↔ m.toNat = 0 := by rw [← BitVec.toNat_inj]; rfl
  simp only [e1, e2, e3, hs]
  split
  · rfl
  · split <;> rfl

/-- C77: FNINIT and FNCLEX work whatever is pending: FNINIT empties the stack and resets the control and status words, FNCLEX clears the exceptions. -/
theorem C77_nonwaiting (s : St) (hw : Wf s) :
    view (step s .fninit) = (fun _ => none) ∧ (step s .fninit).fctrl = 0x37F#16 ∧ readStatus (step s .fninit) = 0#16 ∧
    view (step s .fnclex) = view s ∧ (step s .fnclex).fctrl = s.fctrl ∧
    readStatus (step s .fnclex) = readStatus s &&& 0x7F00#16 := by
  refine ⟨?_, rfl, ?_, rfl, rfl, ?_⟩
  · funext j
    have : (fninit s).tags (((fninit s).ftop + j) % 8) = 3#8 := if_pos (Nat.mod_lt _ (by omega))
    show view (fninit s) j = none
    unfold view
    rw [if_pos this]
    split <;> rfl
  · show ((0#16) &&& ~~~0x3800#16) ||| (BitVec.ofNat 16 0 <<< 11) = 0#16
    decide
  · show ((s.fstatus &&& ~~~0x80FF#16) &&& ~~~0x3800#16) ||| (BitVec.ofNat 16 s.ftop <<< 11) = _
    unfold readStatus
    have ht : (BitVec.ofNat 16 s.ftop).getLsbD 4 = false := by
      rw [BitVec.getLsbD_ofNat, Nat.testBit_eq_decide_div_mod_eq, show s.ftop / 2 ^ 4 = 0 by have := hw.top; omega]
      rfl
    generalize BitVec.ofNat 16 s.ftop = t at *
    simp at ht
    bits16 <;> simp_all

/-- C77: after FLDCW an exception is pending exactly if a raised exception is not masked by the new control word. -/
theorem C77_fldcw (s : St) (hp : NoPending s) (v : BitVec 16) :
    let t := step s (.fldcw v)
    view t = view s ∧ t.fctrl = v ||| 0x40#16 ∧ (t.fstatus.getLsbD 7 = true ↔ ∃ i, i < 6 ∧ s.fstatus.getLsbD i = true ∧ v.getLsbD i = false) ∧
    ∀ i, i ≠ 7 → t.fstatus.getLsbD i = s.fstatus.getLsbD i := by
  intro t
  have ht : t = fldcw s v := by
    show step s _ = _
    unfold step; rw [step_go hp]; rfl
  have hst : t.fstatus = if s.fstatus &&& ~~~(v ||| 0x40#16) &&& 0x3F#16 ≠ 0#16 then s.fstatus ||| 0x80#16 else s.fstatus &&& ~~~0x80#16 := by
    rw [ht]; rfl
  have hiff : (s.fstatus &&& ~~~(v ||| 0x40#16) &&& 0x3F#16 ≠ 0#16) ↔ ∃ i, i < 6 ∧ s.fstatus.getLsbD i = true ∧ v.getLsbD i = false := by
    generalize s.fstatus = f
    constructor
    · intro h
      apply Classical.byContradiction
      intro hn
      apply h
      have hb : ∀ i, i < 6 → f.getLsbD i = true → v.getLsbD i = true := by
        intro i hi hf
        cases hv : v.getLsbD i with
        | true => rfl
        | false => exact absurd ⟨i, hi, hf, hv⟩ hn
      have b0 := hb 0 (by omega)
      have b1 := hb 1 (by omega)
      have b2 := hb 2 (by omega)
      have b3 := hb 3 (by omega)
      have b4 := hb 4 (by omega)
      have b5 := hb 5 (by omega)
      simp at b0 b1 b2 b3 b4 b5
      bits16 <;> simp +contextual [*]
    · rintro ⟨i, hi, h1, h2⟩ h
      have := congrArg (fun x : BitVec 16 => x.getLsbD i) h
      rcases (by omega : i = 0 ∨ i = 1 ∨ i = 2 ∨ i = 3 ∨ i = 4 ∨ i = 5) with rfl | rfl | rfl | rfl | rfl | rfl <;> simp at this h1 h2 <;> simp [h1, h2] at this
  refine ⟨by rw [ht]; rfl, by rw [ht]; rfl, ?_, ?_⟩
  · rw [hst, ← hiff]
    split
    · rename_i h; simp [h]
    · rename_i h; simp [h]
  · intro i hi
    have h7 : (0x80#16).getLsbD i = false := by
      rw [show 0x80#16 = BitVec.twoPow 16 7 by decide, BitVec.getLsbD_twoPow]
      simp [Ne.symm hi]
    rw [hst]
    split
    · rw [BitVec.getLsbD_or, h7, Bool.or_false]
    · rw [BitVec.getLsbD_and, BitVec.getLsbD_not, h7]
      by_cases h16 : i < 16
      · simp [h16]
      · simp [BitVec.getLsbD_of_ge _ _ (show 16 ≤ i by omega)]

/-- C77: instructions other than FNINIT and FNCLEX do nothing while an exception is pending (they raise #MF). -/
theorem C77_waiting (s : St) (op : Op) (hp : s.fstatus.getLsbD 7 = true) (hop : op ≠ .fninit ∧ op ≠ .fnclex) (henc : Encodable op) :
    step s op = s := by
  apply C29_pending
  · intro h
    have := congrArg (fun x : BitVec 16 => x.getLsbD 7) h
    simp at this hp
    rw [hp] at this
    cases this
  · cases op <;> first | rfl | exact absurd rfl hop.1 | exact absurd rfl hop.2 | exact absurd henc id

-- Cases that meet the hypotheses: FSUBP ST(1), ST(0) with two values; FXCH; a push onto the remaining six places.
example : view two 0 = some 0#80 ∧ view two 1 = some 0x3FFF8000000000000000#80 ∧ view two 7 = none ∧
    ~~~two.fctrl &&& raised (.arithReg 1 true true 5#80 0x20#16) = 0#16 := by decide +kernel
example : view (step two (.arithReg 1 true true 5#80 0x20#16)) 0 = some 5#80 ∧ view (step two (.arithReg 1 true true 5#80 0x20#16)) 1 = none := by
  decide +kernel
example : tag 0x00008000000000000000#80 = 2 ∧ tag 0x3FFF8000000000000000#80 = 0 ∧ tag 0x80000000000000000000#80 = 1 ∧ tag qnan = 2 := by
  decide +kernel
example : (step { two with fstatus := 0x4#16 } (.fldcw 0x37B#16)).fstatus.getLsbD 7 = true := by decide +kernel

end Verif.Fpu
