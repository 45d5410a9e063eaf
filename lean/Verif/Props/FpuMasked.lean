import Verif.Spec.FpuMasked
import Verif.Props.FpuMachine
/-
C114: the masked response to a stack fault of the FPU.
-/
namespace Verif.Fpu
open Spec

theorem view_setQnan (s : St) (hw : Wf s) (i : Nat) (hi : i < 8) (k : Nat) (hk : k = (s.ftop + i) % 8) :
    view (setQnan s k) = put (view s) i (some indefinite) := by
  subst hk
  funext j
  have ht := hw.top
  have ef : (setQnan s ((s.ftop + i) % 8)).ftop = s.ftop := rfl
  unfold view
  rw [ef]
  unfold put
  by_cases hj : j < 8
  · dsimp only
    rw [if_pos hj]
    by_cases hji : j = i
    · subst hji
      show (if set s.tags _ 2#8 _ = 3#8 then none else some (set s.fr _ qnan _)) = _
      rw [set_eq, set_eq, if_neg (by decide), if_pos rfl]; rfl
    · have hne : (s.ftop + j) % 8 ≠ (s.ftop + i) % 8 := by omega
      show (if set s.tags _ 2#8 _ = 3#8 then none else some (set s.fr _ qnan _)) = _
      rw [set_ne _ _ _ _ hne, set_ne _ _ _ _ hne, if_neg hji, if_pos hj]
  · dsimp only
    rw [if_neg hj, if_neg (by omega), if_neg hj]

theorem view_popTag (s : St) (hw : Wf s) : view (popTag s) = pop (view s) := by
  rw [← view_popInstr s hw]
  apply view_congr
  · rfl
  · show set s.tags s.ftop 3#8 = set s.tags (idx s 0) 3#8
    rw [idx_top s hw.top]
  · rfl

theorem view_popTagN (n : Nat) : ∀ (s : St), Wf s → view (popN n s) = popTimes n (view s) := by
  induction n with
  | zero => intro s _; rfl
  | succ n ih => intro s hw; rw [popN, ih _ (wf_popTag hw), view_popTag s hw]; rfl

theorem view_pushQnan (s : St) (hw : Wf s) : view (setQnan (Fpu.push s) (Fpu.push s).ftop) = Spec.push (some indefinite) (view s) := by
  have ht := hw.top
  have ht' : (Fpu.push s).ftop < 8 := Nat.mod_lt _ (by omega)
  rw [view_setQnan (Fpu.push s) (wf_push hw) 0 (by omega) _ (by rw [Nat.add_zero, Nat.mod_eq_of_lt ht'])]
  funext j
  unfold put
  cases j with
  | zero => rfl
  | succ j =>
    rw [if_neg (by omega)]
    show (if j + 1 < 8 then _ else none) = if j < 7 then view s j else none
    by_cases hj : j < 7
    · have e : ((s.ftop + 7) % 8 + (j + 1)) % 8 = (s.ftop + j) % 8 := by omega
      rw [if_pos (by omega), if_pos hj]
      unfold view
      rw [if_pos (show j < 8 by omega)]
      show (if s.tags (((s.ftop + 7) % 8 + (j + 1)) % 8) = _ then _ else some (s.fr (((s.ftop + 7) % 8 + (j + 1)) % 8))) = _
      rw [e]
    · rw [if_neg (by omega), if_neg hj]

theorem view_none_iff {s : St} {i : Nat} (hi : i < 8) : view s i = none ↔ s.tags (st s i) = 3#8 := by
  unfold view st
  rw [if_pos hi]
  split <;> simp_all

theorem view7_iff {s : St} : view s 7 ≠ none ↔ s.tags ((s.ftop + 7) % 8) ≠ 3#8 :=
  not_congr (view_none_iff (by omega))

theorem view_fault (s : St) (e : BitVec 16) : view (stackFault s e) = view s := rfl

/-- Stack and status of a stack fault. -/
def Gives (t : St) (R : Regs) (over : Bool) (s : St) : Prop :=
  view t = R ∧ t.fstatus.getLsbD 0 = true ∧ t.fstatus.getLsbD 6 = true ∧ t.fstatus.getLsbD 9 = over ∧ t.fstatus.getLsbD 7 = false ∧ t.fctrl = s.fctrl

theorem gives (s s0 : St) (R : Regs) (over : Bool) (h7 : s0.fstatus.getLsbD 7 = false) (hm : masked s0 = true) (hc : s0.fctrl = s.fctrl)
    (hv : view s0 = R) : Gives (stackFault s0 (if over then 0x241#16 else 0x41#16)) R over s := by
  obtain ⟨a, b, c, d⟩ := stackFault_status s0 over
  refine ⟨hv, a, b, c, ?_, hc⟩
  rw [d, h7, hm]; rfl

theorem nopend7 {s : St} (hp : NoPending s) : s.fstatus.getLsbD 7 = false := by
  have := congrArg (fun x => x.getLsbD 7) hp
  simpa using this

theorem masked_iff0 (s : St) : masked s = true ↔ s.fctrl.getLsbD 0 = true := by
  rw [(C29_values 0#80 s).2.2]; simp [BitVec.getLsbD_eq_getElem]

theorem ovf_masked (s : St) (hw : Wf s) (h7 : s.fstatus.getLsbD 7 = false) (hm : masked s = true) (h : view s 7 ≠ none) :
    (stackOverflow s).2 = true ∧ Gives (stackOverflow s).1 (Spec.push (some indefinite) (view s)) true s := by
  have he : isEmpty s 0xFFFFFFFF = false := by
    have := (isEmpty_m1 s 0#16).2 (view7_iff.1 h)
    exact this
  unfold stackOverflow
  rw [if_pos he]
  refine ⟨rfl, ?_⟩
  dsimp only
  rw [if_pos hm]
  exact gives s _ _ true h7 hm rfl (view_pushQnan s hw)

theorem unf_masked (s : St) (hw : Wf s) (h7 : s.fstatus.getLsbD 7 = false) (hm : masked s = true) (a d : Nat) (ha : a < 8) (hd : d < 8) (p : Bool)
    (h : view s a = none) :
    (underflowReg s a d p).2 = true ∧ Gives (underflowReg s a d p).1 (popIf p (put (view s) d (some indefinite))) false s := by
  have he : isEmpty s a = true := (isEmpty_iff' s a).2 ((view_none_iff ha).1 h)
  unfold underflowReg
  rw [if_pos he]
  refine ⟨rfl, ?_⟩
  dsimp only
  rw [if_pos hm]
  have hv := view_setQnan s hw d hd (idx s d) (by rw [idx_eq, Nat.add_comm])
  cases p with
  | false => exact gives s _ _ false h7 hm rfl hv
  | true => exact gives s _ _ false h7 hm rfl ((view_popTag _ (wf_setQnan hw _)).trans (congrArg pop hv))

/-- **C114**: with invalid operation masked and no exception pending, an instruction that misses an operand or a place for its result completes
with the indefinite value in place of the result, pops what it pops, and records invalid operation (bit 0) and stack fault (bit 6), with
C1 (bit 9) telling overflow from underflow, and without raising an exception.  Missing: FLD of an empty register, arithmetic with a destination
other than ST(0) or with a pop, and FXCH with one empty register, which the emulator gets wrong (`C114_fld_violation`,
`C114_arith_violation`, `C114_fxch_violation`). -/
theorem C114_masked_partial (s : St) (op : Op) (hw : Wf s) (hp : NoPending s) (henc : Encodable op) (hm : s.fctrl.getLsbD 0 = true)
    (hf : Underflow (view s) op ∨ Overflow (view s) op) (hh : Handled (view s) op) :
    let t := step s op
    view t = maskedEffect op (view s) ∧
    t.fstatus.getLsbD 0 = true ∧ t.fstatus.getLsbD 6 = true ∧ t.fstatus.getLsbD 7 = false ∧ t.fctrl = s.fctrl ∧
    (¬ Overflow (view s) op → t.fstatus.getLsbD 9 = false) ∧ (¬ Underflow (view s) op → t.fstatus.getLsbD 9 = true) := by
  have hmk : masked s = true := (masked_iff0 s).2 hm
  have h7 := nopend7 hp
  have c7 : ∀ m, (clr s m).fstatus.getLsbD 7 = false := by
    intro m
    show (s.fstatus &&& ~~~m).getLsbD 7 = false
    rw [BitVec.getLsbD_and, h7]; rfl
  have fin : ∀ (t : St) (R : Regs) (over : Bool) (s0 : St), Gives t R over s0 → s0.fctrl = s.fctrl → step s op = t → R = maskedEffect op (view s) →
      (¬ Overflow (view s) op → over = false) → (¬ Underflow (view s) op → over = true) →
      let t := step s op
      view t = maskedEffect op (view s) ∧
      t.fstatus.getLsbD 0 = true ∧ t.fstatus.getLsbD 6 = true ∧ t.fstatus.getLsbD 7 = false ∧ t.fctrl = s.fctrl ∧
      (¬ Overflow (view s) op → t.fstatus.getLsbD 9 = false) ∧ (¬ Underflow (view s) op → t.fstatus.getLsbD 9 = true) := by
    intro t R over s0 ⟨g1, g2, g3, g4, g5, g6⟩ hc ht hR ho hu
    dsimp only
    rw [ht]
    exact ⟨g1.trans hR, g2, g3, g5, g6.trans hc, fun h => g4.trans (ho h), fun h => g4.trans (hu h)⟩
  cases op with
  | ldConst v =>
    have ho : Overflow (view s) (.ldConst v) := by
      rcases hf with ⟨i, hi, -⟩ | h
      · simp [needs] at hi
      · exact h
    obtain ⟨e, g⟩ := ovf_masked (clr s 0x200#16) (wf_clr hw _) (c7 _) hmk ho.2
    refine fin _ _ _ _ g rfl ?_ rfl (fun h => absurd ho h) (fun _ => rfl)
    simp only [step, step_go hp, Bool.false_eq_true, if_false, ldConst, e, if_true]
  | ldMem v sw =>
    have ho : Overflow (view s) (.ldMem v sw) := by
      rcases hf with ⟨i, hi, -⟩ | h
      · simp [needs] at hi
      · exact h
    obtain ⟨e, g⟩ := ovf_masked (clr s 0x200#16) (wf_clr hw _) (c7 _) hmk ho.2
    refine fin _ _ _ _ g rfl ?_ rfl (fun h => absurd ho h) (fun _ => rfl)
    simp only [step, step_go hp, Bool.false_eq_true, if_false, ldMem, e, if_true]
  | ldReg i =>
    obtain ⟨e, g⟩ := ovf_masked (clr s 0x200#16) (wf_clr hw _) (c7 _) hmk hh
    refine fin _ _ _ _ g rfl ?_ rfl (fun h => absurd ⟨rfl, hh⟩ h) (fun _ => rfl)
    simp only [step, step_go hp, Bool.false_eq_true, if_false, ldReg, e, if_true]
  | stReg i p =>
    have hu : view s 0 = none := by
      rcases hf with ⟨i, hi, h⟩ | h
      · simp only [needs, List.mem_singleton] at hi; subst hi; exact h
      · simp [Overflow, grows] at h
    obtain ⟨e, g⟩ := unf_masked (clr s 0x200#16) (wf_clr hw _) (c7 _) hmk 0 i (by omega) henc p hu
    refine fin _ _ _ _ g rfl ?_ rfl (fun _ => rfl) (fun h => absurd ⟨0, by simp [needs], hu⟩ h)
    simp only [step, step_go hp, Bool.false_eq_true, if_false, stReg, e, if_true]
  | stMem sw p =>
    have hu : view s 0 = none := by
      rcases hf with ⟨i, hi, h⟩ | h
      · simp only [needs, List.mem_singleton] at hi; subst hi; exact h
      · simp [Overflow, grows] at h
    have he : isEmpty (clr s 0x200#16) 0 = true := (isEmpty_iff s _ 0).2 ((view_none_iff (by omega)).1 hu)
    have hmk' : masked (clr s 0x200#16) = true := hmk
    have g : Gives (stackFault (if p then popTag (clr s 0x200#16) else clr s 0x200#16) (if false then 0x241#16 else 0x41#16)) (popIf p (view s)) false s := by
      cases p with
      | false => exact gives s _ _ false (c7 _) hmk rfl rfl
      | true => exact gives s _ _ false (c7 _) hmk rfl (view_popTag _ (wf_clr hw _))
    refine fin _ _ _ _ g rfl ?_ rfl (fun _ => rfl) (fun h => absurd ⟨0, by simp [needs], hu⟩ h)
    simp only [step, step_go hp, Bool.false_eq_true, if_false, stMem, underflowMem, he, hmk', if_true]
  | arithReg i toI p v sw =>
    obtain ⟨hpf, hi0⟩ := hh
    subst hpf
    have hd : (if toI then i else 0) = 0 := by
      cases toI with
      | false => rfl
      | true => exact hi0 rfl
    have hmem : ∃ k, k ∈ [i, 0] ∧ view s k = none := by
      rcases hf with ⟨k, hk, h⟩ | h
      · simp only [needs, List.mem_cons, List.not_mem_nil, or_false] at hk
        exact ⟨k, by simpa [Or.comm] using hk, h⟩
      · simp [Overflow, grows] at h
    have hR : ∀ R : Regs, R = put (view s) 0 (some indefinite) → R = maskedEffect (.arithReg i toI false v sw) (view s) := by
      intro R h; rw [h]; show _ = popIf false (put _ _ _); rw [hd]; rfl
    have huu : Underflow (view s) (.arithReg i toI false v sw) := by
      obtain ⟨k, hk, h⟩ := hmem
      refine ⟨k, ?_, h⟩
      simp only [List.mem_cons, List.not_mem_nil, or_false] at hk
      simpa [needs, Or.comm] using hk
    by_cases hi : view s i = none
    · obtain ⟨e, g⟩ := unf_masked (clr s 0x200#16) (wf_clr hw _) (c7 _) hmk i 0 henc (by omega) false hi
      refine fin _ _ _ _ g rfl ?_ (hR _ rfl) (fun _ => rfl) (fun h => absurd huu h)
      simp only [step, step_go hp, Bool.false_eq_true, if_false, arithReg, e, if_true]
    · have h0 : view s 0 = none := by
        obtain ⟨k, hk, h⟩ := hmem
        simp only [List.mem_cons, List.not_mem_nil, or_false] at hk
        rcases hk with rfl | rfl
        · exact absurd h hi
        · exact h
      obtain ⟨e, g⟩ := unf_masked (clr s 0x200#16) (wf_clr hw _) (c7 _) hmk 0 0 (by omega) (by omega) false h0
      refine fin _ _ _ _ g rfl ?_ (hR _ rfl) (fun _ => rfl) (fun h => absurd huu h)
      have hn := under_no (s := clr s 0x200#16) henc hi 0 false
      simp only [step, step_go hp, Bool.false_eq_true, if_false, arithReg, hn, e, if_true]
  | arithSt0 v sw trig =>
    have hu : view s 0 = none := by
      rcases hf with ⟨i, hi, h⟩ | h
      · simp only [needs, List.mem_singleton] at hi; subst hi; exact h
      · simp [Overflow, grows] at h
    obtain ⟨e, g⟩ := unf_masked (clr s (if trig then 0x600#16 else 0x200#16)) (wf_clr hw _) (c7 _) hmk 0 0 (by omega) (by omega) false hu
    refine fin _ _ _ _ g rfl ?_ rfl (fun _ => rfl) (fun h => absurd ⟨0, by simp [needs], hu⟩ h)
    simp only [step, step_go hp, Bool.false_eq_true, if_false, arithSt0, e, if_true]
  | fchs v =>
    have hu : view s 0 = none := by
      rcases hf with ⟨i, hi, h⟩ | h
      · simp only [needs, List.mem_singleton] at hi; subst hi; exact h
      · simp [Overflow, grows] at h
    obtain ⟨e, g⟩ := unf_masked s hw h7 hmk 0 0 (by omega) (by omega) false hu
    refine fin _ _ _ _ g rfl ?_ rfl (fun _ => rfl) (fun h => absurd ⟨0, by simp [needs], hu⟩ h)
    simp only [step, step_go hp, Bool.false_eq_true, if_false, fchs, e, if_true]
  | fcom src n sw =>
    have huu : Underflow (view s) (.fcom src n sw) := by
      rcases hf with h | h
      · exact h
      · simp [Overflow, grows] at h
    have he : (isEmpty (clr s 0x200#16) 0 || src.elim false (isEmpty (clr s 0x200#16))) = true := by
      obtain ⟨k, hk, h⟩ := huu
      cases src with
      | none =>
        simp only [needs, List.mem_singleton] at hk; subst hk
        rw [(isEmpty_iff s _ 0).2 ((view_none_iff (by omega)).1 h)]; rfl
      | some i =>
        simp only [needs, List.mem_cons, List.not_mem_nil, or_false] at hk
        rcases hk with rfl | rfl
        · rw [(isEmpty_iff s _ 0).2 ((view_none_iff (by omega)).1 h)]; rfl
        · show (_ || isEmpty _ k) = true
          rw [(isEmpty_iff s _ k).2 ((view_none_iff henc).1 h), Bool.or_true]
    have hw0 : Wf { clr s 0x200#16 with fstatus := (clr s 0x200#16).fstatus ||| 0x4500#16 } := wf_status (wf_clr hw _) _
    have hmp : ∀ (n : Nat) (x : St), (popN n x).fctrl = x.fctrl ∧ (popN n x).fstatus = x.fstatus := by
      intro n
      induction n with
      | zero => intro x; exact ⟨rfl, rfl⟩
      | succ n ih => intro x; rw [popN]; exact ih _
    have hmk' : masked (clr s 0x200#16) = true := hmk
    have g : Gives (stackFault (popN n { clr s 0x200#16 with fstatus := (clr s 0x200#16).fstatus ||| 0x4500#16 }) (if false then 0x241#16 else 0x41#16))
        (popTimes n (view s)) false s := by
      refine gives s _ _ false ?_ ?_ (hmp _ _).1 (view_popTagN n _ hw0)
      · rw [(hmp _ _).2]
        show ((clr s 0x200#16).fstatus ||| 0x4500#16).getLsbD 7 = false
        rw [BitVec.getLsbD_or, c7]; decide
      · rw [masked_iff0, (hmp _ _).1]; exact hm
    refine fin _ _ _ _ g rfl ?_ rfl (fun _ => rfl) (fun h => absurd huu h)
    simp only [step, step_go hp, Bool.false_eq_true, if_false, fcom, faultFcom, he, hmk', if_true]
  | fpatan v sw =>
    have huu : Underflow (view s) (.fpatan v sw) := by
      rcases hf with h | h
      · exact h
      · simp [Overflow, grows] at h
    have he : (isEmpty (clr s 0x200#16) 0 || isEmpty (clr s 0x200#16) 1) = true := by
      obtain ⟨k, hk, h⟩ := huu
      simp only [needs, List.mem_cons, List.not_mem_nil, or_false] at hk
      rcases hk with rfl | rfl
      · rw [(isEmpty_iff s _ 0).2 ((view_none_iff (by omega)).1 h)]; rfl
      · rw [(isEmpty_iff s _ 1).2 ((view_none_iff (by omega)).1 h), Bool.or_true]
    have hmk' : masked (clr s 0x200#16) = true := hmk
    have hv := view_setQnan (clr s 0x200#16) (wf_clr hw _) 1 (by omega) (idx (clr s 0x200#16) 1) (by rw [idx_eq, Nat.add_comm])
    have g := gives s (popTag (setQnan (clr s 0x200#16) (idx (clr s 0x200#16) 1))) (pop (put (view s) 1 (some indefinite))) false (c7 _) hmk rfl
      ((view_popTag _ (wf_setQnan (wf_clr hw _) _)).trans (congrArg pop hv))
    refine fin _ _ _ _ g rfl ?_ rfl (fun _ => rfl) (fun h => absurd huu h)
    simp only [step, step_go hp, Bool.false_eq_true, if_false, fpatan, faultFpatan, he, hmk', if_true]
  | fsincos a b sw =>
    have hmk' : masked (clr s 0x600#16) = true := hmk
    have he : (isEmpty (clr s 0x600#16) 0 || (isEmpty (clr s 0x600#16) 0xFFFFFFFF == false)) = true := by
      rcases hf with ⟨k, hk, h⟩ | h
      · simp only [needs, List.mem_singleton] at hk; subst hk
        rw [(isEmpty_iff s _ 0).2 ((view_none_iff (by omega)).1 h)]; rfl
      · rw [(isEmpty_m1 s _).2 (view7_iff.1 h.2)]; simp
    have hv : view (setQnan (Fpu.push (setQnan (clr s 0x600#16) s.ftop)) (Fpu.push s).ftop) =
        Spec.push (some indefinite) (put (view s) 0 (some indefinite)) := by
      have h1 := view_setQnan (clr s 0x600#16) (wf_clr hw _) 0 (by omega) s.ftop (by have := hw.top; show _ = (s.ftop + 0) % 8; omega)
      exact (view_pushQnan _ (wf_setQnan (wf_clr hw _) _)).trans (congrArg _ h1)
    have g := gives s (setQnan (Fpu.push (setQnan (clr s 0x600#16) s.ftop)) (Fpu.push s).ftop) _ (!isEmpty (clr s 0x600#16) 0) (c7 _) hmk rfl hv
    refine fin _ _ _ _ g rfl ?_ rfl ?_ ?_
    · have e1 : (clr s 0x600#16).ftop = s.ftop := rfl
      have e2 : (Fpu.push (clr s 0x600#16)).ftop = (Fpu.push s).ftop := rfl
      simp only [step, step_go hp, Bool.false_eq_true, if_false, fsincos, faultFsincos, he, hmk', if_true, e1, e2]
      cases isEmpty (clr s 0x600#16) 0 <;> rfl
    · intro h
      have hu : view s 0 = none := by
        rcases hf with ⟨k, hk, h'⟩ | h'
        · simp only [needs, List.mem_singleton] at hk; subst hk; exact h'
        · exact absurd h' h
      rw [(isEmpty_iff s _ 0).2 ((view_none_iff (by omega)).1 hu)]; rfl
    · intro h
      have hn : view s 0 ≠ none := fun h0 => h ⟨0, by simp [needs], h0⟩
      have : isEmpty (clr s 0x600#16) 0 = false := nonempty (s := clr s 0x600#16) (by omega) hn
      rw [this]; rfl
  | fxch i =>
    obtain ⟨h0, hi⟩ := hh
    have e0 : isEmpty (clr s 0x200#16) 0 = true := (isEmpty_iff s _ 0).2 ((view_none_iff (by omega)).1 h0)
    have ei : isEmpty (clr s 0x200#16) i = true := (isEmpty_iff s _ i).2 ((view_none_iff henc).1 hi)
    have hmk' : masked (clr s 0x200#16) = true := hmk
    have e1 : (clr s 0x200#16).ftop = s.ftop := rfl
    have h1 := view_setQnan (clr s 0x200#16) (wf_clr hw _) 0 (by omega) s.ftop (by have := hw.top; show _ = (s.ftop + 0) % 8; omega)
    have h2 := view_setQnan (setQnan (clr s 0x200#16) s.ftop) (wf_setQnan (wf_clr hw _) _) i henc (idx (clr s 0x200#16) i)
      (by rw [idx_eq, Nat.add_comm]; rfl)
    have g := gives s (setQnan (setQnan (clr s 0x200#16) s.ftop) (idx (clr s 0x200#16) i)) _ false (c7 _) hmk rfl h2
    refine fin _ _ _ _ g rfl ?_ ?_ (fun _ => rfl) (fun h => absurd ⟨0, by simp [needs], h0⟩ h)
    · simp only [step, step_go hp, Bool.false_eq_true, if_false, fxch, faultFxch, e0, ei, hmk', if_true, Bool.or_true, e1]
    · rw [h1]
      show _ = put (put (view s) 0 (some ((view s i).getD indefinite))) i (some ((view s 0).getD indefinite))
      rw [h0, hi]; rfl
  | _ =>
    rcases hf with ⟨k, hk, -⟩ | h
    · simp [needs] at hk
    · simp [Overflow, grows] at h

/-- C114: a comparison with an empty register says "unordered" (C0, C2 and C3 set), whether invalid operation is masked or not; it pops
only if it is masked. -/
theorem C114_fcom (s : St) (hw : Wf s) (hp : NoPending s) (src : Option Nat) (n : Nat) (sw : BitVec 16) (henc : Encodable (.fcom src n sw))
    (hu : Underflow (view s) (.fcom src n sw)) :
    let t := step s (.fcom src n sw)
    t.fstatus.getLsbD 8 = true ∧ t.fstatus.getLsbD 10 = true ∧ t.fstatus.getLsbD 14 = true ∧
    view t = popTimes (if s.fctrl.getLsbD 0 then n else 0) (view s) := by
  have he : (isEmpty (clr s 0x200#16) 0 || src.elim false (isEmpty (clr s 0x200#16))) = true := by
    obtain ⟨k, hk, h⟩ := hu
    cases src with
    | none =>
      simp only [needs, List.mem_singleton] at hk; subst hk
      rw [(isEmpty_iff s _ 0).2 ((view_none_iff (by omega)).1 h)]; rfl
    | some i =>
      simp only [needs, List.mem_cons, List.not_mem_nil, or_false] at hk
      rcases hk with rfl | rfl
      · rw [(isEmpty_iff s _ 0).2 ((view_none_iff (by omega)).1 h)]; rfl
      · show (_ || isEmpty _ k) = true
        rw [(isEmpty_iff s _ k).2 ((view_none_iff henc).1 h), Bool.or_true]
  have hw0 : Wf { clr s 0x200#16 with fstatus := (clr s 0x200#16).fstatus ||| 0x4500#16 } := wf_status (wf_clr hw _) _
  have hmp : ∀ (n : Nat) (x : St), (popN n x).fstatus = x.fstatus := by
    intro n
    induction n with
    | zero => intro x; rfl
    | succ n ih => intro x; rw [popN]; exact ih _
  have hfs : ∀ (x : St) (j : Nat), j = 8 ∨ j = 10 ∨ j = 14 → x.fstatus.getLsbD j = true → (stackFault x 0x41#16).fstatus.getLsbD j = true := by
    intro x j hj h
    unfold stackFault
    dsimp only
    rcases hj with rfl | rfl | rfl <;> (repeat' split) <;> simp [h] <;> simp_all
  have h45 : ∀ x : BitVec 16, (x ||| 0x4500#16).getLsbD 8 = true ∧ (x ||| 0x4500#16).getLsbD 10 = true ∧ (x ||| 0x4500#16).getLsbD 14 = true := by
    intro x
    refine ⟨?_, ?_, ?_⟩ <;> rw [BitVec.getLsbD_or] <;> simp
  have hmm : masked (clr s 0x200#16) = s.fctrl.getLsbD 0 := by
    have := masked_iff0 s
    have e : masked (clr s 0x200#16) = masked s := rfl
    rw [e]
    cases h1 : masked s <;> cases h2 : s.fctrl.getLsbD 0 <;> simp_all
  intro t
  have ht : t = stackFault (popN (if s.fctrl.getLsbD 0 then n else 0)
      { clr s 0x200#16 with fstatus := (clr s 0x200#16).fstatus ||| 0x4500#16 }) 0x41#16 := by
    simp only [t, step, step_go hp, Bool.false_eq_true, if_false, fcom, faultFcom, he, hmm, if_true]
    cases s.fctrl.getLsbD 0 <;> rfl
  rw [ht]
  refine ⟨hfs _ 8 (by simp) ?_, hfs _ 10 (by simp) ?_, hfs _ 14 (by simp) ?_, ?_⟩
  · rw [hmp]; exact (h45 _).1
  · rw [hmp]; exact (h45 _).2.1
  · rw [hmp]; exact (h45 _).2.2
  · rw [view_fault]; exact view_popTagN _ _ hw0

/-- C114 fails: FXCH with one of its registers empty does not exchange.  In every state with invalid operation masked, where ST(0) holds a
value and ST(i) is empty, ST(i) becomes the indefinite value and ST(0) stays; the manual's response puts the indefinite value in ST(0)
and the value in ST(i). -/
theorem C114_fxch_violation (s : St) (hw : Wf s) (hp : NoPending s) (hm : s.fctrl.getLsbD 0 = true) (i : Nat) (hi : i < 8) (v : BitVec 80)
    (h0 : view s 0 = some v) (he : view s i = none) :
    view (step s (.fxch i)) = put (view s) i (some indefinite) ∧
    maskedEffect (.fxch i) (view s) = put (put (view s) 0 (some indefinite)) i (some v) ∧
    (v ≠ indefinite → view (step s (.fxch i)) ≠ maskedEffect (.fxch i) (view s)) := by
  have hmk : masked (clr s 0x200#16) = true := (masked_iff0 s).2 hm
  have e0 : isEmpty (clr s 0x200#16) 0 = false := nonempty (s := clr s 0x200#16) (by omega) (by rw [view_clr, h0]; simp)
  have ei : isEmpty (clr s 0x200#16) i = true := (isEmpty_iff s _ i).2 ((view_none_iff hi).1 he)
  have h2 := view_setQnan (clr s 0x200#16) (wf_clr hw _) i hi (idx (clr s 0x200#16) i) (by rw [idx_eq, Nat.add_comm])
  have hi0 : i ≠ 0 := by rintro rfl; rw [h0] at he; cases he
  have a : view (step s (.fxch i)) = put (view s) i (some indefinite) := by
    have : step s (.fxch i) = stackFault (setQnan (clr s 0x200#16) (idx (clr s 0x200#16) i)) 0x41#16 := by
      simp only [step, step_go hp, Bool.false_eq_true, if_false, fxch, faultFxch, e0, ei, hmk, if_true, Bool.false_or]
    rw [this, view_fault]; exact h2
  have b : maskedEffect (.fxch i) (view s) = put (put (view s) 0 (some indefinite)) i (some v) := by
    show put (put (view s) 0 (some ((view s i).getD indefinite))) i (some ((view s 0).getD indefinite)) = _
    rw [h0, he]; rfl
  refine ⟨a, b, fun hv h => hv ?_⟩
  rw [a, b] at h
  have := congrFun h i
  unfold put at this
  simpa using this.symm

/-- C114 fails: FLD of an empty register, with room on the stack, in every such state with invalid operation masked: ST(0) is overwritten with
the indefinite value and nothing is pushed, so the value in ST(0), if any, is lost. -/
theorem C114_fld_violation (s : St) (hw : Wf s) (hp : NoPending s) (hm : s.fctrl.getLsbD 0 = true) (i : Nat) (hi : i < 8)
    (hfree : view s 7 = none) (he : view s i = none) :
    view (step s (.ldReg i)) = put (view s) 0 (some indefinite) ∧ maskedEffect (.ldReg i) (view s) = Spec.push (some indefinite) (view s) ∧
    (view s 0 ≠ none → view (step s (.ldReg i)) ≠ maskedEffect (.ldReg i) (view s)) := by
  have h7 : (clr s 0x200#16).fstatus.getLsbD 7 = false := by
    show (s.fstatus &&& ~~~0x200#16).getLsbD 7 = false
    rw [BitVec.getLsbD_and, nopend7 hp]; rfl
  obtain ⟨e, g, -⟩ := unf_masked (clr s 0x200#16) (wf_clr hw _) h7 ((masked_iff0 s).2 hm) i 0 hi (by omega) false he
  have ho := overflow_no (free7 hfree) 0x200#16
  have hv : view (step s (.ldReg i)) = put (view s) 0 (some indefinite) := by
    have : step s (.ldReg i) = (underflowReg (clr s 0x200#16) i 0 false).1 := by
      simp only [step, step_go hp, Bool.false_eq_true, if_false, ldReg, ho, e, if_true]
    rw [this]; exact g
  refine ⟨hv, rfl, fun h0 h => ?_⟩
  rw [hv] at h
  -- if the stacks agreed, every place would hold what the one above it holds, up to the empty ST(i)
  have hs : ∀ j, j < 7 → j + 1 < 8 → view s (j + 1) = view s j := by
    intro j hj _
    have := congrFun h (j + 1)
    unfold put at this
    rw [if_neg (by omega)] at this
    exact this.trans (if_pos hj)
  have hall : ∀ j, j < 8 → view s j = view s 0 := by
    intro j
    induction j with
    | zero => intro _; rfl
    | succ j ih => intro hj; exact (hs j (by omega) hj).trans (ih (by omega))
  exact h0 ((hall i hi).symm.trans he)

/-- C114 fails: arithmetic with an empty operand, in every such state with invalid operation masked: whatever the destination and whether the
instruction pops, the indefinite value goes to ST(0) and nothing is popped. -/
theorem C114_arith_violation (s : St) (hw : Wf s) (hp : NoPending s) (hm : s.fctrl.getLsbD 0 = true) (i : Nat) (hi : i < 8) (toI p : Bool)
    (v : BitVec 80) (sw : BitVec 16) (he : view s 0 = none ∨ view s i = none) :
    view (step s (.arithReg i toI p v sw)) = put (view s) 0 (some indefinite) ∧
    maskedEffect (.arithReg i toI p v sw) (view s) = popIf p (put (view s) (if toI then i else 0) (some indefinite)) := by
  have h7 : (clr s 0x200#16).fstatus.getLsbD 7 = false := by
    show (s.fstatus &&& ~~~0x200#16).getLsbD 7 = false
    rw [BitVec.getLsbD_and, nopend7 hp]; rfl
  have hmk : masked (clr s 0x200#16) = true := (masked_iff0 s).2 hm
  refine ⟨?_, rfl⟩
  by_cases h : view s i = none
  · obtain ⟨e, g, -⟩ := unf_masked (clr s 0x200#16) (wf_clr hw _) h7 hmk i 0 hi (by omega) false h
    have : step s (.arithReg i toI p v sw) = (underflowReg (clr s 0x200#16) i 0 false).1 := by
      simp only [step, step_go hp, Bool.false_eq_true, if_false, arithReg, e, if_true]
    rw [this]; exact g
  · have h0 : view s 0 = none := he.resolve_right h
    obtain ⟨e, g, -⟩ := unf_masked (clr s 0x200#16) (wf_clr hw _) h7 hmk 0 0 (by omega) (by omega) false h0
    have hn := under_no (s := clr s 0x200#16) hi h 0 false
    have : step s (.arithReg i toI p v sw) = (underflowReg (clr s 0x200#16) 0 0 false).1 := by
      simp only [step, step_go hp, Bool.false_eq_true, if_false, arithReg, hn, e, if_true]
    rw [this]; exact g

-- Cases that meet the hypotheses: the registers of `two` (ST(0) and ST(1) in use, all exceptions masked), FSTP ST(3) after two pops, FXCH ST(5), FLDPI on a full stack.
example : Wf two ∧ NoPending two ∧ two.fctrl.getLsbD 0 = true ∧ view two 0 = some 0#80 ∧ view two 5 = none ∧ (0#80 : BitVec 80) ≠ indefinite :=
  ⟨wf_run wf_init _, by unfold NoPending; decide +kernel, by decide +kernel, by decide +kernel, by decide +kernel, by decide⟩
def emptied : St := run two [.stReg 0 true, .stReg 0 true]
example : Underflow (view emptied) (.stReg 3 true) ∧ emptied.fctrl.getLsbD 0 = true ∧ view (step emptied (.stReg 3 true)) 2 = some indefinite :=
  ⟨⟨0, by simp [needs], by decide +kernel⟩, by decide +kernel, by decide +kernel⟩
example : Underflow (view emptied) (.fxch 5) ∧ Handled (view emptied) (.fxch 5) ∧ view (step emptied (.fxch 5)) 5 = some indefinite :=
  ⟨⟨0, by simp [needs], by decide +kernel⟩, ⟨by decide +kernel, by decide +kernel⟩, by decide +kernel⟩
example : Underflow (view two) (.fcom (some 4) 1 0#16) ∧ view (step two (.fcom (some 4) 1 0#16)) 0 = some 0x3FFF8000000000000000#80 :=
  ⟨⟨4, by simp [needs], by decide +kernel⟩, by decide +kernel⟩
def filled : St := run two (List.replicate 6 (.ldConst 1#80))
example : Overflow (view filled) (.ldConst 2#80) ∧ NoPending filled ∧ view (step filled (.ldConst 2#80)) 0 = some indefinite ∧
    (step filled (.ldConst 2#80)).fstatus.getLsbD 9 = true :=
  ⟨⟨rfl, by decide +kernel⟩, by unfold NoPending; decide +kernel, by decide +kernel, by decide +kernel⟩
example : view two 7 = none ∧ view two 3 = none ∧ view two 0 ≠ none ∧ view (step two (.arithReg 3 true true 1#80 0#16)) 1 = view two 1 ∧ view two 1 ≠ none := by
  decide +kernel

end Verif.Fpu
