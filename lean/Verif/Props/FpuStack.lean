import Verif.Props.Fpu
/-
C29: push and pop on the FPU register stack, stack faults, tags.
-/
namespace Verif.Fpu

/-- No exception pending. -/
def NoPending (s : St) : Prop := s.fstatus &&& 0x80#16 = 0#16

/-- The physical register `ST(i)` names. -/
def st (s : St) (i : Nat) : Nat := (s.ftop + i) % 8

/-- Registers and tags agree except possibly for register `r`. -/
def SameBut (s t : St) (r : Nat) : Prop := ∀ j, j < 8 → j ≠ r → t.fr j = s.fr j ∧ t.tags j = s.tags j

/-- The stack is untouched. -/
def SameStack (s t : St) : Prop := t.ftop = s.ftop ∧ ∀ j, j < 8 → t.fr j = s.fr j ∧ t.tags j = s.tags j

theorem idx_eq (s : St) (i : Nat) : idx s i = (i + s.ftop) % 8 := by
  unfold idx
  omega

theorem idx_top (s : St) (h : s.ftop < 8) : idx s 0 = s.ftop := by rw [idx_eq]; omega

theorem idx_m1 (s : St) : idx s 0xFFFFFFFF = (s.ftop + 7) % 8 := by rw [idx_eq]; omega

theorem step_go {s : St} (h : NoPending s) (op : Op) : (waits op && s.fstatus &&& 0x80#16 != 0#16) = false := by
  have : (s.fstatus &&& 0x80#16 != 0#16) = false := by simp only [bne_eq_false_iff_eq]; exact h
  simp [this]

/-- A load of any kind: the instructions that push a value obtained without a stack fault. -/
theorem pushVal_spec (s : St) (v : BitVec 80) (h : s.ftop < 8) :
    (pushVal s v).ftop = (s.ftop + 7) % 8 ∧ (pushVal s v).fr ((s.ftop + 7) % 8) = v ∧
    (pushVal s v).tags ((s.ftop + 7) % 8) = tagOf v ∧ SameBut s (pushVal s v) ((s.ftop + 7) % 8) ∧
    (pushVal s v).fstatus = s.fstatus ∧ (pushVal s v).fctrl = s.fctrl := by
  have hi : idx (storeSt (push s) 0 v) 0 = (s.ftop + 7) % 8 := by
    rw [idx_top]
    · rfl
    · exact Nat.mod_lt _ (by omega)
  have he : (0 + (push s).ftop) % 8 = (s.ftop + 7) % 8 := by simp [push]
  have hfr : (pushVal s v).fr = set s.fr ((s.ftop + 7) % 8) v := by
    show set s.fr ((0 + (push s).ftop) % 8) v = _
    rw [he]
  have htag : (pushVal s v).tags = set s.tags ((s.ftop + 7) % 8) (tagOf v) := by
    show set s.tags (idx (storeSt (push s) 0 v) 0) (tagOf ((storeSt (push s) 0 v).fr (idx (storeSt (push s) 0 v) 0))) = _
    rw [hi]
    congr 2
    show set s.fr ((0 + (push s).ftop) % 8) v _ = v
    rw [he, set_eq]
  refine ⟨rfl, by rw [hfr, set_eq], by rw [htag, set_eq], ?_, rfl, rfl⟩
  intro j _ hj
  rw [hfr, htag, set_ne _ _ _ _ hj, set_ne _ _ _ _ hj]; exact ⟨rfl, rfl⟩

theorem overflow_no {s : St} (h : s.tags ((s.ftop + 7) % 8) = 3#8) (m : BitVec 16) :
    stackOverflow (clr s m) = (clr s m, false) := by
  have : isEmpty (clr s m) 0xFFFFFFFF = true := by
    simp only [isEmpty, idx_m1, clr, h]; rfl
  unfold stackOverflow
  rw [this]; rfl

/-- C29, push: a load onto a stack whose next register is free moves TOP down by one modulo 8, puts
the value there with its tag, and changes no other register, tag or control bit. -/
theorem C29_push (s : St) (v : BitVec 80) (hw : Wf s) (hp : NoPending s)
    (hfree : s.tags ((s.ftop + 7) % 8) = 3#8) :
    let t := step s (.ldConst v)
    t.ftop = (s.ftop + 7) % 8 ∧ t.fr (st t 0) = v ∧ t.tags (st t 0) = tagOf v ∧ t.tags (st t 0) ≠ 3#8 ∧
    SameBut s t (st t 0) ∧ t.fctrl = s.fctrl ∧ t.fstatus = s.fstatus &&& ~~~0x200#16 := by
  intro t
  have ht : t = pushVal (clr s 0x200#16) v := by
    simp only [t, step, step_go hp, ldConst, overflow_no hfree, Bool.false_eq_true, if_false]
  obtain ⟨h1, h2, h3, h4, h5, h6⟩ := pushVal_spec (clr s 0x200#16) v hw.top
  rw [← ht] at h1 h2 h3 h4 h5 h6
  have htop : t.ftop = (s.ftop + 7) % 8 := h1
  have hst : st t 0 = (s.ftop + 7) % 8 := by unfold st; rw [htop]; omega
  refine ⟨htop, by rw [hst]; exact h2, by rw [hst]; exact h3, ?_, by rw [hst]; exact h4, h6, h5⟩
  rw [hst]
  intro hc
  have := tagOf_lt v
  rw [← show t.tags ((s.ftop + 7) % 8) = tagOf v from h3, hc] at this
  exact absurd this (by decide)

theorem popInstr_spec (s : St) (h : s.ftop < 8) :
    (popInstr s).ftop = (s.ftop + 1) % 8 ∧ (popInstr s).tags s.ftop = 3#8 ∧
    (∀ j, (popInstr s).fr j = s.fr j) ∧ (∀ j, j ≠ s.ftop → (popInstr s).tags j = s.tags j) ∧
    (popInstr s).fstatus = s.fstatus ∧ (popInstr s).fctrl = s.fctrl := by
  have htag : (popInstr s).tags = set s.tags s.ftop 3#8 := by
    show set s.tags (idx s 0) _ = _
    rw [idx_top s h]; rfl
  refine ⟨rfl, by rw [htag, set_eq], fun _ => rfl, ?_, rfl, rfl⟩
  intro j hj; rw [htag, set_ne _ _ _ _ hj]

/-- C29, pop: storing and popping a used register, with no unmasked exception, marks it empty, moves
TOP up by one modulo 8, and changes no register contents and no other tag. -/
theorem C29_pop (s : St) (sw : BitVec 16) (hw : Wf s) (hp : NoPending s) (hused : s.tags s.ftop ≠ 3#8)
    (hm : ~~~s.fctrl &&& sw &&& 0x3F#16 = 0#16) :
    let t := step s (.stMem sw true)
    t.ftop = (s.ftop + 1) % 8 ∧ t.tags s.ftop = 3#8 ∧ (∀ j, t.fr j = s.fr j) ∧
    (∀ j, j ≠ s.ftop → t.tags j = s.tags j) ∧ t.fctrl = s.fctrl := by
  intro t
  have hne : isEmpty (clr s 0x200#16) 0 = false := by
    unfold isEmpty
    rw [idx_top (clr s 0x200#16) hw.top]
    simp only [beq_eq_false_iff_ne]; exact hused
  have hu : underflowMem (clr s 0x200#16) 0 true = (clr s 0x200#16, false) := by
    unfold underflowMem; rw [hne]; rfl
  have hpost : (post (clr s 0x200#16) sw 0x3F#16).2 = false := by
    unfold post Sticky.fpuPost
    simp [clr, hm]
  have ht : t = popInstr (post (clr s 0x200#16) sw 0x3F#16).1 := by
    simp only [t, step, step_go hp, stMem, hu, hpost, Bool.false_eq_true, if_false, if_true]
  obtain ⟨h1, h2, h3, h4, h5, h6⟩ := popInstr_spec (post (clr s 0x200#16) sw 0x3F#16).1 hw.top
  rw [← ht] at h1 h2 h3 h4 h6
  exact ⟨h1, h2, h3, h4, h6⟩

/-- C29: pushing and popping are inverse: TOP and every tag are as before, the popped register held
the pushed value, and no other register changed. -/
theorem C29_push_pop (s : St) (v : BitVec 80) (sw : BitVec 16) (hw : Wf s) (hp : NoPending s)
    (hfree : s.tags ((s.ftop + 7) % 8) = 3#8) (hm : ~~~s.fctrl &&& sw &&& 0x3F#16 = 0#16) :
    let t := step s (.ldConst v)
    let u := step t (.stMem sw true)
    t.fr (st t 0) = v ∧ u.ftop = s.ftop ∧ (∀ j, j < 8 → u.tags j = s.tags j) ∧
    (∀ j, j < 8 → j ≠ st t 0 → u.fr j = s.fr j) := by
  intro t u
  obtain ⟨h1, h2, h3, h4, h5, h6, h7⟩ := C29_push s v hw hp hfree
  have hwt : Wf t := wf_step hw _
  have hpt : NoPending t := by
    unfold NoPending at *
    rw [h7]
    have hb : ∀ x : BitVec 16, (x &&& ~~~0x200#16) &&& 0x80#16 = x &&& 0x80#16 := by intro x; bits16
    rw [hb]; exact hp
  have htop := hw.top
  have hst : st t 0 = t.ftop := by unfold st; have := hwt.top; omega
  have hst' : st (step s (.ldConst v)) 0 = (step s (.ldConst v)).ftop := hst
  obtain ⟨p1, p2, p3, p4, p5⟩ := C29_pop t sw hwt hpt (by rw [← hst]; exact h4) (by rw [h6]; exact hm)
  refine ⟨h2, ?_, ?_, ?_⟩
  · show u.ftop = s.ftop
    rw [p1, h1]; omega
  · intro j hj
    by_cases hjt : j = t.ftop
    · rw [hjt, p2, h1, hfree]
    · rw [p4 j hjt]; exact (h5 j hj (by rw [hst']; exact hjt)).2
  · intro j hj hjt
    rw [p3 j]; exact (h5 j hj hjt).1

/-! ### Stack faults -/

/-- Status after a stack fault: IE and SF set; C1 tells overflow from underflow; ES exactly when the
invalid operation exception is unmasked (or already set); the other bits as before. -/
theorem stackFault_status (s : St) (over : Bool) :
    let f := (stackFault s (if over then 0x241#16 else 0x41#16)).fstatus
    f.getLsbD 0 = true ∧ f.getLsbD 6 = true ∧ f.getLsbD 9 = over ∧
    f.getLsbD 7 = (s.fstatus.getLsbD 7 || !masked s) := by
  intro f
  have hm : masked s = s.fctrl.getLsbD 0 := by
    unfold masked
    cases hc : s.fctrl.getLsbD 0 with
    | true =>
      simp only [bne_iff_ne, ne_eq]
      intro h
      have := congrArg (fun x => x.getLsbD 0) h
      simp at this
      simp at hc
      rw [this] at hc; exact absurd hc (by decide)
    | false =>
      simp only [bne_eq_false_iff_eq]
      apply BitVec.eq_of_getLsbD_eq
      intro i hi
      by_cases h0 : i = 0
      · subst h0; simp at hc; simp [hc]
      · have : (1#16).getLsbD i = false := by rw [BitVec.getLsbD_one]; simp [h0]
        simp [this]
  have hex : ∀ e : BitVec 16, e = 0x41#16 ∨ e = 0x241#16 →
      (((e &&& 0x27F#16) &&& ~~~s.fctrl) &&& 0x3F#16 = 0#16 ↔ s.fctrl.getLsbD 0 = true) := by
    intro e he
    constructor
    · intro h
      have := congrArg (fun x => x.getLsbD 0) h
      rcases he with rfl | rfl <;> simpa using this
    · intro h
      simp at h
      rcases he with rfl | rfl <;> bits16 <;> simp [h]
  rw [hm]
  cases over with
  | true =>
    simp only [f, stackFault, if_true]
    have := hex 0x241#16 (Or.inr rfl)
    cases hc : s.fctrl.getLsbD 0 with
    | true => simp only [if_pos (this.mpr hc)]; simp
    | false =>
      have hn : ¬ ((0x241#16 &&& 0x27F#16) &&& ~~~s.fctrl) &&& 0x3F#16 = 0#16 := fun h => by
        rw [this.mp h] at hc; exact absurd hc (by decide)
      simp only [if_neg hn]; simp
  | false =>
    simp only [f, stackFault, Bool.false_eq_true, if_false]
    have := hex 0x41#16 (Or.inl rfl)
    cases hc : s.fctrl.getLsbD 0 with
    | true => simp only [if_pos (this.mpr hc)]; simp
    | false =>
      have hn : ¬ ((0x41#16 &&& 0x27F#16) &&& ~~~s.fctrl) &&& 0x3F#16 = 0#16 := fun h => by
        rw [this.mp h] at hc; exact absurd hc (by decide)
      simp only [if_neg hn]; simp

/-- C29, overflow: a load when the next register is in use sets IE, SF and C1. If invalid operations
are unmasked, ES is set and the stack is untouched; if masked, TOP moves down, that register becomes
the indefinite value, and nothing else changes. -/
theorem C29_overflow (s : St) (v : BitVec 80) (hw : Wf s) (hp : NoPending s)
    (hfull : s.tags ((s.ftop + 7) % 8) ≠ 3#8) :
    let t := step s (.ldConst v)
    t.fstatus.getLsbD 0 = true ∧ t.fstatus.getLsbD 6 = true ∧ t.fstatus.getLsbD 9 = true ∧
    (masked s = false → t.fstatus.getLsbD 7 = true ∧ SameStack s t) ∧
    (masked s = true → t.fstatus.getLsbD 7 = s.fstatus.getLsbD 7 ∧ t.ftop = (s.ftop + 7) % 8 ∧
      t.fr t.ftop = qnan ∧ t.tags t.ftop = 2#8 ∧ SameBut s t t.ftop) := by
  intro t
  have hne : isEmpty (clr s 0x200#16) 0xFFFFFFFF = false := by
    unfold isEmpty
    rw [idx_m1]
    simp only [beq_eq_false_iff_ne]; exact hfull
  have hmk : masked (clr s 0x200#16) = masked s := rfl
  cases hm : masked s with
  | false =>
    have ht : t = stackFault (clr s 0x200#16) 0x241#16 := by
      simp only [t, step, step_go hp, ldConst, stackOverflow, hne, hmk, hm, Bool.false_eq_true, if_false, if_true]
    obtain ⟨h1, h2, h3, h4⟩ := stackFault_status (clr s 0x200#16) true
    rw [if_pos rfl, ← ht] at h1 h2 h3 h4
    rw [hmk, hm] at h4
    refine ⟨h1, h2, h3, fun _ => ⟨by rw [h4]; simp, ?_⟩, fun h => absurd h (by decide)⟩
    rw [ht]
    exact ⟨rfl, fun j _ => ⟨rfl, rfl⟩⟩
  | true =>
    have ht : t = stackFault (setQnan (push (clr s 0x200#16)) (push (clr s 0x200#16)).ftop) 0x241#16 := by
      simp only [t, step, step_go hp, ldConst, stackOverflow, hne, hmk, hm, Bool.false_eq_true, if_false, if_true]
    obtain ⟨h1, h2, h3, h4⟩ := stackFault_status (setQnan (push (clr s 0x200#16)) (push (clr s 0x200#16)).ftop) true
    rw [if_pos rfl, ← ht] at h1 h2 h3 h4
    have hmm : masked (setQnan (push (clr s 0x200#16)) (push (clr s 0x200#16)).ftop) = true := hm
    rw [hmm] at h4
    have hes : (clr s 0x200#16).fstatus.getLsbD 7 = s.fstatus.getLsbD 7 := by simp [clr]
    refine ⟨h1, h2, h3, fun h => absurd h (by decide), fun _ => ⟨?_, ?_, ?_, ?_, ?_⟩⟩
    · rw [h4]; show ((clr s 0x200#16).fstatus.getLsbD 7 || _) = _; rw [hes]; simp
    · rw [ht]; rfl
    · rw [ht]; exact set_eq _ _ _
    · rw [ht]; exact set_eq _ _ _
    · intro j _ hj
      rw [ht] at hj ⊢
      exact ⟨set_ne _ _ _ _ hj, set_ne _ _ _ _ hj⟩

/-- C29, underflow: a store with pop from an empty register sets IE and SF and clears C1. If invalid
operations are unmasked, ES is set and the stack is untouched; if masked, TOP moves up and no register
or tag changes. -/
theorem C29_underflow (s : St) (sw : BitVec 16) (hw : Wf s) (hp : NoPending s) (hempty : s.tags s.ftop = 3#8) :
    let t := step s (.stMem sw true)
    t.fstatus.getLsbD 0 = true ∧ t.fstatus.getLsbD 6 = true ∧ t.fstatus.getLsbD 9 = false ∧
    (masked s = false → t.fstatus.getLsbD 7 = true ∧ SameStack s t) ∧
    (masked s = true → t.fstatus.getLsbD 7 = s.fstatus.getLsbD 7 ∧ t.ftop = (s.ftop + 1) % 8 ∧
      ∀ j, j < 8 → t.fr j = s.fr j ∧ t.tags j = s.tags j) := by
  intro t
  have he : isEmpty (clr s 0x200#16) 0 = true := by
    unfold isEmpty
    rw [idx_top (clr s 0x200#16) hw.top]
    simp only [beq_iff_eq]; exact hempty
  have hmk : masked (clr s 0x200#16) = masked s := rfl
  cases hm : masked s with
  | false =>
    have ht : t = stackFault (clr s 0x200#16) 0x41#16 := by
      simp only [t, step, step_go hp, stMem, underflowMem, he, hmk, hm, Bool.false_eq_true, if_false, if_true]
    obtain ⟨h1, h2, h3, h4⟩ := stackFault_status (clr s 0x200#16) false
    rw [if_neg (by decide), ← ht] at h1 h2 h3 h4
    rw [hmk, hm] at h4
    refine ⟨h1, h2, h3, fun _ => ⟨by rw [h4]; simp, ?_⟩, fun h => absurd h (by decide)⟩
    rw [ht]
    exact ⟨rfl, fun j _ => ⟨rfl, rfl⟩⟩
  | true =>
    have ht : t = stackFault (popTag (clr s 0x200#16)) 0x41#16 := by
      simp only [t, step, step_go hp, stMem, underflowMem, he, hmk, hm, Bool.false_eq_true, if_false, if_true]
    obtain ⟨h1, h2, h3, h4⟩ := stackFault_status (popTag (clr s 0x200#16)) false
    rw [if_neg (by decide), ← ht] at h1 h2 h3 h4
    have hmm : masked (popTag (clr s 0x200#16)) = true := hm
    rw [hmm] at h4
    have hes : (clr s 0x200#16).fstatus.getLsbD 7 = s.fstatus.getLsbD 7 := by simp [clr]
    refine ⟨h1, h2, h3, fun h => absurd h (by decide), fun _ => ⟨?_, ?_, ?_⟩⟩
    · rw [h4]; show ((clr s 0x200#16).fstatus.getLsbD 7 || _) = _; rw [hes]; simp
    · rw [ht]; rfl
    · intro j _
      rw [ht]
      refine ⟨rfl, ?_⟩
      show set s.tags s.ftop 3#8 j = _
      by_cases hj : j = s.ftop
      · rw [hj, set_eq, hempty]
      · rw [set_ne _ _ _ _ hj]

/-- The instructions whose operands can be missing: a required register of the stack is empty or the
register to be pushed is in use. -/
def Faults (s : St) : Op → Prop
  | .ldConst _ | .ldMem _ _ => s.tags ((s.ftop + 7) % 8) ≠ 3#8
  | .ldReg i => s.tags ((s.ftop + 7) % 8) ≠ 3#8 ∨ s.tags (st s i) = 3#8
  | .stReg _ _ | .stMem _ _ | .arithSt0 _ _ _ | .fchs _ => s.tags (st s 0) = 3#8
  | .arithReg i _ _ _ _ | .fcom (some i) _ _ | .fxch i => s.tags (st s 0) = 3#8 ∨ s.tags (st s i) = 3#8
  | .fcom none _ _ => s.tags (st s 0) = 3#8
  | .fpatan _ _ => s.tags (st s 0) = 3#8 ∨ s.tags (st s 1) = 3#8
  | .fsincos _ _ _ => s.tags (st s 0) = 3#8 ∨ s.tags ((s.ftop + 7) % 8) ≠ 3#8
  | _ => False

theorem isEmpty_iff (s : St) (m : BitVec 16) (i : Nat) : isEmpty (clr s m) i = true ↔ s.tags (st s i) = 3#8 := by
  unfold isEmpty st
  rw [idx_eq, Nat.add_comm]
  simp only [beq_iff_eq]; rfl

theorem isEmpty_iff' (s : St) (i : Nat) : isEmpty s i = true ↔ s.tags (st s i) = 3#8 := by
  unfold isEmpty st
  rw [idx_eq, Nat.add_comm]
  simp only [beq_iff_eq]

theorem isEmpty_m1 (s : St) (m : BitVec 16) : isEmpty (clr s m) 0xFFFFFFFF = false ↔ s.tags ((s.ftop + 7) % 8) ≠ 3#8 := by
  unfold isEmpty
  rw [idx_m1]
  simp only [beq_eq_false_iff_ne]; rfl

/-- C29: with the invalid operation exception unmasked, an instruction that has a stack fault sets IE,
SF and ES and leaves TOP, every register and every tag as they were, for every instruction. -/
theorem C29_unmasked_fault (s : St) (op : Op) (hw : Wf s) (hp : NoPending s) (hm : masked s = false)
    (hf : Faults s op) :
    let t := step s op
    SameStack s t ∧ t.fstatus.getLsbD 0 = true ∧ t.fstatus.getLsbD 6 = true ∧ t.fstatus.getLsbD 7 = true := by
  have key : ∀ (s0 : St) (over : Bool), s0.ftop = s.ftop → (∀ j, j < 8 → s0.fr j = s.fr j ∧ s0.tags j = s.tags j) →
      masked s0 = false →
      let t := stackFault s0 (if over then 0x241#16 else 0x41#16)
      SameStack s t ∧ t.fstatus.getLsbD 0 = true ∧ t.fstatus.getLsbD 6 = true ∧ t.fstatus.getLsbD 7 = true := by
    intro s0 over h1 h2 h3 t
    obtain ⟨a, b, c, d⟩ := stackFault_status s0 over
    refine ⟨⟨h1, h2⟩, a, b, ?_⟩
    rw [d, h3]; simp
  have kc : ∀ m (over : Bool), let t := stackFault (clr s m) (if over then 0x241#16 else 0x41#16)
      SameStack s t ∧ t.fstatus.getLsbD 0 = true ∧ t.fstatus.getLsbD 6 = true ∧ t.fstatus.getLsbD 7 = true :=
    fun m over => key (clr s m) over rfl (fun _ _ => ⟨rfl, rfl⟩) hm
  have hmk : ∀ m, masked (clr s m) = false := fun _ => hm
  have ovf : ∀ m, isEmpty (clr s m) 0xFFFFFFFF = false → stackOverflow (clr s m) = (stackFault (clr s m) 0x241#16, true) := by
    intro m h; unfold stackOverflow; simp only [h, hmk, Bool.false_eq_true, if_false, if_true]
  have unf : ∀ m a b p, isEmpty (clr s m) a = true → underflowReg (clr s m) a b p = (stackFault (clr s m) 0x41#16, true) := by
    intro m a b p h; unfold underflowReg; simp only [h, hmk, Bool.false_eq_true, if_false, if_true]
  have unf0 : ∀ m a b p, isEmpty (clr s m) a = false → underflowReg (clr s m) a b p = (clr s m, false) := by
    intro m a b p h; unfold underflowReg; simp only [h, Bool.false_eq_true, if_false]
  intro t
  cases op with
  | ldConst v =>
    have he := (isEmpty_m1 s 0x200#16).mpr hf
    have ht : t = stackFault (clr s 0x200#16) 0x241#16 := by
      simp only [t, step, step_go hp, ldConst, ovf _ he, Bool.false_eq_true, if_false, if_true]
    rw [ht]; exact kc 0x200#16 true
  | ldMem v sw =>
    have he := (isEmpty_m1 s 0x200#16).mpr hf
    have ht : t = stackFault (clr s 0x200#16) 0x241#16 := by
      simp only [t, step, step_go hp, ldMem, ovf _ he, Bool.false_eq_true, if_false, if_true]
    rw [ht]; exact kc 0x200#16 true
  | ldReg i =>
    by_cases ho : s.tags ((s.ftop + 7) % 8) ≠ 3#8
    · have he := (isEmpty_m1 s 0x200#16).mpr ho
      have ht : t = stackFault (clr s 0x200#16) 0x241#16 := by
        simp only [t, step, step_go hp, ldReg, ovf _ he, Bool.false_eq_true, if_false, if_true]
      rw [ht]; exact kc 0x200#16 true
    · have hu := hf.resolve_left ho
      have he := (isEmpty_iff s 0x200#16 i).mpr hu
      have hno := overflow_no (Classical.not_not.mp ho) 0x200#16
      have ht : t = stackFault (clr s 0x200#16) 0x41#16 := by
        simp only [t, step, step_go hp, ldReg, hno, unf _ _ _ _ he, Bool.false_eq_true, if_false, if_true]
      rw [ht]; exact kc 0x200#16 false
  | stReg i p =>
    have he := (isEmpty_iff s 0x200#16 0).mpr hf
    have ht : t = stackFault (clr s 0x200#16) 0x41#16 := by
      simp only [t, step, step_go hp, stReg, unf _ _ _ _ he, Bool.false_eq_true, if_false, if_true]
    rw [ht]; exact kc 0x200#16 false
  | stMem sw p =>
    have he := (isEmpty_iff s 0x200#16 0).mpr hf
    have ht : t = stackFault (clr s 0x200#16) 0x41#16 := by
      simp only [t, step, step_go hp, stMem, underflowMem, he, hmk, Bool.false_eq_true, if_false, if_true]
    rw [ht]; exact kc 0x200#16 false
  | arithReg i a b v sw =>
    by_cases hi : s.tags (st s i) = 3#8
    · have he := (isEmpty_iff s 0x200#16 i).mpr hi
      have ht : t = stackFault (clr s 0x200#16) 0x41#16 := by
        simp only [t, step, step_go hp, arithReg, unf _ _ _ _ he, Bool.false_eq_true, if_false, if_true]
      rw [ht]; exact kc 0x200#16 false
    · have h0 := hf.resolve_right hi
      have he := (isEmpty_iff s 0x200#16 0).mpr h0
      have hei : isEmpty (clr s 0x200#16) i = false := by
        cases hc : isEmpty (clr s 0x200#16) i with
        | false => rfl
        | true => exact absurd ((isEmpty_iff s 0x200#16 i).mp hc) hi
      have ht : t = stackFault (clr s 0x200#16) 0x41#16 := by
        simp only [t, step, step_go hp, arithReg, unf0 _ _ _ _ hei, unf _ _ _ _ he, Bool.false_eq_true, if_false, if_true]
      rw [ht]; exact kc 0x200#16 false
  | arithSt0 v sw tr =>
    have he := (isEmpty_iff s (if tr then 0x600#16 else 0x200#16) 0).mpr hf
    have ht : t = stackFault (clr s (if tr then 0x600#16 else 0x200#16)) 0x41#16 := by
      simp only [t, step, step_go hp, arithSt0, unf _ _ _ _ he, Bool.false_eq_true, if_false, if_true]
    rw [ht]; exact kc _ false
  | fchs v =>
    have he := (isEmpty_iff' s 0).mpr hf
    have ht : t = stackFault s 0x41#16 := by
      simp only [t, step, step_go hp, fchs, underflowReg, he, hm, Bool.false_eq_true, if_false, if_true]
    rw [ht]; exact key s false rfl (fun _ _ => ⟨rfl, rfl⟩) hm
  | fcom src n sw =>
    have he : (isEmpty (clr s 0x200#16) 0 || src.elim false (isEmpty (clr s 0x200#16))) = true := by
      cases src with
      | none => simp [(isEmpty_iff s 0x200#16 0).mpr hf]
      | some i =>
        rcases hf with h | h
        · simp [(isEmpty_iff s 0x200#16 0).mpr h]
        · simp [(isEmpty_iff s 0x200#16 i).mpr h]
    have ht : t = stackFault { clr s 0x200#16 with fstatus := (clr s 0x200#16).fstatus ||| 0x4500#16 } 0x41#16 := by
      simp only [t, step, step_go hp, fcom, faultFcom, he, hmk, Bool.false_eq_true, if_false, if_true]
    rw [ht]; exact key _ false rfl (fun _ _ => ⟨rfl, rfl⟩) hm
  | fpatan v sw =>
    have he : (isEmpty (clr s 0x200#16) 0 || isEmpty (clr s 0x200#16) 1) = true := by
      rcases hf with h | h
      · simp [(isEmpty_iff s 0x200#16 0).mpr h]
      · simp [(isEmpty_iff s 0x200#16 1).mpr h]
    have ht : t = stackFault (clr s 0x200#16) 0x41#16 := by
      simp only [t, step, step_go hp, fpatan, faultFpatan, he, hmk, Bool.false_eq_true, if_false, if_true]
    rw [ht]; exact kc 0x200#16 false
  | fsincos a b sw =>
    have he : (isEmpty (clr s 0x600#16) 0 || (isEmpty (clr s 0x600#16) 0xFFFFFFFF == false)) = true := by
      rcases hf with h | h
      · simp [(isEmpty_iff s 0x600#16 0).mpr h]
      · simp [(isEmpty_m1 s 0x600#16).mpr h]
    have ht : t = stackFault (clr s 0x600#16) (if (!isEmpty (clr s 0x600#16) 0) = true then 0x241#16 else 0x41#16) := by
      simp only [t, step, step_go hp, fsincos, faultFsincos, he, hmk, Bool.false_eq_true, if_false, if_true]
      cases isEmpty (clr s 0x600#16) 0 <;> rfl
    rw [ht]; exact kc 0x600#16 _
  | fxch i =>
    have he : (isEmpty (clr s 0x200#16) 0 || isEmpty (clr s 0x200#16) i) = true := by
      rcases hf with h | h
      · simp [(isEmpty_iff s 0x200#16 0).mpr h]
      · simp [(isEmpty_iff s 0x200#16 i).mpr h]
    have ht : t = stackFault (clr s 0x200#16) 0x41#16 := by
      simp only [t, step, step_go hp, fxch, faultFxch, he, hmk, Bool.false_eq_true, if_false, if_true]
    rw [ht]; exact kc 0x200#16 false
  | fninit => exact absurd hf id
  | emms => exact absurd hf id
  | fnclex => exact absurd hf id
  | fldcw v => exact absurd hf id
  | setStatus v => exact absurd hf id
  | setTags v => exact absurd hf id

/-- C29: with an exception pending, an instruction of the waiting kind does nothing but report it. -/
theorem C29_pending (s : St) (op : Op) (hp : ¬ NoPending s) (hwt : waits op = true) : step s op = s := by
  unfold step
  have : (s.fstatus &&& 0x80#16 != 0#16) = true := by simp only [bne_iff_ne]; exact hp
  rw [hwt, this]; rfl

/-! ### Masked responses that go wrong -/

/-- Control word with all exceptions masked; ST(0) = 1.0 in register 2, everything else empty. -/
def one : St :=
  { fctrl := 0x37F#16, fstatus := 0#16, ftop := 2, tags := fun i => if i = 2 then 0#8 else 3#8,
    fr := fun i => if i = 2 then 0x3FFF8000000000000000#80 else 0#80 }

/-- C29, violation: FLD ST(3) with ST(3) empty (masked response: push the indefinite value) instead
overwrites ST(0), a register in use that is not an operand, and does not push. -/
theorem C29_fld_empty_violation :
    let t := step one (.ldReg 3)
    Wf one ∧ NoPending one ∧ one.tags (st one 3) = 3#8 ∧ one.fr 2 ≠ qnan ∧
    t.ftop = one.ftop ∧ t.fr 2 = qnan := by
  refine ⟨⟨by decide, ?_⟩, by unfold NoPending; decide, by decide, by decide, by decide +kernel, by decide +kernel⟩
  intro i _; simp only [one]; split <;> decide

/-- C29, violation: FADDP ST(3), ST(0) with ST(3) empty (masked response: the indefinite value to
ST(3), then pop) instead overwrites ST(0) and does not pop. -/
theorem C29_faddp_empty_violation (v : BitVec 80) (sw : BitVec 16) :
    let t := step one (.arithReg 3 true true v sw)
    t.ftop = one.ftop ∧ t.fr 2 = qnan ∧ t.tags (st one 3) = 3#8 :=
  ⟨rfl, rfl, rfl⟩

/-! ### Tags -/

/-- Every register in use carries the tag of its contents. -/
def Coherent (s : St) : Prop := ∀ i, i < 8 → s.tags i = 3#8 ∨ s.tags i = tagOf (s.fr i)

theorem co_status {s : St} (h : Coherent s) (v : BitVec 16) : Coherent { s with fstatus := v } := h
theorem co_stackFault {s : St} (h : Coherent s) (e : BitVec 16) : Coherent (stackFault s e) := h
theorem co_clr {s : St} (h : Coherent s) (m : BitVec 16) : Coherent (clr s m) := h
theorem co_post {s : St} (h : Coherent s) (a b : BitVec 16) : Coherent (post s a b).1 := h
theorem co_push {s : St} (h : Coherent s) : Coherent (push s) := h
theorem co_empty {s : St} (h : Coherent s) (i : Nat) (n : Nat) :
    Coherent { s with tags := set s.tags i 3#8, ftop := n } := by
  intro j hj
  by_cases hji : j = i
  · left; show set s.tags i 3#8 j = _; rw [hji, set_eq]
  · show set s.tags i 3#8 j = _ ∨ set s.tags i 3#8 j = _
    rw [set_ne _ _ _ _ hji]; exact h j hj
theorem co_popTag {s : St} (h : Coherent s) : Coherent (popTag s) := co_empty h _ _
theorem co_popInstr {s : St} (h : Coherent s) : Coherent (popInstr s) := co_empty h _ _
theorem co_popN {s : St} (h : Coherent s) (n : Nat) : Coherent (popN n s) := by
  induction n generalizing s with
  | zero => exact h
  | succ n ih => exact ih (co_popTag h)
theorem co_popInstrN {s : St} (h : Coherent s) (n : Nat) : Coherent (popInstrN n s) := by
  induction n generalizing s with
  | zero => exact h
  | succ n ih => exact ih (co_popInstr h)
/-- Storing a value together with its tag. -/
theorem co_set {s : St} (h : Coherent s) (i : Nat) (v : BitVec 80) (t : BitVec 8) (ht : t = tagOf v) :
    Coherent { s with fr := set s.fr i v, tags := set s.tags i t } := by
  intro j hj
  by_cases hji : j = i
  · right; subst hji
    show set s.tags j t j = tagOf (set s.fr j v j)
    rw [set_eq, set_eq, ht]
  · show set s.tags i t j = _ ∨ set s.tags i t j = tagOf (set s.fr i v j)
    rw [set_ne _ _ _ _ hji, set_ne _ _ _ _ hji]; exact h j hj
theorem co_setQnan {s : St} (h : Coherent s) (i : Nat) : Coherent (setQnan s i) := co_set h i qnan 2#8 (by decide +kernel)
theorem store_tag (s : St) (i : Nat) (v : BitVec 80) :
    updateTag (storeSt s i v) true i =
      { s with fr := set s.fr ((i + s.ftop) % 8) v, tags := set s.tags ((i + s.ftop) % 8) (tagOf v) } := by
  have hi : idx (storeSt s i v) i = (i + s.ftop) % 8 := by rw [idx_eq]; rfl
  unfold updateTag
  rw [hi]
  simp only [storeSt, if_true, set_eq]
theorem co_store {s : St} (h : Coherent s) (i : Nat) (v : BitVec 80) : Coherent (updateTag (storeSt s i v) true i) := by
  rw [store_tag]; exact co_set h _ v _ rfl
theorem co_pushVal {s : St} (h : Coherent s) (v : BitVec 80) : Coherent (pushVal s v) := co_store (co_push h) 0 v

theorem co_stackOverflow {s : St} (h : Coherent s) : Coherent (stackOverflow s).1 := by
  unfold stackOverflow; split
  · apply co_stackFault; split
    · exact co_setQnan (co_push h) _
    · exact h
  · exact h
theorem co_faultFsincos {s : St} (h : Coherent s) : Coherent (faultFsincos s).1 := by
  unfold faultFsincos; split
  · apply co_stackFault; split
    · exact co_setQnan (co_push (co_setQnan h _)) _
    · exact h
  · exact h
theorem co_faultFcom {s : St} (h : Coherent s) (a b : Bool) (n : Nat) : Coherent (faultFcom s a b n).1 := by
  unfold faultFcom; split
  · apply co_stackFault; split
    · exact co_popN (co_status h _) _
    · exact co_status h _
  · exact h
theorem co_underflowReg {s : St} (h : Coherent s) (a b : Nat) (p : Bool) : Coherent (underflowReg s a b p).1 := by
  unfold underflowReg; split
  · apply co_stackFault; split
    · simp only; split
      · exact co_popTag (co_setQnan h _)
      · exact co_setQnan h _
    · exact h
  · exact h
theorem co_underflowMem {s : St} (h : Coherent s) (a : Nat) (p : Bool) : Coherent (underflowMem s a p).1 := by
  unfold underflowMem; split
  · apply co_stackFault; split
    · split
      · exact co_popTag h
      · exact h
    · exact h
  · exact h

/-- The operations after which tags describe contents. -/
def TagSafe : Op → Prop
  | .fpatan _ _ | .fxch _ | .setTags _ => False
  | _ => True

theorem co_step {s : St} (h : Coherent s) (op : Op) (hs : TagSafe op) : Coherent (step s op) := by
  unfold step
  split
  · exact h
  · cases op with
    | ldConst v =>
      simp only [ldConst]; split
      · exact co_stackOverflow (co_clr h _)
      · exact co_pushVal (co_stackOverflow (co_clr h _)) v
    | ldMem v sw =>
      simp only [ldMem]; split
      · exact co_stackOverflow (co_clr h _)
      · split
        · exact co_post (co_stackOverflow (co_clr h _)) _ _
        · exact co_pushVal (co_post (co_stackOverflow (co_clr h _)) _ _) v
    | ldReg i =>
      simp only [ldReg]; split
      · exact co_stackOverflow (co_clr h _)
      · split
        · exact co_underflowReg (co_stackOverflow (co_clr h _)) _ _ _
        · exact co_pushVal (co_underflowReg (co_stackOverflow (co_clr h _)) _ _ _) _
    | stReg i p =>
      have hu := co_underflowReg (co_clr h 0x200#16) 0 i p
      have h1 : Coherent (if i = 0 then (underflowReg (clr s 0x200#16) 0 i p).1 else
          updateTag (storeSt (underflowReg (clr s 0x200#16) 0 i p).1 i (loadSt (underflowReg (clr s 0x200#16) 0 i p).1 0)) true i) := by
        split
        · exact hu
        · exact co_store hu _ _
      simp only [stReg]; split
      · exact hu
      · split
        · exact co_popInstr h1
        · exact h1
    | stMem sw p =>
      simp only [stMem]; split
      · exact co_underflowMem (co_clr h _) _ _
      · split
        · exact co_post (co_underflowMem (co_clr h _) _ _) _ _
        · split
          · exact co_popInstr (co_post (co_underflowMem (co_clr h _) _ _) _ _)
          · exact co_post (co_underflowMem (co_clr h _) _ _) _ _
    | arithReg i t p v sw =>
      have hu := co_underflowReg (co_clr h 0x200#16) i 0 false
      have hw := co_underflowReg hu 0 0 false
      have hp := co_post hw sw 0x3F#16
      simp only [arithReg]; split
      · exact hu
      · split
        · exact hw
        · split
          · exact hp
          · split
            · exact co_popInstr (co_store hp _ _)
            · exact co_store hp _ _
    | arithSt0 v sw t =>
      simp only [arithSt0]
      generalize (if t = true then 0x600#16 else 0x200#16) = mk
      have hu := co_underflowReg (co_clr h mk) 0 0 false
      have hp := co_post hu sw 0x3F#16
      split
      · exact hu
      · split
        · exact hp
        · split
          · exact hp
          · exact co_store hp _ _
    | fchs v =>
      simp only [fchs]; split
      · exact co_underflowReg h _ _ _
      · exact co_store (co_clr (co_underflowReg h _ _ _) _) _ _
    | fcom src n sw =>
      simp only [fcom]; split
      · exact co_faultFcom (co_clr h _) _ _ _
      · split
        · exact co_post (co_faultFcom (co_clr h _) _ _ _) _ _
        · exact co_popInstrN (co_post (co_faultFcom (co_clr h _) _ _ _) _ _) _
    | fpatan v sw => exact absurd hs id
    | fsincos a b sw =>
      have hp := co_post (co_faultFsincos (co_clr h 0x600#16)) sw 0x3F#16
      simp only [fsincos]; split
      · exact co_faultFsincos (co_clr h _)
      · split
        · exact hp
        · split
          · exact hp
          · generalize (post (faultFsincos (clr s 0x600#16)).1 sw 0x3F#16).1 = u at hp ⊢
            -- the sine is stored to the old st0, the cosine to the new one, then both tags
            rw [store_tag]
            intro j hj
            have hne : (0 + (push (storeSt u 0 a)).ftop) % 8 ≠ u.ftop % 8 := by simp only [push, storeSt]; omega
            have hi1 : idx { push (storeSt u 0 a) with
                fr := set (push (storeSt u 0 a)).fr ((0 + (push (storeSt u 0 a)).ftop) % 8) b,
                tags := set (push (storeSt u 0 a)).tags ((0 + (push (storeSt u 0 a)).ftop) % 8) (tagOf b) } 1 = u.ftop % 8 := by
              rw [idx_eq]; simp only [push, storeSt]; omega
            unfold updateTag
            rw [hi1]
            simp only [if_true]
            rw [set_ne _ _ _ _ (Ne.symm hne)]
            have hst : (push (storeSt u 0 a)).fr (u.ftop % 8) = a := by
              show set u.fr ((0 + u.ftop) % 8) a (u.ftop % 8) = a
              rw [Nat.zero_add, set_eq]
            rw [hst]
            by_cases hj1 : j = u.ftop % 8
            · right
              subst hj1
              rw [set_eq, set_ne _ _ _ _ (Ne.symm hne), hst]
            · rw [set_ne _ _ _ _ hj1]
              by_cases hj2 : j = (0 + (push (storeSt u 0 a)).ftop) % 8
              · right; rw [hj2, set_eq, set_eq]
              · rw [set_ne _ _ _ _ hj2, set_ne _ _ _ _ hj2]
                have : (push (storeSt u 0 a)).fr j = u.fr j := by
                  show set u.fr ((0 + u.ftop) % 8) a j = _
                  rw [Nat.zero_add, set_ne _ _ _ _ hj1]
                rw [this]; exact hp j hj
    | fxch i => exact absurd hs id
    | fninit => intro i hi; left; simp [fninit, hi]
    | emms => intro i hi; left; simp [emms, hi]
    | fnclex => exact co_clr h _
    | fldcw v => exact h
    | setStatus v => exact h
    | setTags v => exact absurd hs id

theorem co_init : Coherent init := by
  intro i hi; right
  simp only [init, hi, if_true]; decide +kernel

theorem co_run {s : St} (h : Coherent s) (l : List Op) (hl : ∀ op ∈ l, TagSafe op) : Coherent (run s l) := by
  induction l generalizing s with
  | nil => exact h
  | cons op l ih =>
    exact ih (co_step h op (hl op (by simp))) (fun o ho => hl o (by simp [ho]))

/-- C29: after every history of instructions other than FXCH and FPATAN (and api writes of the tags),
each register is empty or carries the tag of its contents. Missing: FXCH and FPATAN, which break it. -/
theorem C29_tags_partial (l : List Op) (hl : ∀ op ∈ l, TagSafe op) : Coherent (run init l) := co_run co_init l hl

/-- C29, violation: FXCH exchanges the contents of a zero and a non zero register but not their tags. -/
theorem C29_fxch_tags_violation :
    ¬ Coherent (run init [.fninit, .ldConst 0x3FFF8000000000000000#80, .ldConst 0#80, .fxch 1]) := by
  intro h
  exact absurd (h 6 (by omega)) (by decide +kernel)

/-- C29, violation: FPATAN leaves the tag of the overwritten operand on its result. -/
theorem C29_fpatan_tags_violation :
    ¬ Coherent (run init [.fninit, .ldConst 0#80, .ldConst 0x3FFF8000000000000000#80, .fpatan 0x3FFF8000000000000000#80 0#16]) := by
  intro h
  exact absurd (h 7 (by omega)) (by decide +kernel)

-- Non-trivial cases for the hypotheses above.
def two : St := run init [.fninit, .ldConst 0x3FFF8000000000000000#80, .ldConst 0#80]
example : two.ftop = 6 ∧ two.tags ((two.ftop + 7) % 8) = 3#8 ∧ two.tags two.ftop ≠ 3#8 ∧
    ~~~two.fctrl &&& 0x20#16 &&& 0x3F#16 = 0#16 := by decide +kernel
example : NoPending two := by unfold NoPending; decide +kernel
example : Wf two := wf_run wf_init _
example : Faults { two with fctrl := 0x37E#16 } (.ldReg 5) := Or.inr (by decide +kernel)
example : masked { two with fctrl := 0x37E#16 } = false := by decide +kernel
-- after reset the tags say that all registers are in use, so that a load overflows
example : init.tags ((init.ftop + 7) % 8) ≠ 3#8 := by decide +kernel

/-! ### The values the theorems above speak of -/

/-- The tag of a value, from its biased exponent and its significand (SDM vol. 1, 8.1.7 and table 4-3): 1 for zero, 2 for what is not a
normal number (denormals, infinities, NaNs, unsupported encodings), 0 for a normal number. -/
def tagSpec (v : BitVec 80) : BitVec 8 :=
  let e := v.toNat / 2 ^ 64 % 2 ^ 15
  let m := v.toNat % 2 ^ 64
  if e = 0 ∧ m = 0 then 1#8 else if e = 0 ∨ e = 32767 ∨ m < 2 ^ 63 then 2#8 else 0#8

/-- C29: `tagOf` is the architectural tag, `qnan` the real indefinite value and `masked` bit 0 of the control word. -/
theorem C29_values (v : BitVec 80) (s : St) : tagOf v = tagSpec v ∧ qnan = 0xFFFFC000000000000000#80 ∧ masked s = s.fctrl[0] := by
  have he : ∀ k : Nat, k < 65536 → (((v >>> 64).setWidth 16 &&& 0x7FFF#16 = BitVec.ofNat 16 k) ↔ v.toNat / 2 ^ 64 % 2 ^ 15 = k) := by
    intro k hk
    rw [← BitVec.toNat_inj, BitVec.toNat_and, BitVec.toNat_setWidth, BitVec.toNat_ushiftRight, Nat.shiftRight_eq_div_pow,
      show (0x7FFF#16).toNat = 2 ^ 15 - 1 from rfl, Nat.and_two_pow_sub_one_eq_mod, BitVec.toNat_ofNat]
    have := v.isLt
    omega
  have hm : ((v.setWidth 64 : BitVec 64) = 0#64) ↔ v.toNat % 2 ^ 64 = 0 := by
    rw [← BitVec.toNat_inj, BitVec.toNat_setWidth]; rfl
  have ht : ((v.setWidth 64 : BitVec 64) &&& 0x8000000000000000#64 = 0#64) ↔ v.toNat % 2 ^ 64 < 2 ^ 63 := by
    have h1 : ((v.setWidth 64 : BitVec 64) &&& 0x8000000000000000#64 = 0#64) ↔ (v.setWidth 64 : BitVec 64).msb = false := by
      generalize (v.setWidth 64 : BitVec 64) = x
      rw [BitVec.msb_eq_getLsbD_last]
      constructor
      · intro h
        have := congrArg (fun y => y.getLsbD 63) h
        simpa using this
      · intro h
        apply BitVec.eq_of_getLsbD_eq
        intro i hi
        rw [BitVec.getLsbD_and]
        by_cases hi3 : i = 63
        · subst hi3; simpa using h
        · have : ∀ j : Fin 64, j.val ≠ 63 → (0x8000000000000000#64).getLsbD j.val = false := by decide
          rw [this ⟨i, hi⟩ hi3]; simp
    rw [h1, BitVec.msb_eq_decide, BitVec.toNat_setWidth, decide_eq_false_iff_not]
    omega
  refine ⟨?_, rfl, ?_⟩
  · simp only [tagOf, tagSpec, hm, ht, he 0 (by omega), he 0x7FFF (by omega)]
  · unfold masked
    generalize s.fctrl = x
    rw [Bool.eq_iff_iff, bne_iff_ne]
    constructor
    · intro h
      apply Decidable.byContradiction
      intro hx
      apply h
      apply BitVec.eq_of_getLsbD_eq
      intro i hi
      rw [BitVec.getLsbD_and]
      by_cases h0 : i = 0
      · subst h0; simpa using hx
      · have : ∀ j : Fin 16, j.val ≠ 0 → (1#16).getLsbD j.val = false := by decide
        rw [this ⟨i, hi⟩ h0]; simp
    · intro h hx
      have := congrArg (fun y => y.getLsbD 0) hx
      simp [h] at this

/-- C29: EMMS empties the stack, an MMX instruction marks all registers in use; both set TOP to 0 and leave the rest. -/
theorem C29_mmx (s : St) (hp : NoPending s) :
    (step s .emms).ftop = 0 ∧ (∀ i, i < 8 → (step s .emms).tags i = 3#8) ∧
    (step s .emms).fr = s.fr ∧ (step s .emms).fctrl = s.fctrl ∧ (step s .emms).fstatus = s.fstatus ∧
    (toMmx s).ftop = 0 ∧ (∀ i, i < 8 → (toMmx s).tags i = 0#8) ∧
    (toMmx s).fr = s.fr ∧ (toMmx s).fctrl = s.fctrl ∧ (toMmx s).fstatus = s.fstatus := by
  have e : step s .emms = emms s := by
    unfold step
    have : (s.fstatus &&& 0x80#16 != 0#16) = false := by rw [show s.fstatus &&& 0x80#16 = 0#16 from hp]; rfl
    rw [this]; rfl
  rw [e]
  exact ⟨rfl, fun i hi => by simp [emms, hi], rfl, rfl, rfl, rfl, fun i hi => by simp [toMmx, hi], rfl, rfl, rfl⟩

example : NoPending one ∧ (step one .emms).ftop = 0 ∧ one.ftop = 2 := by unfold NoPending; decide +kernel

end Verif.Fpu
