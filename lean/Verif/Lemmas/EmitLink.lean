import Verif.Spec.EmitLink
import Verif.Lemmas.EmitMore
import Verif.Lemmas.Bits
/-
The code at the end of a block, piece by piece.
-/
namespace Verif.Emit
open Host Spec

theorem lrun_step (e : Env) (x : Lk) (i : L) (l : List L) (h : Host.St) (r : Ring) :
    lrun e x 0 (i :: l) h r = match lstep e x h r i with | .next k h' r' => lrun e x k l h' r' | o => o := by rw [lrun]; rfl
theorem lrun_skip (e : Env) (x : Lk) (k : Nat) (i : L) (l : List L) (h : Host.St) (r : Ring) : lrun e x (k + 1) (i :: l) h r = lrun e x k l h r := by
  rw [lrun]

/-- Jumping over a list. -/
theorem lrun_over (e : Env) (x : Lk) (m : List L) (h : Host.St) (r : Ring) : ∀ l : List L, lrun e x l.length (l ++ m) h r = lrun e x 0 m h r := by
  intro l
  induction l with
  | nil => rfl
  | cons i l ih => rw [List.length_cons, List.cons_append, lrun_skip]; exact ih

macro "lexec" "[" ts:Lean.Parser.Tactic.simpLemma,* "]" : tactic => `(tactic| hexec' [lrun_step, lrun_skip, lstep, $ts,*])

/-- What is left alone. -/
def LKept (h h' : Host.St) : Prop := h'.r .rcx = h.r .rcx ∧ h'.r .rbx = h.r .rbx ∧ h'.g = h.g

theorem intCode_run (e : Env) (x : Lk) (h : Host.St) (r : Ring) (hc : h.r .rcx = e.ctx) (m : List L) :
    if x.pend &&& (h.g.fl.eflags ||| 0xFFFFFDFF#32) = 0#32 then ∃ h', lrun e x 0 (intCode ++ m) h r = lrun e x 0 m h' r ∧ LKept h h'
    else ∃ h', lrun e x 0 (intCode ++ m) h r = .exitInt h' r ∧ h'.g = h.g := by
  unfold intCode LKept
  have hi : BitVec.setWidth Sz.d.bits 0xFFFFFDFF#64 = 0xFFFFFDFF#32 := rfl
  by_cases hp : x.pend &&& (h.g.fl.eflags ||| 0xFFFFFDFF#32) = 0#32
  · have hp' : (x.pend &&& (h.g.fl.eflags ||| 0xFFFFFDFF#32) == 0) = true := by rw [hp]; rfl
    rw [if_pos hp]
    lexec [hc, rd_wr_d, hi, hp']
    refine ⟨_, rfl, ?_⟩
    lexec [hc]
    exact ⟨trivial, trivial, trivial⟩
  · have hp' : (x.pend &&& (h.g.fl.eflags ||| 0xFFFFFDFF#32) == 0) = false := by
      rw [beq_eq_false_iff_ne]; exact hp
    rw [if_neg hp]
    lexec [hc, rd_wr_d, hi, hp']
    refine ⟨_, rfl, ?_⟩
    lexec []

theorem timer_go (e : Env) (x : Lk) (n : Option Nat) (h : Host.St) (r : Ring) (hc : h.r .rcx = e.ctx) (ht : ¬ Late x) (m : List L) :
    ∃ h', lrun e x 0 (timerCode x n ++ m) h r = lrun e x 0 m h' r ∧ LKept h h' := by
  unfold timerCode LKept
  have hi : BitVec.setWidth Sz.d.bits 0x10#64 = 0x10#32 := rfl
  have hp : (x.timer &&& 0x10#32 == 0) = true := by
    unfold Late at ht; rw [Decidable.not_not.mp ht]; rfl
  cases n
  all_goals
    lexec [hc, rd_wr_d, hi, hp]
    refine ⟨_, rfl, ?_⟩
    lexec [hc]
    exact ⟨trivial, trivial, trivial⟩

theorem timer_back (e : Env) (x : Lk) (h : Host.St) (r : Ring) (hc : h.r .rcx = e.ctx) (ht : Late x) (m : List L) :
    ∃ h', lrun e x 0 (timerCode x none ++ m) h r = .back h' r ∧ h'.g = h.g ∧ h'.r .rax = 0#64 := by
  unfold timerCode
  have hi : BitVec.setWidth Sz.d.bits 0x10#64 = 0x10#32 := rfl
  have hp : (x.timer &&& 0x10#32 == 0) = false := by rw [beq_eq_false_iff_ne]; exact ht
  lexec [hc, rd_wr_d, hi, hp]
  refine ⟨_, rfl, ?_⟩
  lexec []
  exact ⟨trivial, trivial⟩

theorem lk_wr_q (h : Host.St) (d : Reg) (v : BitVec Sz.q.bits) : (wr h .q d v).r d = v := by
  unfold wr Host.St.set put
  exact if_pos rfl

theorem rd_set_q (h : Host.St) (d : Reg) (v : BitVec 64) : rd (h.set d v) .q d = v := by
  unfold rd Host.St.set
  dsimp only
  rw [if_pos rfl]
  exact BitVec.setWidth_eq v

theorem timer_label (e : Env) (x : Lk) (n : Nat) (h : Host.St) (r : Ring) (hc : h.r .rcx = e.ctx) (ht : Late x) (m : List L) :
    ∃ h', lrun e x 0 (timerCode x (some n) ++ m) h r = lrun e x n m h' r ∧ LKept h h' ∧ h'.r .rax = hm64 x.m x.exitAt := by
  unfold timerCode LKept
  have hi : BitVec.setWidth Sz.d.bits 0x10#64 = 0x10#32 := rfl
  have hp : (x.timer &&& 0x10#32 == 0) = false := by rw [beq_eq_false_iff_ne]; exact ht
  lexec [hc, rd_wr_d, hi, hp]
  refine ⟨_, rfl, ?_⟩
  lexec [hc, lk_wr_q]
  exact ⟨⟨trivial, trivial, trivial⟩, by rw [BitVec.setWidth_eq]⟩

/-- What the table lookup starts from: the address in EBX, and for `eip` the base of CS in R9. -/
def AtTgt (e : Env) (x : Lk) (h0 : Host.St) (t : Tgt) (h : Host.St) : Prop :=
  h.r .rcx = e.ctx ∧ h.g = h0.g ∧ rd h .d .rbx = target e x h0 t ∧ (t = .eip → h.r .r9 = (e.seg 1).setWidth 64)

theorem tgt_run (e : Env) (x : Lk) (t : Tgt) (h0 h : Host.St) (r : Ring) (hc : h.r .rcx = e.ctx) (hg : h.g = h0.g) (hb : h.r .rbx = h0.r .rbx) (m : List L) :
    ∃ h', lrun e x 0 (t.code ++ m) h r = lrun e x 0 m h' r ∧ AtTgt e x h0 t h' := by
  unfold AtTgt
  cases t
  all_goals
    unfold Tgt.code
    lexec [hc, rd_wr_d]
    refine ⟨_, rfl, ?_⟩
    lexec [hc, hg]
  · exact ⟨trivial, trivial, by rw [BitVec.setWidth_setWidth_of_le _ (by decide), BitVec.setWidth_eq]; rfl, nofun⟩
  · exact ⟨trivial, trivial, rfl, fun _ => trivial⟩
  · exact ⟨trivial, trivial, by unfold rd target; rw [hb], nofun⟩

theorem idx_val (v : BitVec 32) : ((v &&& 0xFFF#32).setWidth 64 + (v &&& 0xFFF#32).setWidth 64 <<< 1) <<< 3 = BitVec.ofNat 64 (24 * (v.toNat % 4096)) := by
  apply BitVec.eq_of_toNat_eq
  have h1 : (v &&& 0xFFF#32).toNat = v.toNat % 4096 := by
    rw [BitVec.toNat_and]; exact Nat.and_two_pow_sub_one_eq_mod _ 12
  rw [BitVec.toNat_shiftLeft, BitVec.toNat_add, BitVec.toNat_shiftLeft, BitVec.toNat_setWidth, h1, BitVec.toNat_ofNat, Nat.shiftLeft_eq, Nat.shiftLeft_eq]
  have := Nat.mod_lt v.toNat (show 0 < 4096 by decide)
  omega

/-- After the index is computed. -/
def AtIdx (e : Env) (x : Lk) (v : BitVec 32) (h0 h : Host.St) : Prop :=
  h.r .rcx = e.ctx ∧ h.g = h0.g ∧ h.r .r8 = e.ctx + x.tbl ∧ h.r .rbx = BitVec.ofNat 64 (24 * (v.toNat % 4096)) ∧ h.r .r9 = h0.r .r9

theorem idxCode_run (e : Env) (x : Lk) (v : BitVec 32) (h : Host.St) (r : Ring) (hc : h.r .rcx = e.ctx) (hv : rd h .d .rbx = v) (m : List L) :
    ∃ h', lrun e x 0 (idxCode ++ m) h r = lrun e x 0 m h' r ∧ AtIdx e x v h h' ∧ rd h' .d .rdx = v := by
  unfold idxCode AtIdx
  have hi : BitVec.setWidth Sz.d.bits 0xFFF#64 = 0xFFF#32 := rfl
  lexec [hc, rd_wr_d, hi, hv]
  refine ⟨_, rfl, ?_⟩
  lexec [hc, lk_wr_q, hv, hi, rd_set_q]
  exact ⟨⟨trivial, trivial, trivial, idx_val v, trivial⟩, trivial⟩

theorem lk_pack (a b : BitVec 32) : b.setWidth 64 ||| (a.setWidth 64 <<< 32) = a ++ b := by
  apply BitVec.eq_of_getLsbD_eq
  intro i hi
  rw [BitVec.getLsbD_or, BitVec.getLsbD_shiftLeft, BitVec.getLsbD_setWidth, BitVec.getLsbD_setWidth, BitVec.getLsbD_append]
  by_cases h : i < 32
  · simp [h, hi]
  · have : b.getLsbD i = false := BitVec.getLsbD_of_ge b i (by omega)
    have h2 : i - 32 < 64 := by omega
    simp [h, hi, this, h2]

/-- With the mode and base of CS in R9. -/
def AtMode (e : Env) (x : Lk) (h0 h : Host.St) : Prop :=
  h.r .rcx = e.ctx ∧ h.g = h0.g ∧ h.r .r8 = h0.r .r8 ∧ h.r .rbx = h0.r .rbx ∧ h.r .rax = h0.r .rax ∧
  h.r .r9 = (Tc.modeOf x.hfl h0.g.fl.eflags ++ e.seg 1 : BitVec 64)

theorem modeCode_run (e : Env) (x : Lk) (t : Tgt) (h : Host.St) (r : Ring) (hc : h.r .rcx = e.ctx) (hb : t = .eip → h.r .r9 = (e.seg 1).setWidth 64)
    (m : List L) : ∃ h', lrun e x 0 (modeCode t ++ m) h r = lrun e x 0 m h' r ∧ AtMode e x h h' := by
  unfold modeCode AtMode
  have hi : BitVec.setWidth Sz.d.bits (BitVec.setWidth 64 Tc.HFLG_CONST) = Tc.HFLG_CONST := rfl
  have hj : BitVec.setWidth Sz.d.bits (BitVec.setWidth 64 Tc.EFLAGS_CONST) = Tc.EFLAGS_CONST := rfl
  cases t
  all_goals
    lexec [hc, rd_wr_d, hi, hj]
    refine ⟨_, rfl, ?_⟩
    lexec [hc, lk_wr_q, hi, hj, rd_set_q, rd_wr_d]
  · exact ⟨trivial, trivial, trivial, trivial, trivial, lk_pack (Tc.modeOf x.hfl h.g.fl.eflags) (e.seg 1)⟩
  · refine ⟨trivial, trivial, trivial, trivial, trivial, ?_⟩
    have h9 : rd h Sz.q Reg.r9 = (e.seg 1).setWidth 64 := by
      unfold rd; rw [hb rfl]; exact BitVec.setWidth_eq _
    rw [h9]
    exact lk_pack (Tc.modeOf x.hfl h.g.fl.eflags) (e.seg 1)
  · exact ⟨trivial, trivial, trivial, trivial, trivial, lk_pack (Tc.modeOf x.hfl h.g.fl.eflags) (e.seg 1)⟩

theorem pickCode_run (e : Env) (x : Lk) (h : Host.St) (r : Ring) (m : List L) :
    ∃ h', lrun e x 0 (pickCode ++ m) h r = lrun e x 0 m h' r ∧ h'.r .rcx = h.r .rcx ∧ h'.g = h.g ∧
      h'.r .rax = if hm64 x.m (h.r .r8 + h.r .rbx + 4#64) = h.r .r9 then hm64 x.m (h.r .r8 + h.r .rbx + 16#64) else h.r .rax := by
  unfold pickCode
  have hq (a : BitVec 64) : hm x.m a .q = hm64 x.m a := rfl
  have h9 : rd h Sz.q Reg.r9 = h.r .r9 := BitVec.setWidth_eq _
  have ha : rd h Sz.q Reg.rax = h.r .rax := BitVec.setWidth_eq _
  by_cases hp : hm64 x.m (h.r .r8 + h.r .rbx + 4#64) = h.r .r9
  · have hp' : (hm64 x.m (h.r .r8 + h.r .rbx + 4#64) == h.r .r9) = true := by rw [hp]; exact beq_self_eq_true _
    lexec [hq, h9, hp']
    refine ⟨_, rfl, ?_⟩
    lexec [hq, h9, hp, lk_wr_q]
    exact ⟨trivial, trivial, trivial⟩
  · have hp' : (hm64 x.m (h.r .r8 + h.r .rbx + 4#64) == h.r .r9) = false := by rw [beq_eq_false_iff_ne]; exact hp
    lexec [hq, h9, hp']
    refine ⟨_, rfl, ?_⟩
    lexec [hq, h9, hp, lk_wr_q, ha]
    exact ⟨trivial, trivial, trivial⟩

theorem hm64_parts (m : HMem) (a : BitVec 64) (x y : BitVec 32) : hm64 m a = x ++ y ↔ hm32 m a = y ∧ hm32 m (a + 4#64) = x := by
  unfold hm64
  generalize hm32 m a = p
  generalize hm32 m (a + 4#64) = q
  constructor
  · intro h
    have h1 := congrArg BitVec.toNat h
    rw [BitVec.toNat_append, BitVec.toNat_append, ← Nat.shiftLeft_add_eq_or_of_lt p.isLt, ← Nat.shiftLeft_add_eq_or_of_lt y.isLt, Nat.shiftLeft_eq, Nat.shiftLeft_eq] at h1
    have := p.isLt
    have := y.isLt
    exact ⟨BitVec.eq_of_toNat_eq (by omega), BitVec.eq_of_toNat_eq (by omega)⟩
  · rintro ⟨rfl, rfl⟩; rfl

/-- The lookup. -/
theorem lookCode_run (e : Env) (x : Lk) (t : Tgt) (h0 h : Host.St) (r : Ring) (ha : AtTgt e x h0 t h) (m : List L) :
    ∃ h', lrun e x 0 (lookCode x t ++ m) h r = lrun e x 0 m h' r ∧ h'.r .rcx = e.ctx ∧ h'.g = h0.g ∧
      Linked e x h0.g.fl.eflags (target e x h0 t) (h'.r .rax) := by
  obtain ⟨hc, hg, hv, h9⟩ := ha
  generalize target e x h0 t = v at hv ⊢
  unfold lookCode
  rw [List.append_assoc, List.append_assoc]
  obtain ⟨h1, e1, ⟨c1, g1, r81, b1, r91⟩, d1⟩ := idxCode_run e x v h r hc hv
    ([.cmpM .d .r8 .rbx 0#64 .rdx, .h (.mov .q .rdx (.imm x.exitAt)), .ldA .rax .rdx, .h (.jne ((modeCode t).length + pickCode.length))] ++ ((modeCode t ++ pickCode) ++ m))
  rw [e1]
  unfold Linked entryAt
  dsimp only
  rw [← b1, ← r81]
  have hq (a : BitVec 64) : hm x.m a .d = hm32 x.m a := rfl
  have h0' : h1.r .r8 + h1.r .rbx + 0#64 = h1.r .r8 + h1.r .rbx := BitVec.add_zero _
  by_cases hp : hm32 x.m (h1.r .r8 + h1.r .rbx) = v
  · have hp' : (hm32 x.m (h1.r .r8 + h1.r .rbx) == v) = true := by rw [hp]; exact beq_self_eq_true _
    have e2 : ∃ h2, lrun e x 0 ([.cmpM .d .r8 .rbx 0#64 .rdx, .h (.mov .q .rdx (.imm x.exitAt)), .ldA .rax .rdx, .h (.jne ((modeCode t).length + pickCode.length))] ++ ((modeCode t ++ pickCode) ++ m)) h1 r =
        lrun e x 0 ((modeCode t ++ pickCode) ++ m) h2 r ∧ h2.r .rcx = e.ctx ∧ h2.g = h1.g ∧ h2.r .r8 = h1.r .r8 ∧ h2.r .rbx = h1.r .rbx ∧ h2.r .r9 = h1.r .r9 ∧
        h2.r .rax = hm64 x.m x.exitAt := by
      lexec [hq, h0', d1, hp', Bool.not_true]
      refine ⟨_, rfl, ?_⟩
      lexec [c1, lk_wr_q]
      exact ⟨trivial, trivial, trivial, trivial, trivial, by rw [BitVec.setWidth_eq]⟩
    obtain ⟨h2, e2, c2, g2, r82, b2, r92, a2⟩ := e2
    obtain ⟨h3, e3, c3, g3, r83, b3, a3, r93⟩ := modeCode_run e x t h2 r c2 (fun z => by rw [r92, r91]; exact h9 z) (pickCode ++ m)
    obtain ⟨h4, e4, c4, g4, a4⟩ := pickCode_run e x h3 r m
    refine ⟨h4, by rw [e2, List.append_assoc, e3, e4], by rw [c4, c3], by rw [g4, g3, g2, g1, hg], ?_⟩
    rw [a4, r83, b3, r93, r82, b2, a3, a2, g2, g1, hg]
    have hx := hm64_parts x.m (h1.r .r8 + h1.r .rbx + 4#64) (Tc.modeOf x.hfl h0.g.fl.eflags) (e.seg 1)
    have h8 : h1.r .r8 + h1.r .rbx + 4#64 + 4#64 = h1.r .r8 + h1.r .rbx + 8#64 := by rw [BitVec.add_assoc]; rfl
    rw [h8] at hx
    by_cases hm : hm64 x.m (h1.r .r8 + h1.r .rbx + 4#64) = (Tc.modeOf x.hfl h0.g.fl.eflags ++ e.seg 1 : BitVec 64)
    · rw [if_pos hm, if_pos ⟨hp, hx.mp hm⟩]
    · rw [if_neg hm, if_neg (fun z => hm (hx.mpr z.2))]
  · have hp' : (hm32 x.m (h1.r .r8 + h1.r .rbx) == v) = false := by rw [beq_eq_false_iff_ne]; exact hp
    have e2 : ∃ h2, lrun e x 0 ([.cmpM .d .r8 .rbx 0#64 .rdx, .h (.mov .q .rdx (.imm x.exitAt)), .ldA .rax .rdx, .h (.jne ((modeCode t).length + pickCode.length))] ++ ((modeCode t ++ pickCode) ++ m)) h1 r =
        lrun e x (modeCode t ++ pickCode).length ((modeCode t ++ pickCode) ++ m) h2 r ∧ h2.r .rcx = e.ctx ∧ h2.g = h1.g ∧
        h2.r .rax = hm64 x.m x.exitAt := by
      rw [List.length_append]
      lexec [hq, h0', d1, hp', Bool.not_false]
      refine ⟨_, rfl, ?_⟩
      lexec [c1, lk_wr_q]
      exact ⟨trivial, trivial, by rw [BitVec.setWidth_eq]⟩
    obtain ⟨h2, e2, c2, g2, a2⟩ := e2
    exact ⟨h2, by rw [e2, lrun_over], c2, by rw [g2, g1, hg], by rw [if_neg (fun z => hp z.1)]; exact a2⟩

theorem rsbPushCode_run (e : Env) (x : Lk) (p : Push) (h : Host.St) (r : Ring) (hc : h.r .rcx = e.ctx) (m : List L) :
    ∃ h', lrun e x 0 (rsbPushCode p ++ m) h r = lrun e x 0 m h' (pushW r p.tc p.off p.pc) ∧ h'.g = h.g ∧ h'.r .rax = h.r .rax := by
  unfold rsbPushCode
  have h1 : BitVec.setWidth Sz.q.bits p.tc = p.tc := BitVec.setWidth_eq _
  have h2 : BitVec.setWidth Sz.q.bits p.off = p.off := BitVec.setWidth_eq _
  have h3 : BitVec.setWidth Sz.d.bits (BitVec.setWidth 64 p.pc) = p.pc := by rw [BitVec.setWidth_setWidth_of_le _ (by decide), BitVec.setWidth_eq]
  have h4 : rd h Sz.q Reg.rax = h.r .rax := BitVec.setWidth_eq _
  lexec [hc, rd_wr_d, lk_wr_q, h1, h2, h3]
  refine ⟨_, rfl, ?_⟩
  lexec [hc, lk_wr_q, h4]
  exact ⟨trivial, trivial⟩

theorem rsbPopCode_run (e : Env) (x : Lk) (h : Host.St) (r : Ring) (hc : h.r .rcx = e.ctx) :
    ∃ h', lrun e x 0 (rsbPopCode x) h r =
      .goto (if (popW e x h.g.fl.eflags r).1 = 0#64 then hm64 x.m x.exitAt else (popW e x h.g.fl.eflags r).1) h' (popW e x h.g.fl.eflags r).2 ∧ h'.g = h.g := by
  unfold rsbPopCode
  have h1 : BitVec.setWidth Sz.q.bits x.exitAt = x.exitAt := BitVec.setWidth_eq _
  have hz (a : BitVec 64) : (a &&& a == 0) = (a == 0) := by rw [BitVec.and_self]
  by_cases hp : (popW e x h.g.fl.eflags r).1 = 0#64
  · have hp' : ((popW e x h.g.fl.eflags r).1 == 0) = true := by rw [hp]; rfl
    lexec [hc, rd_set_q, lk_wr_q, h1, hz, hp', hp]
    refine ⟨_, rfl, ?_⟩
    lexec []
  · have hp' : ((popW e x h.g.fl.eflags r).1 == 0) = false := by rw [beq_eq_false_iff_ne]; exact hp
    lexec [hc, rd_set_q, lk_wr_q, h1, hz, hp', hp]
    refine ⟨_, rfl, ?_⟩
    lexec []

end Verif.Emit
