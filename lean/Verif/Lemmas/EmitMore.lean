import Verif.Model.EmitMore
import Verif.Lemmas.EmitX
/-! Lemmas on the code of Model/EmitMore.lean: parity and conditions. -/
namespace Verif.Host
@[simp] theorem wr_cf (h : St) (z : Sz) (r : Reg) (v : BitVec z.bits) : (wr h z r v).cf = h.cf := rfl
@[simp] theorem wr_of (h : St) (z : Sz) (r : Reg) (v : BitVec z.bits) : (wr h z r v).of = h.of := rfl
@[simp] theorem wr_sf (h : St) (z : Sz) (r : Reg) (v : BitVec z.bits) : (wr h z r v).sf = h.sf := rfl
@[simp] theorem setG_cf (h : St) (g : G) : (h.setG g).cf = h.cf := rfl
@[simp] theorem setG_of (h : St) (g : G) : (h.setG g).of = h.of := rfl
@[simp] theorem setG_sf (h : St) (g : G) : (h.setG g).sf = h.sf := rfl
@[simp] theorem setF_cf (h : St) (a b c d : Bool) : (h.setF a b c d).cf = b := rfl
@[simp] theorem setF_of (h : St) (a b c d : Bool) : (h.setF a b c d).of = c := rfl
@[simp] theorem setF_sf (h : St) (a b c d : Bool) : (h.setF a b c d).sf = d := rfl
theorem rd_wr_q (h : St) (z : Sz) (r : Reg) (v : BitVec Sz.q.bits) : rd (wr h .q r v) z r = BitVec.setWidth z.bits v := by
  unfold rd wr St.set put
  simp only [if_true]
theorem wr_d_r (h : St) (r : Reg) (v : BitVec Sz.d.bits) : (wr h .d r v).r r = BitVec.setWidth 64 v := by
  unfold wr St.set put
  simp only [if_true]
end Verif.Host
namespace Verif.Emit
open Host

/-- Symbolic execution, with the instructions of Model/EmitMore.lean. -/
macro "hexec'" "[" ts:Lean.Parser.Tactic.simpLemma,* "]" : tactic =>
  `(tactic| hexec [HC.holds, wr_cf, wr_of, wr_sf, setG_cf, setG_of, setG_sf, setF_cf, setF_of, setF_sf, rd_wr_q, wr_d_r, Bool.false_eq_true, $ts,*])

theorem small (v : BitVec 8) : (BitVec.setWidth 64 (BitVec.setWidth 32 v)).toNat < 256 := by
  rw [BitVec.toNat_setWidth, BitVec.toNat_setWidth]
  have := v.isLt
  omega

theorem parIdx_eq (s : Flags.St) : (BitVec.setWidth 8 (BitVec.setWidth 64 s.aux >>> 8 ^^^ BitVec.setWidth 64 s.res) : BitVec 8) = Flags.parIdx s := by
  unfold Flags.parIdx
  rw [BitVec.xor_comm]
  generalize s.aux = a
  generalize s.res = r
  bits8

/-- ld_pf. -/
theorem pf_run {e : Env} {h : St} (hc : h.r .rcx = e.ctx) :
    ∃ h', run e 0 ([.ldRes .rdx, .ldAux .rbx] ++ ldPf .rax .rdx .rbx) h = .next 0 h' ∧ h'.g = h.g ∧ h'.r .rcx = e.ctx ∧
      rd h' .d .rax = Flags.ldPf h.g.fl := by
  unfold ldPf
  hexec' [hc, rd_wr_d]
  rw [if_pos ⟨trivial, small _⟩]
  refine ⟨_, rfl, ?_⟩
  hexec' [hc, rd_wr_d]
  refine ⟨trivial, trivial, ?_⟩
  unfold Flags.ldPf
  refine congrArg Flags.parity ?_
  have : ∀ v : BitVec 8, BitVec.setWidth 8 (BitVec.setWidth 64 (BitVec.setWidth 32 v)) = v := by intro v; bits8
  exact (this _).trans (parIdx_eq h.g.fl)

theorem or8 (a b : Bool) : (if (((if a = true then 1#8 else 0#8) ||| if b = true then 1#8 else 0#8) == BitVec.setWidth Sz.b.bits 1#64) = true
    then 1#8 else 0#8) = if (((if a = true then 1#32 else 0#32) ||| if b = true then 1#32 else 0#32) == 1#32) = true then 1#8 else 0#8 := by
  cases a <;> cases b <;> decide
theorem and8a (a b : Bool) : (if (((if a = true then 1#8 else 0#8) &&& if (!b) = true then 1#8 else 0#8) == BitVec.setWidth Sz.b.bits 1#64) = true
    then 1#8 else 0#8) = if (((if a = true then 1#32 else 0#32) &&& if b = true then 0#32 else 1#32) == 1#32) = true then 1#8 else 0#8 := by
  cases a <;> cases b <;> decide
theorem and8b (a b : Bool) : (if (((if (!b) = true then 1#8 else 0#8) &&& if a = true then 1#8 else 0#8) == BitVec.setWidth Sz.b.bits 1#64) = true
    then 1#8 else 0#8) = if (((if b = true then 0#32 else 1#32) &&& if a = true then 1#32 else 0#32) == 1#32) = true then 1#8 else 0#8 := by
  cases a <;> cases b <;> decide

/-- The code of a condition leaves it in R8B and changes nothing of the guest. -/
theorem cond_run {e : Env} {h : St} (hc : h.r .rcx = e.ctx) (c : Flags.CC) :
    ∃ h', run e 0 (condCode c) h = .next 0 h' ∧ h'.g = h.g ∧ h'.r .rcx = e.ctx ∧
      rd h' .b .r8 = if Flags.ccTest h.g.fl c then 1#8 else 0#8 := by
  by_cases hp : c = .p ∨ c = .np
  · obtain ⟨h1, r1, g1, c1, v1⟩ := pf_run hc
    rcases hp with rfl | rfl <;> unfold condCode
    · rw [run_append _ r1]
      hexec' [c1]
      refine ⟨_, rfl, ?_⟩
      hexec' [c1, v1]
      exact ⟨g1, trivial, rfl⟩
    · rw [run_append _ r1]
      hexec' [c1]
      refine ⟨_, rfl, ?_⟩
      hexec' [c1, v1]
      exact ⟨g1, trivial, rfl⟩
  · cases c
    case p => exact absurd (Or.inl rfl) hp
    case np => exact absurd (Or.inr rfl) hp
    all_goals unfold condCode
    all_goals (try unfold ldOf)
    all_goals (try unfold ldSf)
    all_goals hexec' [hc]
    all_goals (refine ⟨_, rfl, ?_⟩; hexec' [hc]; refine ⟨trivial, trivial, ?_⟩)
    all_goals first | rfl | exact or8 _ _ | exact and8a _ _ | exact and8b _ _
end Verif.Emit
