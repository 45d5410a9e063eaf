import Verif.Model.EmitJump
import Verif.Lemmas.EmitMore
/-! Lemmas on the code of Model/EmitJump.lean. -/
namespace Verif.Emit
open Host

theorem imm32_val (h : St) (v : BitVec 32) : (imm32 v).val h .d = v := by
  show (v.setWidth 64).setWidth 32 = v
  rw [BitVec.setWidth_setWidth_of_le _ (by decide), BitVec.setWidth_eq]

theorem and32a (a b : Bool) (n j : BitVec 32) : (if (((if a = true then BitVec.setWidth Sz.d.bits 1#64 else BitVec.setWidth Sz.d.bits 0#64) &&&
    if (!b) = true then BitVec.setWidth Sz.d.bits 1#64 else BitVec.setWidth Sz.d.bits 0#64) == BitVec.setWidth Sz.d.bits 1#64) = true then j else n) =
    if (((if a = true then 1#32 else 0#32) &&& if b = true then 0#32 else 1#32) == 1#32) = true then j else n := by
  cases a <;> cases b <;> rfl
theorem and32b (a b : Bool) (n j : BitVec 32) : (if (((if (!b) = true then BitVec.setWidth Sz.d.bits 1#64 else BitVec.setWidth Sz.d.bits 0#64) &&&
    if a = true then BitVec.setWidth Sz.d.bits 1#64 else BitVec.setWidth Sz.d.bits 0#64) == BitVec.setWidth Sz.d.bits 1#64) = true then j else n) =
    if (((if b = true then 0#32 else 1#32) &&& if a = true then 1#32 else 0#32) == 1#32) = true then j else n := by
  cases a <;> cases b <;> rfl

/-- The code of Jcc leaves the new EIP in R9D and changes nothing of the guest. -/
theorem jcc_run {e : Env} {h : St} (hc : h.r .rcx = e.ctx) (n j : BitVec 32) (c : Flags.CC) :
    ∃ h', run e 0 (jccCode n j c) h = .next 0 h' ∧ h'.g = h.g ∧ h'.r .rcx = e.ctx ∧
      rd h' .d .r9 = if Flags.ccTest h.g.fl c then j else n := by
  by_cases hp : c = .p ∨ c = .np
  · obtain ⟨h1, r1, g1, c1, v1⟩ := pf_run hc
    rcases hp with rfl | rfl <;> unfold jccCode
    · rw [run_append _ r1]
      unfold pick
      hexec' [c1, imm32_val]
      refine ⟨_, rfl, ?_⟩
      hexec' [c1, v1]
      exact ⟨g1, trivial, rfl⟩
    · rw [run_append _ r1]
      unfold pick
      hexec' [c1, imm32_val]
      refine ⟨_, rfl, ?_⟩
      hexec' [c1, v1]
      exact ⟨g1, trivial, rfl⟩
  · cases c
    case p => exact absurd (Or.inl rfl) hp
    case np => exact absurd (Or.inr rfl) hp
    all_goals unfold jccCode
    all_goals (try unfold ldCf)
    all_goals (try unfold ldOf)
    all_goals (try unfold ldSf)
    all_goals (try unfold pick)
    all_goals (try unfold pick2)
    all_goals hexec' [hc, imm32_val]
    all_goals (refine ⟨_, rfl, ?_⟩; hexec' [hc]; refine ⟨trivial, trivial, ?_⟩)
    all_goals first | rfl | exact and32a _ _ _ _ | exact and32b _ _ _ _


theorem jcxz_run {e : Env} {h : St} (hc : h.r .rcx = e.ctx) (a32 : Bool) (n j : BitVec 32) :
    ∃ h', run e 0 (jcxzCode a32 n j) h = .next 0 h' ∧ h'.g = h.g ∧ h'.r .rcx = e.ctx ∧
      rd h' .d .r9 = if (if a32 then h.g.gpr 1 else ((h.g.gpr 1).setWidth 16).setWidth 32) = 0#32 then j else n := by
  unfold jcxzCode
  cases a32
  · hexec' [hc, imm32_val]
    refine ⟨_, rfl, ?_⟩
    hexec' [hc]
    refine ⟨trivial, trivial, ?_⟩
    simp only [beq_iff_eq]
    rfl
  · hexec' [hc, imm32_val]
    refine ⟨_, rfl, ?_⟩
    hexec' [hc]
    refine ⟨trivial, trivial, ?_⟩
    simp only [beq_iff_eq]
    rfl

/-- The count after a round of LOOP. -/
def loopCount (a32 : Bool) (g : G) : BitVec 32 := (if a32 then g.gpr 1 else ((g.gpr 1).setWidth 16).setWidth 32) - 1#32
/-- The jump is taken. -/
def loopGoes (k : Near.LoopKind) (a32 : Bool) (g : G) : Bool :=
  loopCount a32 g != 0#32 && (match k with
    | .loop => true
    | .loope => g.fl.res == 0#32
    | .loopne => g.fl.res != 0#32)

theorem loop_run {e : Env} {h : St} (hc : h.r .rcx = e.ctx) (k : Near.LoopKind) (a32 : Bool) :
    ∃ h', run e 0 (loopCode k a32) h = .next (if loopGoes k a32 h.g then 0 else 1) h' ∧ h'.r .rcx = e.ctx ∧
      h'.g = wrG h.g (if a32 then .d else .w) ecx ((loopCount a32 h.g).setWidth _) := by
  have hpre : ∃ h1, run e 0 [if a32 then .ldG .d .rbx ecx else .ldGx false .d .w .rbx ecx, .alu .sub .d .rbx (.imm 1#64),
      .stG (if a32 then .d else .w) ecx .rbx, .test .d .rbx .rbx] h = .next 0 h1 ∧ h1.r .rcx = e.ctx ∧
      h1.g = wrG h.g (if a32 then .d else .w) ecx ((loopCount a32 h.g).setWidth _) ∧ h1.zf = (loopCount a32 h.g == 0#32) := by
    cases a32
    · hexec' [hc]
      refine ⟨_, rfl, ?_⟩
      hexec' [hc]
      refine ⟨trivial, ?_, ?_⟩
      · hexec' [rd_wr_d]; exact congrArg (wrG h.g .w ecx) rfl
      · rw [BitVec.and_self]; rfl
    · hexec' [hc]
      refine ⟨_, rfl, ?_⟩
      hexec' [hc]
      refine ⟨trivial, ?_, ?_⟩
      · exact congrArg (wrG h.g .d ecx) (BitVec.setWidth_eq _).symm
      · rw [BitVec.and_self]; rfl
  obtain ⟨h1, r1, c1, g1, z1⟩ := hpre
  have hfl : h1.g.fl = h.g.fl := by rw [g1]; rfl
  unfold loopCode
  rw [run_append _ r1]
  unfold loopGoes
  cases hz : (loopCount a32 h.g == 0#32) <;> rw [hz] at z1 <;> cases k <;> unfold loopTest
  all_goals hexec' [c1, z1, hfl]
  all_goals have hb : (loopCount a32 h.g != 0#32) = !(loopCount a32 h.g == 0#32) := rfl
  all_goals simp only [hb, hz, Bool.not_true, Bool.not_false, Bool.true_and, Bool.false_and, Bool.false_eq_true, if_true, if_false, BitVec.and_self]
  · exact ⟨h1, rfl, c1, g1⟩
  · exact ⟨_, rfl, c1, g1⟩
  · refine ⟨_, congrArg (Out.next · _) ?_, c1, g1⟩
    show (if (h.g.fl.res == 0#32) = true then 1 else 0) = if (!(h.g.fl.res == 0#32)) = true then 0 else 1
    cases (h.g.fl.res == 0#32) <;> rfl
  · exact ⟨h1, rfl, c1, g1⟩
  · exact ⟨h1, rfl, c1, g1⟩
  · exact ⟨h1, rfl, c1, g1⟩

end Verif.Emit
