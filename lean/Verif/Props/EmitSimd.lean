import Verif.Lemmas.EmitSimd
import Verif.Props.Emit
/-
C107: the code of SSE and MMX instructions does what the instructions do.
-/
namespace Verif.Simd
open Host Bits

/-- Example environment: additions and multiplications of the lanes as integers, raising the inexact flag if the result is odd; RCPPS and RSQRTPS keep the operand. -/
def exV : VEnv := ⟨Emit.exEnv, 0x40#64, 0x7000#64, fun _ _ => 0xDEAD#128, fun o a b _ => let r := match o with | .mul => a * b | .sub => a - b | .add => a + b | _ => b
  (r, if r.getLsbD 0 ∧ (o = .mul ∨ o = .add ∨ o = .sub) then 0x20#6 else 0#6), fun a _ => (a >>> 1, if a.getLsbD 0 then 0x20#6 else 0#6)⟩

/-- Example state: lanes 1, 2, 3, 4 and 5, 6, 7, 8 in the first registers. -/
def exS (mxcsr : BitVec 32) (fsw : BitVec 16) : S :=
  ⟨{ Emit.exSt with g := { Emit.exSt.g with mem := fun a => a.setWidth 8 } }, fun _ => 0xBAD#128, 0x1FA0#32,
    ⟨fun i => if i = 0 then 0x00000004000000030000000200000001#128 else if i = 1 then 0x00000008000000070000000600000005#128 else 0#128,
      fun i => BitVec.ofNat 64 (0x100 + i.val), fun _ => 0x4000#16, fun _ => 3#8, 0x3800#16, fsw, mxcsr, 0x1F80#32⟩⟩

/-- What a run leaves: how it ends, two registers, MXCSR, a word of memory; an MMX register. -/
def exSeen (o : Out) : List Nat :=
  match o with
  | .next k s => [k, (s.v.xmm 0).toNat, (s.v.xmm 1).toNat, s.v.mxcsr.toNat, Guest.load s.h.g.mem 0x2000#32 16, (s.v.lo 1).toNat, (s.v.tag 0).toNat, s.mx.toNat]
  | .stop y _ v _ => [match y with | .pf => 14 | .gp => 13 | .mf => 16 | .xf => 19 | .ud => 6, (v.xmm 0).toNat, v.mxcsr.toNat]
  | .stuck => []

example : (exS 0x1F80#32 0#16).h.r .rcx = exV.e.ctx ∧ (exS 0x1F80#32 0#16).v.shadow &&& 0x3F#32 = 0#32 := by decide

/-- MOVAPS and MOVUPS to a register (C107). -/
theorem C107_movaps_load (w : VEnv) (al : Bool) (dst : Fin 8) (rm : Rm) (s : S) (hc : s.h.r .rcx = w.e.ctx) :
    Spec.Does w (movapsLd w al dst rm) s (Spec.read128 w al s rm fun q => .done s.h.g (Spec.withX s.v dst q)) := by
  unfold movapsLd
  cases rm with
  | reg r =>
    unfold Spec.Does Spec.read128
    vexec [hc]
    exact ⟨_, rfl, hc, rfl, rfl, rfl⟩
  | mem a =>
    apply mem_does
    intro s' q h1 h2 h3 h4 h5 h6
    unfold Spec.Does
    vexec [h1, h2, locAt_fr w s' q h3]
    refine ⟨_, rfl, h1, h4, ?_, rfl⟩
    dsimp only
    rw [h5]; rfl
example : exSeen (run exV 0 (movapsLd exV true 0 (.mem (Emit.exEa 0x2010#32))) (exS 0x1F80#32 0#16)) = [0, 41362427191743139026751447860679676176, 633825300243241909290088267781, 8064, 20011376718272490338853433276725592320, 257, 3, 8096] := by decide +kernel
example : exSeen (run exV 0 (movapsLd exV true 0 (.mem (Emit.exEa 0x2011#32))) (exS 0x1F80#32 0#16)) = [13, 316912650112397582603894390785, 8064] := by decide +kernel
example : exSeen (run exV 0 (movapsLd exV false 0 (.mem (Emit.exEa 0x2011#32))) (exS 0x1F80#32 0#16)) = [0, 42696867846335054569745073772176806417, 633825300243241909290088267781, 8064, 20011376718272490338853433276725592320, 257, 3, 8096] := by decide +kernel

/-- MOVAPS, MOVUPS and MOVNTPS to memory or a register (C107). -/
theorem C107_movaps_store (w : VEnv) (al : Bool) (src : Fin 8) (rm : Rm) (s : S) (hc : s.h.r .rcx = w.e.ctx) :
    Spec.Does w (movapsSt al src rm) s (Spec.write128 w al s rm (s.v.xmm src)) := by
  unfold movapsSt Spec.write128
  cases rm with
  | reg r =>
    unfold Spec.Does
    vexec [hc]
    exact ⟨_, rfl, hc, rfl, rfl, rfl⟩
  | mem a =>
    dsimp only
    by_cases h1 : al = true ∧ a.lin.toNat % 16 ≠ 0
    · rw [if_pos h1]
      obtain ⟨h1, h16⟩ := h1
      subst h1
      have hz : (a.lin &&& BitVec.setWidth Sz.d.bits 15#64 == 0) = false := beq_eq_false_iff_ne.2 fun h => h16 ((align_val _).1 h)
      unfold Spec.Does alignCode
      vexec [rd_wr_d, hz]
    · rw [if_neg h1]
      by_cases h2 : w.e.ok a.lin 16 true = true
      · rw [if_pos h2]
        cases al with
        | false =>
          unfold Spec.Does
          vexec [hc, at_ctx, h2, rd_wr_d]
          refine ⟨_, rfl, ?_, rfl, rfl, rfl⟩
          hexec' []
        | true =>
          have h16 : a.lin.toNat % 16 = 0 := by by_cases h : a.lin.toNat % 16 = 0; exact h; exact absurd ⟨rfl, h⟩ h1
          have hz : (a.lin &&& BitVec.setWidth Sz.d.bits 15#64 == 0) = true := beq_iff_eq.2 ((align_val _).2 h16)
          unfold Spec.Does alignCode
          vexec [hc, at_ctx, h2, rd_wr_d, hz]
          refine ⟨_, rfl, ?_, rfl, rfl, rfl⟩
          hexec' []
      · rw [if_neg h2]
        cases al with
        | false =>
          unfold Spec.Does
          vexec [hc, at_ctx, h2, rd_wr_d]
        | true =>
          have h16 : a.lin.toNat % 16 = 0 := by by_cases h : a.lin.toNat % 16 = 0; exact h; exact absurd ⟨rfl, h⟩ h1
          have hz : (a.lin &&& BitVec.setWidth Sz.d.bits 15#64 == 0) = true := beq_iff_eq.2 ((align_val _).2 h16)
          unfold Spec.Does alignCode
          vexec [hc, at_ctx, h2, rd_wr_d, hz]
example : exSeen (run exV 0 (movapsSt true 1 (.mem (Emit.exEa 0x2000#32))) (exS 0x1F80#32 0#16)) = [0, 316912650112397582603894390785, 633825300243241909290088267781, 8064, 633825300243241909290088267781, 257, 3, 8096] := by decide +kernel
example : exSeen (run exV 0 (movapsSt true 1 (.mem (Emit.exEa 0x4000#32))) (exS 0x1F80#32 0#16)) = [14, 316912650112397582603894390785, 8064] := by decide +kernel

/-- XORPS (C107). -/
theorem C107_xor (w : VEnv) (dst : Fin 8) (rm : Rm) (s : S) (hc : s.h.r .rcx = w.e.ctx) :
    Spec.Does w (xorCode w dst rm) s (Spec.read128 w true s rm fun q => .done s.h.g (Spec.withX s.v dst (s.v.xmm dst ^^^ q))) := by
  unfold xorCode
  cases rm with
  | reg r =>
    unfold Spec.Does Spec.read128
    vexec [hc]
    refine ⟨_, rfl, hc, rfl, ?_, rfl⟩
    rfl
  | mem a =>
    apply mem_does
    intro s' q h1 h2 h3 h4 h5 h6
    unfold Spec.Does
    vexec [h1, h2, locAt_mk w _ _ _ _ q h3]
    refine ⟨_, rfl, h1, h4, ?_, rfl⟩
    dsimp only
    rw [h5]; rfl
example : exSeen (run exV 0 (xorCode exV 0 (.reg 1)) (exS 0x1F80#32 0#16)) = [0, 950737950244959027434545479684, 633825300243241909290088267781, 8064, 20011376718272490338853433276725592320, 257, 3, 8096] := by decide +kernel

/-- SHUFPS (C107). -/
theorem C107_shuffle (w : VEnv) (imm : BitVec 8) (dst : Fin 8) (rm : Rm) (s : S) (hc : s.h.r .rcx = w.e.ctx) :
    Spec.Does w (shufCode w imm dst rm) s (Spec.read128 w true s rm fun q => .done s.h.g (Spec.withX s.v dst (Spec.shuffle imm (s.v.xmm dst) q))) := by
  unfold shufCode
  cases rm with
  | reg r =>
    unfold Spec.Does Spec.read128
    vexec [hc]
    refine ⟨_, rfl, hc, rfl, ?_, rfl⟩
    rw [← shuf_eq]
    rfl
  | mem a =>
    rw [List.append_assoc]
    apply mem_does
    intro s' q h1 h2 h3 h4 h5 h6
    unfold Spec.Does
    vexec [h1, h2, locAt_fr w s' q h3]
    refine ⟨_, rfl, h1, h4, ?_, rfl⟩
    rw [← shuf_eq]
    dsimp only
    rw [h5]; rfl
example : exSeen (run exV 0 (shufCode exV 0x1B#8 0 (.reg 1)) (exS 0x1F80#32 0#16)) = [0, 396140812682002152422861963268, 633825300243241909290088267781, 8064, 20011376718272490338853433276725592320, 257, 3, 8096] := by decide +kernel

/-- UNPCKHPS and UNPCKLPS (C107). -/
theorem C107_unpack (w : VEnv) (high : Bool) (dst : Fin 8) (rm : Rm) (s : S) (hc : s.h.r .rcx = w.e.ctx) :
    Spec.Does w (unpckCode w high dst rm) s (Spec.read128 w true s rm fun q => .done s.h.g (Spec.withX s.v dst (Spec.interleave high (s.v.xmm dst) q))) := by
  unfold unpckCode
  cases rm with
  | reg r =>
    unfold Spec.Does Spec.read128
    vexec [hc]
    refine ⟨_, rfl, hc, rfl, ?_, rfl⟩
    rw [← unpck_eq]
    rfl
  | mem a =>
    rw [List.append_assoc]
    apply mem_does
    intro s' q h1 h2 h3 h4 h5 h6
    unfold Spec.Does
    vexec [h1, h2, locAt_mk w _ _ _ _ q h3]
    refine ⟨_, rfl, h1, h4, ?_, rfl⟩
    rw [← unpck_eq]
    dsimp only
    rw [h5]; rfl
example : exSeen (run exV 0 (unpckCode exV true 0 (.reg 1)) (exS 0x1F80#32 0#16)) = [0, 633825300187901677073254580227, 633825300243241909290088267781, 8064, 20011376718272490338853433276725592320, 257, 3, 8096] := by decide +kernel

/-- MOVLPS and MOVHPS from memory (C107). -/
theorem C107_movh_load (w : VEnv) (high : Bool) (dst : Fin 8) (a : Ea) (s : S) (hc : s.h.r .rcx = w.e.ctx) :
    Spec.Does w (movhLd high dst a) s (Spec.readMem w s .q a fun q => .done s.h.g (Spec.withX s.v dst (Spec.withHalf high (s.v.xmm dst) q))) := by
  unfold movhLd Spec.readMem
  by_cases h : w.e.ok a.lin Sz.q.bytes false = true
  · rw [if_pos h]
    unfold Spec.Does
    vexec [hc, h, at_ctx, rd_wr_d]
    refine ⟨_, rfl, ?_, rfl, ?_, rfl⟩
    · hexec' []
    · rw [← setHalf_eq]
      vexec [wq]
      rfl
  · rw [if_neg h]
    unfold Spec.Does
    vexec [hc, h, rd_wr_d]
example : exSeen (run exV 0 (movhLd true 0 (Emit.exEa 0x2011#32)) (exS 0x1F80#32 0#16)) = [0, 32021342609599730224638907410332778497, 633825300243241909290088267781, 8064, 20011376718272490338853433276725592320, 257, 3, 8096] := by decide +kernel

/-- MOVLPS and MOVHPS to memory (C107). -/
theorem C107_movh_store (w : VEnv) (high : Bool) (src : Fin 8) (a : Ea) (s : S) (hc : s.h.r .rcx = w.e.ctx) :
    Spec.Does w (movhSt high src a) s (Spec.writeMem w s .q a (Spec.halfOf high (s.v.xmm src)) s.v) := by
  unfold movhSt Spec.writeMem
  rw [← half_eq]
  by_cases h : w.e.ok a.lin Sz.q.bytes true = true
  · rw [if_pos h]
    unfold Spec.Does
    vexec [hc, h, at_ctx, rd_wr_d]
    refine ⟨_, rfl, ?_, ?_, rfl, rfl⟩
    · hexec' []
    · vexec [wq, rd]
      rfl
  · rw [if_neg h]
    unfold Spec.Does
    vexec [hc, h, at_ctx, rd_wr_d]
example : exSeen (run exV 0 (movhSt true 1 (Emit.exEa 0x2001#32)) (exS 0x1F80#32 0#16)) = [0, 316912650112397582603894390785, 633825300243241909290088267781, 8064, 20011376718272490190773391960227972864, 257, 3, 8096] := by decide +kernel

/-- MOVSS to a register: the lowest lane, and from memory the others are cleared (C107). -/
theorem C107_movss_load (w : VEnv) (dst : Fin 8) (rm : Rm) (s : S) (hc : s.h.r .rcx = w.e.ctx) :
    Spec.Does w (movssLd dst rm) s (match rm with
      | .reg r => .done s.h.g (Spec.withX s.v dst (Spec.withLow (s.v.xmm dst) (Spec.lane (s.v.xmm r) 0)))
      | .mem a => Spec.readMem w s .d a fun q => .done s.h.g (Spec.withX s.v dst (BitVec.setWidth 128 q))) := by
  unfold movssLd
  cases rm with
  | reg r =>
    dsimp only
    rw [← l0_eq, ← lowLane_eq]
    unfold Spec.Does
    vexec [hc]
    exact ⟨_, rfl, hc, rfl, rfl, rfl⟩
  | mem a =>
    unfold Spec.readMem
    dsimp only
    by_cases h : w.e.ok a.lin Sz.d.bytes false = true
    · rw [if_pos h]
      unfold Spec.Does
      vexec [hc, h, rd_wr_d]
      refine ⟨_, rfl, ?_, ?_, ?_, rfl⟩
      · hexec' []
      · hexec' []
      · vexec [rd_wr_d, wrL]
        rw [setWidth_put32]
        rfl
    · rw [if_neg h]
      unfold Spec.Does
      vexec [hc, h, rd_wr_d]
example : exSeen (run exV 0 (movssLd 0 (.reg 1)) (exS 0x1F80#32 0#16)) = [0, 316912650112397582603894390789, 633825300243241909290088267781, 8064, 20011376718272490338853433276725592320, 257, 3, 8096] := by decide +kernel
example : exSeen (run exV 0 (movssLd 0 (.mem (Emit.exEa 0x2011#32))) (exS 0x1F80#32 0#16)) = [0, 336794129, 633825300243241909290088267781, 8064, 20011376718272490338853433276725592320, 257, 3, 8096] := by decide +kernel

/-- MOVSS from a register (C107). -/
theorem C107_movss_store (w : VEnv) (src : Fin 8) (rm : Rm) (s : S) (hc : s.h.r .rcx = w.e.ctx) :
    Spec.Does w (movssSt src rm) s (match rm with
      | .reg r => .done s.h.g (Spec.withX s.v r (Spec.withLow (s.v.xmm r) (Spec.lane (s.v.xmm src) 0)))
      | .mem a => Spec.writeMem w s .d a (Spec.lane (s.v.xmm src) 0) s.v) := by
  unfold movssSt
  cases rm with
  | reg r =>
    dsimp only
    rw [← l0_eq, ← lowLane_eq]
    unfold Spec.Does
    vexec [hc, rd_wr_d]
    refine ⟨_, rfl, ?_, ?_, ?_, rfl⟩
    · hexec' [hc]
    · hexec' []
    · rfl
  | mem a =>
    unfold Spec.writeMem
    rw [← l0_eq]
    dsimp only
    by_cases h : w.e.ok a.lin Sz.d.bytes true = true
    · rw [if_pos h]
      unfold Spec.Does
      vexec [hc, h, rd_wr_d]
      refine ⟨_, rfl, ?_, ?_, rfl, rfl⟩
      · hexec' []
      · vexec [rd_wr_d]
    · rw [if_neg h]
      unfold Spec.Does
      vexec [hc, h, rd_wr_d]
example : exSeen (run exV 0 (movssSt 1 (.mem (Emit.exEa 0x2004#32))) (exS 0x1F80#32 0#16)) = [0, 316912650112397582603894390785, 633825300243241909290088267781, 8064, 20011376718272490338347335775336661248, 257, 3, 8096] := by decide +kernel

/-- EMMS: all registers empty (C107). -/
theorem C107_emms (w : VEnv) (s : S) (hc : s.h.r .rcx = w.e.ctx) :
    Spec.Does w emmsCode s (Spec.afterMf s (.done s.h.g { s.v with tag := fun _ => 3#8, top := 0#16 })) := by
  unfold emmsCode
  apply mf_does w _ s hc
  intro s' h1 h2 h3 _
  unfold Spec.Does
  vexec [h1]
  refine ⟨_, rfl, h1, h2, ?_, rfl⟩
  dsimp only
  rw [h3]
  congr 1
  funext j
  have hj : j = 0 ∨ j = 1 ∨ j = 2 ∨ j = 3 ∨ j = 4 ∨ j = 5 ∨ j = 6 ∨ j = 7 := by revert j; decide
  rcases hj with rfl | rfl | rfl | rfl | rfl | rfl | rfl | rfl <;> rfl
example : exSeen (run exV 0 (emmsCode) (exS 0x1F80#32 0#16)) = [0, 316912650112397582603894390785, 633825300243241909290088267781, 8064, 20011376718272490338853433276725592320, 257, 3, 8096] := by decide +kernel

/-- MOVQ to an MMX register (C107). -/
theorem C107_movq_load (w : VEnv) (dst : Fin 8) (rm : Rm) (s : S) (hc : s.h.r .rcx = w.e.ctx) :
    Spec.Does w (movqLd dst rm) s (Spec.afterMf s (match rm with
      | .reg r => .done s.h.g (Spec.mmxMode (Spec.withMm s.v dst (s.v.lo r)))
      | .mem a => Spec.readMem w s .q a fun q => .done s.h.g (Spec.mmxMode (Spec.withMm s.v dst q)))) := by
  unfold movqLd toMmx
  apply mf_does w _ s hc
  intro s' h1 h2 h3 _
  cases rm with
  | reg r =>
    unfold Spec.Does
    vexec [h1]
    refine ⟨_, rfl, ?_, ?_, ?_, rfl⟩
    · hexec' [h1]
    · hexec' [h2]
    · dsimp only
      rw [h3]
      rfl
  | mem a =>
    unfold Spec.readMem
    dsimp only
    by_cases h : w.e.ok a.lin Sz.q.bytes false = true
    · rw [if_pos h]
      unfold Spec.Does
      vexec [h1, h, rd_wr_d]
      refine ⟨_, rfl, ?_, ?_, ?_, rfl⟩
      · hexec' []
      · hexec' [h2]
      · rw [← h2, ← h3]
        vexec [wq]
        rfl
    · rw [if_neg h]
      unfold Spec.Does
      vexec [h1, h2, h3, h, rd_wr_d]
example : exSeen (run exV 0 (movqLd 1 (.mem (Emit.exEa 0x2011#32))) (exS 0x1F80#32 0#16)) = [0, 316912650112397582603894390785, 633825300243241909290088267781, 8064, 20011376718272490338853433276725592320, 1735880461161533969, 0, 8096] := by decide +kernel
example : exSeen (run exV 0 (movqLd 1 (.mem (Emit.exEa 0x2011#32))) (exS 0x1F80#32 0x80#16)) = [16, 316912650112397582603894390785, 8064] := by decide +kernel

/-- MOVQ and MOVNTQ from an MMX register (C107). -/
theorem C107_movq_store (w : VEnv) (src : Fin 8) (rm : Rm) (s : S) (hc : s.h.r .rcx = w.e.ctx) :
    Spec.Does w (movqSt src rm) s (Spec.afterMf s (match rm with
      | .reg r => .done s.h.g (Spec.mmxMode (Spec.withMm s.v r (s.v.lo src)))
      | .mem a => Spec.writeMem w s .q a (s.v.lo src) (Spec.mmxMode s.v))) := by
  unfold movqSt toMmx
  apply mf_does w _ s hc
  intro s' h1 h2 h3 _
  cases rm with
  | reg r =>
    unfold Spec.Does
    vexec [h1]
    refine ⟨_, rfl, ?_, ?_, ?_, rfl⟩
    · hexec' [h1]
    · hexec' [h2]
    · dsimp only
      rw [h3]
      rfl
  | mem a =>
    unfold Spec.writeMem
    dsimp only
    by_cases h : w.e.ok a.lin Sz.q.bytes true = true
    · rw [if_pos h]
      unfold Spec.Does
      vexec [h1, h, rd_wr_d]
      refine ⟨_, rfl, ?_, ?_, ?_, rfl⟩
      · hexec' []
      · rw [← h2, ← h3]
        vexec [rd]
        rfl
      · rw [← h3]
        rfl
    · rw [if_neg h]
      unfold Spec.Does
      vexec [h1, h2, h3, h, rd_wr_d]
example : exSeen (run exV 0 (movqSt 1 (.mem (Emit.exEa 0x2008#32))) (exS 0x1F80#32 0#16)) = [0, 316912650112397582603894390785, 633825300243241909290088267781, 8064, 4741319324466268995840, 257, 0, 8096] := by decide +kernel

/-- MULPS, ADDPS and their scalar forms: the operation under the guest's rounding, its flags recorded and an unmasked one reported. Missing: packed memory operands that are not at a multiple of 16
(C107_unaligned_violation), and the other operations (C107_rcp_partial, C107_sub_violation). -/
theorem C107_arith_partial (w : VEnv) (o : Ar) (packed osx : Bool) (dst : Fin 8) (rm : Rm) (s : S) (hc : s.h.r .rcx = w.e.ctx) (ho : o = .mul ∨ o = .add)
    (hs : s.v.shadow &&& 0x3F#32 = 0#32) (ha : ∀ a, rm = .mem a → packed = true → a.lin.toNat % 16 = 0) :
    let f := fun a b => w.fp o a b s.v.shadow
    Spec.Does w (arCode w o packed osx dst rm) s (Spec.operand w packed s rm fun q =>
      Spec.ending osx s (Spec.flags f packed (s.v.xmm dst) q) s.h.g (Spec.withX s.v dst (Spec.lanes f packed (s.v.xmm dst) q))) := by
  intro f
  have hk : o.checked = true := by rcases ho with rfl | rfl <;> rfl
  unfold arCode
  rw [hk, if_pos rfl]
  have key : ∀ s' : S, s'.h.r .rcx = w.e.ctx → s'.h.g = s.h.g → s'.v = s.v → s'.mx = s.mx →
      Spec.Does w (.ldX 0 dst :: (setCtx ++ (.arith o packed 0 1 :: (postCode osx ++ [.stX dst 0, .ldMx 5])))) s'
        (Spec.ending osx s (Spec.flags f packed (s.v.xmm dst) (s'.x 1)) s.h.g (Spec.withX s.v dst (Spec.lanes f packed (s.v.xmm dst) (s'.x 1)))) := by
    intro s' h1 h2 h3 _
    have r1 : ∃ t : S, run w 0 (.ldX 0 dst :: (setCtx ++ (.arith o packed 0 1 :: (postCode osx ++ [.stX dst 0, .ldMx 5])))) s' = run w 0 (postCode osx ++ [.stX dst 0, .ldMx 5]) t ∧
        t.h.r .rcx = w.e.ctx ∧ t.h.g = s.h.g ∧ t.v = s.v ∧ t.x 0 = Spec.lanes f packed (s.v.xmm dst) (s'.x 1) ∧
        t.mx = s.v.shadow ||| BitVec.setWidth 32 (Spec.flags f packed (s.v.xmm dst) (s'.x 1)) ∧ rdL t.h .d 5 = s'.mx := by
      unfold setCtx
      vexec [h1, arith_res]
      refine ⟨_, rfl, ?_, ?_, ?_, ?_, ?_, ?_⟩
      · hexec' [h1]
      · hexec' [h2]
      · exact h3
      · rw [h3]; rfl
      · rw [h3]; rfl
      · exact rdL_d _ _ _
    obtain ⟨t, e, t1, t2, t3, t4, t5, t6⟩ := r1
    have hp := post_run w osx [.stX dst 0, .ldMx 5] t t1
    dsimp only at hp
    rw [t5, sh_fl _ _ hs, t3] at hp
    generalize Spec.flags f packed (s.v.xmm dst) (s'.x 1) = fl at hp t5 ⊢
    unfold Spec.ending
    by_cases hm : ∃ k : Fin 6, fl.getLsbD k.val = true ∧ s.v.mxcsr.getLsbD (7 + k.val) = false
    · rw [if_neg (fun h => (masked_eq _ _).1 h hm)] at hp
      rw [if_pos hm]
      unfold Spec.Does
      rw [e, hp, t2, t6]
      rfl
    · rw [if_pos ((masked_eq _ _).2 hm)] at hp
      rw [if_neg hm]
      obtain ⟨u, e', u1, _, u2, u3, u4, u5⟩ := hp
      unfold Spec.Does
      rw [e, e']
      vexec [u1]
      refine ⟨_, rfl, ?_, ?_, ?_, ?_⟩
      · hexec' [u1]
      · hexec' [u2, t2]
      · rw [u4, u5, t4]; rfl
      · hexec' [u3, t6]
  have := arSrc_does w packed rm s hc _ (fun q => Spec.ending osx s (Spec.flags f packed (s.v.xmm dst) q) s.h.g (Spec.withX s.v dst (Spec.lanes f packed (s.v.xmm dst) q))) key
  unfold Spec.operand
  cases rm with
  | reg r => exact this
  | mem a =>
    cases packed with
    | false => exact this
    | true =>
      have h0 := ha a rfl rfl
      dsimp only at this ⊢
      rw [if_pos rfl] at this ⊢
      unfold Spec.read128 at this ⊢
      dsimp only at this ⊢
      rw [if_neg (by simp)] at this
      rw [if_neg (by simp [h0])]
      exact this
example : exSeen (run exV 0 (arCode exV .mul true true 0 (.reg 1)) (exS 0x1F81#32 0#16)) = [0, 2535301200843840428592846602245, 633825300243241909290088267781, 8096, 20011376718272490338853433276725592320, 257, 3, 8096] := by decide +kernel
example : exSeen (run exV 0 (arCode exV .mul false true 0 (.reg 1)) (exS 0x1F81#32 0#16)) = [0, 316912650112397582603894390789, 633825300243241909290088267781, 8096, 20011376718272490338853433276725592320, 257, 3, 8096] := by decide +kernel
example : exSeen (run exV 0 (arCode exV .mul true true 0 (.reg 1)) (exS 0x0F81#32 0#16)) = [19, 316912650112397582603894390785, 4000] := by decide +kernel

/-- RCPPS, RSQRTPS and their scalar forms, given that they round always the same way and raise no flag. Missing: as for C107_arith_partial. -/
theorem C107_rcp_partial (w : VEnv) (o : Ar) (packed osx : Bool) (dst : Fin 8) (rm : Rm) (s : S) (hc : s.h.r .rcx = w.e.ctx) (ho : o = .rcp ∨ o = .rsqrt)
    (hf : ∀ a b m, w.fp o a b m = ((w.fp o a b s.v.shadow).1, 0#6)) (ha : ∀ a, rm = .mem a → packed = true → a.lin.toNat % 16 = 0) :
    Spec.Does w (arCode w o packed osx dst rm) s (Spec.operand w packed s rm fun q =>
      .done s.h.g (Spec.withX s.v dst (Spec.lanes (fun a b => w.fp o a b s.v.shadow) packed (s.v.xmm dst) q))) := by
  have hk : o.checked = false := by rcases ho with rfl | rfl <;> rfl
  have := unchecked w o packed osx dst rm s hc hk (fun a b => by rw [hf])
  have e : (fun a b => w.fp o a b s.mx) = fun a b => w.fp o a b s.v.shadow := by funext a b; rw [hf a b s.mx, hf a b s.v.shadow]
  rw [e] at this
  unfold Spec.operand
  cases rm with
  | reg r => exact this
  | mem a =>
    cases packed with
    | false => exact this
    | true =>
      have h0 := ha a rfl rfl
      dsimp only at this ⊢
      rw [if_pos rfl] at this ⊢
      unfold Spec.read128 at this ⊢
      dsimp only at this ⊢
      rw [if_neg (by simp)] at this
      rw [if_neg (by simp [h0])]
      exact this
example : exSeen (run exV 0 (arCode exV .rcp true true 0 (.mem (Emit.exEa 0x2000#32))) (exS 0x1F80#32 0#16)) = [0, 20011376718272490338853433276725592320, 633825300243241909290088267781, 8064, 20011376718272490338853433276725592320, 257, 3, 8096] := by decide +kernel
example : ∀ a b m, exV.fp .rcp a b m = ((exV.fp .rcp a b (exS 0x1F80#32 0#16).v.shadow).1, 0#6) := fun _ _ _ => by unfold exV; simp

/-- CVTTSS2SI (C107). -/
theorem C107_cvt (w : VEnv) (osx : Bool) (dst : GReg) (rm : Rm) (s : S) (hc : s.h.r .rcx = w.e.ctx) (hs : s.v.shadow &&& 0x3F#32 = 0#32) :
    Spec.Does w (cvtCode osx dst rm) s (Spec.operand w false s rm fun q =>
      Spec.ending osx s (w.cvt (Spec.lane q 0) s.v.shadow).2 (wrG s.h.g .d dst (w.cvt (Spec.lane q 0) s.v.shadow).1) s.v) := by
  have key : ∀ (s' : S) (q : BitVec 128), s'.h.r .rcx = w.e.ctx → s'.h.g = s.h.g → s'.v = s.v → s'.x 0 = q →
      Spec.Does w (setCtx ++ (.cvtt 0 :: (postCode osx ++ [.h (.stG .d dst .rbx), .ldMx 5]))) s'
        (Spec.ending osx s (w.cvt (Spec.lane q 0) s.v.shadow).2 (wrG s.h.g .d dst (w.cvt (Spec.lane q 0) s.v.shadow).1) s.v) := by
    intro s' q h1 h2 h3 h4
    have r1 : ∃ t : S, run w 0 (setCtx ++ (.cvtt 0 :: (postCode osx ++ [.h (.stG .d dst .rbx), .ldMx 5]))) s' = run w 0 (postCode osx ++ [.h (.stG .d dst .rbx), .ldMx 5]) t ∧
        t.h.r .rcx = w.e.ctx ∧ t.h.g = s.h.g ∧ t.v = s.v ∧ rd t.h .d .rbx = (w.cvt (Spec.lane q 0) s.v.shadow).1 ∧
        t.mx = s.v.shadow ||| BitVec.setWidth 32 (w.cvt (Spec.lane q 0) s.v.shadow).2 ∧ rdL t.h .d 5 = s'.mx := by
      rw [← l0_eq]
      unfold setCtx
      vexec [h1, h4, h3]
      refine ⟨_, rfl, ?_, ?_, ?_, ?_, ?_, ?_⟩
      · hexec' [h1]
      · hexec' [h2]
      · rfl
      · hexec' [rd_wr_d]
      · rfl
      · hexec' [rdL_d]
    obtain ⟨t, e, t1, t2, t3, t4, t5, t6⟩ := r1
    have hp := post_run w osx [.h (.stG .d dst .rbx), .ldMx 5] t t1
    dsimp only at hp
    rw [t5, sh_fl _ _ hs, t3] at hp
    revert hp t4
    generalize w.cvt (Spec.lane q 0) s.v.shadow = c
    intro t4 hp
    unfold Spec.ending
    by_cases hm : ∃ k : Fin 6, c.2.getLsbD k.val = true ∧ s.v.mxcsr.getLsbD (7 + k.val) = false
    · rw [if_neg (fun h => (masked_eq _ _).1 h hm)] at hp
      rw [if_pos hm]
      unfold Spec.Does
      rw [e, hp, t2, t6]
      rfl
    · rw [if_pos ((masked_eq _ _).2 hm)] at hp
      rw [if_neg hm]
      obtain ⟨u, e', u1, ub, u2, u3, u4, u5⟩ := hp
      have ub' : rd u.h .d .rbx = c.1 := by rw [← t4]; unfold rd; rw [ub]
      unfold Spec.Does
      rw [e, e']
      vexec [u1, ub']
      refine ⟨_, rfl, ?_, ?_, ?_, ?_⟩
      · hexec' [u1]
      · hexec' [u2, t2]
      · rw [u4]; rfl
      · hexec' [u3, t6]
  unfold cvtCode Spec.operand
  cases rm with
  | reg r =>
    dsimp only
    apply Does.of_run (s' := s.setX 0 (s.v.xmm r)) (m := setCtx ++ (.cvtt 0 :: (postCode osx ++ [.h (.stG .d dst .rbx), .ldMx 5])))
    · vexec [hc]
    · rfl
    · exact key _ _ hc rfl rfl rfl
  | mem a =>
    dsimp only
    rw [if_neg (by decide)]
    unfold Spec.readMem
    by_cases h : w.e.ok a.lin Sz.d.bytes false = true
    · rw [if_pos h]
      generalize hq : BitVec.ofNat Sz.d.bits (Guest.load s.h.g.mem a.lin Sz.d.bytes) = q
      have r1 : ∀ m : List I, ∃ s' : S, run w 0 ([.h (.ea a), .h (.ldMem .d), .movd 0] ++ m) s = run w 0 m s' ∧ s'.h.r .rcx = w.e.ctx ∧ s'.h.g = s.h.g ∧ s'.v = s.v ∧ s'.mx = s.mx ∧
          s'.x 0 = BitVec.setWidth 128 q := by
        intro m
        vexec [hc, h, rd_wr_d, hq]
        refine ⟨_, rfl, ?_, ?_, rfl, rfl, ?_⟩
        · hexec' []
        · hexec' []
        · rfl
      obtain ⟨s', e, h1, h2, h3, h4, h5⟩ := r1 (setCtx ++ (.cvtt 0 :: (postCode osx ++ [.h (.stG .d dst .rbx), .ldMx 5])))
      exact Does.of_run e h4 (key s' _ h1 h2 h3 h5)
    · rw [if_neg h]
      unfold Spec.Does
      vexec [hc, h, rd_wr_d]
example : exSeen (run exV 0 (cvtCode true ⟨0, false⟩ (.reg 1)) (exS 0x0F81#32 0#16)) = [19, 316912650112397582603894390785, 4000] := by decide +kernel
example : exSeen (run exV 0 (cvtCode true ⟨0, false⟩ (.reg 1)) (exS 0x1F81#32 0#16)) = [0, 316912650112397582603894390785, 633825300243241909290088267781, 8096, 20011376718272490338853433276725592320, 257, 3, 8096] := by decide +kernel

/-- A packed operation with a memory operand that is not at a multiple of 16 is not refused: a defect (C107). -/
theorem C107_unaligned_violation (w : VEnv) (osx : Bool) (dst : Fin 8) (a : Ea) (s : S) (hc : s.h.r .rcx = w.e.ctx) (h16 : a.lin.toNat % 16 ≠ 0)
    (ho : w.e.ok a.lin 16 false = true) (hz : ∀ a b, (w.fp .rsqrt a b s.mx).2 = 0#6) (k : BitVec 128 → Spec.Res) :
    ¬ Spec.Does w (arCode w .rsqrt true osx dst (.mem a)) s (Spec.operand w true s (.mem a) k) := by
  have h1 := unchecked w .rsqrt true osx dst (.mem a) s hc rfl hz
  have h2 : Spec.operand w true s (.mem a) k = .exc .gp s.h.g s.v := by
    unfold Spec.operand Spec.read128
    dsimp only
    rw [if_pos rfl, if_pos ⟨rfl, h16⟩]
  rw [h2]
  unfold Spec.read128 at h1
  dsimp only at h1
  rw [if_pos rfl, if_neg (by simp), if_pos ho] at h1
  unfold Spec.Does at h1 ⊢
  intro h
  obtain ⟨s', e, _⟩ := h1
  rw [e] at h
  cases h
example : (Emit.exEa 0x2001#32).lin.toNat % 16 ≠ 0 ∧ exV.e.ok 0x2001#32 16 false = true := by decide +kernel
example : ∀ a b, (exV.fp .rsqrt a b (exS 0x1F80#32 0#16).mx).2 = 0#6 := fun _ _ => by unfold exV; simp

/-- An unmasked exception of SUBPS or SUBSS is not reported: a defect (C107). -/
theorem C107_sub_violation (w : VEnv) (packed osx : Bool) (dst r : Fin 8) (s : S) (hc : s.h.r .rcx = w.e.ctx) (g : G) (v' : V)
    (hu : ∃ k : Fin 6, (Spec.flags (fun a b => w.fp .sub a b s.v.shadow) packed (s.v.xmm dst) (s.v.xmm r)).getLsbD k.val = true ∧ s.v.mxcsr.getLsbD (7 + k.val) = false) :
    ¬ Spec.Does w (arCode w .sub packed osx dst (.reg r)) s (Spec.operand w packed s (.reg r) fun q =>
      Spec.ending osx s (Spec.flags (fun a b => w.fp .sub a b s.v.shadow) packed (s.v.xmm dst) q) g v') := by
  unfold Spec.operand Spec.ending
  dsimp only
  rw [if_pos hu]
  unfold Spec.Does arCode arSrc
  vexec [hc, show Ar.checked .sub = false from rfl]
example : ∃ k : Fin 6, (Spec.flags (fun a b => exV.fp .sub a b (exS 0x0F80#32 0#16).v.shadow) false ((exS 0x0F80#32 0#16).v.xmm 0) ((exS 0x0F80#32 0#16).v.xmm 2)).getLsbD k.val = true ∧
    (exS 0x0F80#32 0#16).v.mxcsr.getLsbD (7 + k.val) = false := ⟨5, by decide +kernel⟩

end Verif.Simd
