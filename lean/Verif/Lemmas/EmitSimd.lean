import Verif.Spec.EmitSimd
import Verif.Lemmas.EmitMore
import Verif.Lemmas.Bits
/-
Running the code of SSE and MMX instructions.
-/
namespace Verif.Simd
open Host Bits

theorem vrun_nil (w : VEnv) (k : Nat) (s : S) : run w k [] s = .next k s := by cases k <;> rfl
theorem vrun_step (w : VEnv) (i : I) (l : List I) (s : S) : run w 0 (i :: l) s = match step w s i with | .next k s' => run w k l s' | o => o := by rw [run]; rfl
theorem vrun_skip (w : VEnv) (k : Nat) (i : I) (l : List I) (s : S) : run w (k + 1) (i :: l) s = run w k l s := by rw [run]

macro "vexec" "[" ts:Lean.Parser.Tactic.simpLemma,* "]" : tactic =>
  `(tactic| hexec' [vrun_nil, vrun_step, vrun_skip, Simd.step, Simd.ctxd, S.setX, S.setG, S.setH, S.setV, S.setMx, isCall, $ts,*])

theorem align_val (v : BitVec 32) : (v &&& 15#32 = 0#32) ↔ v.toNat % 16 = 0 := by
  rw [← BitVec.toNat_inj, BitVec.toNat_and]
  show v.toNat &&& (2 ^ 4 - 1) = 0 ↔ _
  rw [Nat.and_two_pow_sub_one_eq_mod]

theorem halves (v : BitVec 128) : half v true ++ half v false = v := by
  unfold half
  rw [if_pos rfl, if_neg (by decide)]
  apply BitVec.eq_of_getLsbD_eq
  intro i hi
  rw [BitVec.getLsbD_append]
  by_cases h : i < 64
  · simp [h]
  · have h1 : i - 64 < 64 := by omega
    simp [h, h1]; rw [show 64 + (i - 64) = i by omega]

theorem wq (h : Host.St) (r : Reg) (v : BitVec Sz.q.bits) : (wr h .q r v).r r = v := by
  unfold wr Host.St.set put
  exact if_pos rfl
theorem setq (v : BitVec 64) : BitVec.setWidth Sz.q.bits v = v := BitVec.setWidth_eq v

/-- The loads of 16 bytes. -/
def Ld (w : VEnv) (l m : List I) (s : S) (a : BitVec 32) (g : G) (v : V) (mx : BitVec 32) : Prop :=
  if w.e.ok a 16 false then ∃ s', run w 0 (l ++ m) s = run w 0 m s' ∧ s'.h.r .rcx = w.e.ctx ∧ s'.h.r .rax = w.fr ∧
    s'.h.loc 1 ++ s'.h.loc 0 = BitVec.ofNat 128 (Guest.load g.mem a 16) ∧ s'.h.g = g ∧ s'.v = v ∧ s'.mx = mx
  else run w 0 (l ++ m) s = .stop .pf g v mx

theorem rd128_run (w : VEnv) (m : List I) (s : S) (h1 : s.h.r .rdx = w.e.ctx) (h2 : s.h.r .rcx = w.fr) (a : BitVec 32) (ha : rd s.h .d .r8 = a) (g : G)
    (hg : s.h.g = g) : Ld w [.rd128] m s a g s.v s.mx := by
  unfold Ld
  vexec [h1, h2, ha, hg, and_self]
  generalize hv : BitVec.ofNat 128 (Guest.load g.mem a 16) = q
  by_cases ho : w.e.ok a 16 false = true
  · rw [if_pos ho, if_pos ho]
    refine ⟨_, rfl, ?_, ?_, ?_, rfl, rfl, rfl⟩
    · show ((clob w.e s.h).set .rax w.fr).r .rcx = _
      hexec []
    · show ((clob w.e s.h).set .rax w.fr).r .rax = _
      hexec []
    · show (if (1 : Nat) = 0 then half q false else if (1 : Nat) = 1 then half q true else s.h.loc 1) ++ (if (0 : Nat) = 0 then half q false else if (0 : Nat) = 1 then half q true else s.h.loc 0) = q
      rw [if_neg Nat.one_ne_zero, if_pos rfl, if_pos rfl]
      exact halves q
  · rw [if_neg ho, if_neg ho]

theorem ld128_run (w : VEnv) (m : List I) (s : S) (a : BitVec 32) (hd : rd s.h .d .rdx = a) (g : G) (hg : s.h.g = g) : Ld w (ld128 w) m s a g s.v s.mx := by
  have h := rd128_run w m { s with h := wr (wr (s.h.set .rcx w.fr) .d .r8 a) .q .rdx (BitVec.setWidth Sz.q.bits w.e.ctx) } (by vexec [wq]; exact setq _) (by vexec [])
    a (by vexec [rd_wr_d]) g (by vexec [hg])
  have e1 : run w 0 (ld128 w ++ m) s = run w 0 ([.rd128] ++ m)
      { s with h := wr (wr (s.h.set .rcx w.fr) .d .r8 a) .q .rdx (BitVec.setWidth Sz.q.bits w.e.ctx) } := by
    unfold ld128
    rw [List.cons_append, vrun_step]
    show run w 0 (.h (.mov .d .r8 (.reg .rdx)) :: _) _ = _
    rw [vrun_step]
    show run w 0 (.h (.mov .q .rdx (.imm w.e.ctx)) :: _) _ = _
    rw [vrun_step]
    show run w 0 ([.rd128] ++ m) _ = _
    hexec' [hd, S.setH, isCall]
  unfold Ld at h ⊢
  rw [e1]
  exact h

/-- A memory operand of 16 bytes. -/
theorem mem128_run (w : VEnv) (al : Bool) (a : Ea) (s : S) (m : List I) :
    if al = true ∧ a.lin.toNat % 16 ≠ 0 then run w 0 (mem128 w al a ++ m) s = .stop .gp s.h.g s.v s.mx
    else Ld w (mem128 w al a) m s a.lin s.h.g s.v s.mx := by
  unfold mem128
  cases al with
  | false =>
    rw [if_neg (by simp)]
    have h := ld128_run w m { s with h := (((wr s.h .d .rdx a.lin).set .r10 a.r10).set .r11 a.r11).setF (a.fl .zf) (a.fl .cf) (a.fl .of) (a.fl .sf) } a.lin (by vexec [rd_wr_d]) s.h.g (by vexec [])
    unfold Ld at h ⊢
    vexec []
    exact h
  | true =>
    unfold alignCode
    by_cases h16 : a.lin.toNat % 16 = 0
    · rw [if_neg (by simp [h16])]
      have hz : (a.lin &&& BitVec.setWidth Sz.d.bits 15#64 == 0) = true := beq_iff_eq.2 ((align_val _).2 h16)
      have h := ld128_run w m { s with h := ((((wr s.h .d .rdx a.lin).set .r10 a.r10).set .r11 a.r11).setF (a.fl .zf) (a.fl .cf) (a.fl .of) (a.fl .sf)).setF true (w.e.hf ((((wr s.h .d .rdx a.lin).set .r10 a.r10).set .r11 a.r11).setF (a.fl .zf) (a.fl .cf) (a.fl .of) (a.fl .sf)) .cf) (w.e.hf ((((wr s.h .d .rdx a.lin).set .r10 a.r10).set .r11 a.r11).setF (a.fl .zf) (a.fl .cf) (a.fl .of) (a.fl .sf)) .of) (w.e.hf ((((wr s.h .d .rdx a.lin).set .r10 a.r10).set .r11 a.r11).setF (a.fl .zf) (a.fl .cf) (a.fl .of) (a.fl .sf)) .sf) } a.lin (by vexec [rd_wr_d]) s.h.g (by vexec [])
      unfold Ld at h ⊢
      vexec [rd_wr_d, hz]
      exact h
    · rw [if_pos ⟨rfl, h16⟩]
      have hz : (a.lin &&& BitVec.setWidth Sz.d.bits 15#64 == 0) = false := beq_eq_false_iff_ne.2 fun h => h16 ((align_val _).1 h)
      vexec [rd_wr_d, hz]

theorem mem_does (w : VEnv) (al : Bool) (a : Ea) (s : S) (m : List I) (k : BitVec 128 → Spec.Res)
    (H : ∀ (s' : S) (q : BitVec 128), s'.h.r .rcx = w.e.ctx → s'.h.r .rax = w.fr → s'.h.loc 1 ++ s'.h.loc 0 = q → s'.h.g = s.h.g → s'.v = s.v → s'.mx = s.mx →
      Spec.Does w m s' (k q)) : Spec.Does w (mem128 w al a ++ m) s (Spec.read128 w al s (.mem a) k) := by
  have h := mem128_run w al a s m
  unfold Spec.read128
  dsimp only
  by_cases h1 : al = true ∧ a.lin.toNat % 16 ≠ 0
  · rw [if_pos h1] at h ⊢
    exact h
  · rw [if_neg h1] at h ⊢
    unfold Ld at h
    by_cases h2 : w.e.ok a.lin 16 false = true
    · rw [if_pos h2] at h ⊢
      obtain ⟨s', e, c1, c2, c3, c4, c5, c6⟩ := h
      have := H s' _ c1 c2 c3 c4 c5 c6
      revert this
      generalize k _ = r
      intro this
      cases r with
      | done g v => unfold Spec.Does at this ⊢; rw [e, ← c6]; exact this
      | exc y g v => unfold Spec.Does at this ⊢; rw [e, ← c6]; exact this
    · rw [if_neg h2] at h ⊢
      exact h

theorem locAt_fr (w : VEnv) (s : S) (q : BitVec 128) (h : s.h.loc 1 ++ s.h.loc 0 = q) : w.locAt s w.fr = some q := by
  unfold VEnv.locAt
  rw [if_pos rfl, h]

theorem locAt_mk (w : VEnv) (h : Host.St) (x : Fin 3 → BitVec 128) (mx : BitVec 32) (v : V) (q : BitVec 128) (e : h.loc 1 ++ h.loc 0 = q) :
    w.locAt ⟨h, x, mx, v⟩ w.fr = some q := locAt_fr w _ q e

theorem at_ctx (w : VEnv) (i : Fin 8) : w.at (w.e.ctx + w.xa + BitVec.ofNat 64 (16 * i.val)) = some i := by
  unfold VEnv.at
  generalize w.e.ctx + w.xa = b
  have inj : ∀ j k : Fin 8, (b + BitVec.ofNat 64 (16 * j.val) == b + BitVec.ofNat 64 (16 * k.val)) = decide (j = k) := by
    intro j k
    rw [Bool.eq_iff_iff, beq_iff_eq, decide_eq_true_iff, BitVec.add_right_inj]
    revert j k; decide +kernel
  simp only [inj]
  revert i; decide +kernel

theorem lane_eq (v : BitVec 128) (i : Fin 4) : Spec.lane v i = l32 v i.val := by
  unfold Spec.lane l32
  apply BitVec.eq_of_getLsbD_eq
  intro j hj
  simp [hj]

theorem shuf_eq (imm : BitVec 8) (d s : BitVec 128) : XOp.eval d s (.shuf imm) = Spec.shuffle imm d s := by
  unfold Spec.shuffle Spec.ofLanes XOp.eval
  simp only [lane_eq, BitVec.toNat_ushiftRight, Nat.shiftRight_eq_div_pow]
  simp only [show ((3 : Fin 4) : Nat) = 3 from rfl, show ((2 : Fin 4) : Nat) = 2 from rfl, show ((1 : Fin 4) : Nat) = 1 from rfl, show ((0 : Fin 4) : Nat) = 0 from rfl,
    show (4 : Nat) ^ 3 = 2 ^ 6 from rfl, show (4 : Nat) ^ 2 = 2 ^ 4 from rfl, show (4 : Nat) ^ 1 = 2 ^ 2 from rfl, Nat.pow_zero, Nat.div_one,
    show ¬ (3 < 2) by decide, show ¬ (2 < 2) by decide, show 1 < 2 by decide, show 0 < 2 by decide, if_true, if_false]

theorem unpck_eq (high : Bool) (d s : BitVec 128) : XOp.eval d s (.unpck high) = Spec.interleave high d s := by
  unfold Spec.interleave Spec.ofLanes XOp.eval
  simp only [lane_eq]
  cases high <;> rfl

theorem q_ofNat (n : Nat) : BitVec.ofNat Sz.q.bits n = BitVec.ofNat 64 n := rfl

theorem half_eq (h : Bool) (v : BitVec 128) : half v h = Spec.halfOf h v := by
  unfold half Spec.halfOf
  cases h
  · rw [if_neg (by decide), if_neg (by decide)]; apply BitVec.eq_of_getLsbD_eq; intro j hj; simp [hj]
  · rw [if_pos rfl, if_pos rfl]
    apply BitVec.eq_of_getLsbD_eq
    intro j hj
    simp [hj]

theorem setHalf_eq (h : Bool) (v : BitVec 128) (q : BitVec 64) : setHalf v h q = Spec.withHalf h v q := by
  have e1 := half_eq true v
  have e2 := half_eq false v
  unfold half Spec.halfOf at e1 e2
  rw [if_pos rfl, if_pos rfl] at e1
  rw [if_neg (by decide), if_neg (by decide)] at e2
  unfold setHalf Spec.withHalf
  cases h
  · rw [if_neg (by decide), if_neg (by decide), e1]
  · rw [if_pos rfl, if_pos rfl, e2]

theorem lowLane_eq (d : BitVec 128) (q : BitVec 32) : lowLane d q = Spec.withLow d q := by
  have e : Spec.withLow d q = Spec.lane d 3 ++ Spec.lane d 2 ++ Spec.lane d 1 ++ q := rfl
  rw [e]
  unfold lowLane Spec.lane
  apply BitVec.eq_of_getLsbD_eq
  intro j hj
  simp only [BitVec.getLsbD_or, BitVec.getLsbD_append, BitVec.getLsbD_shiftLeft, BitVec.getLsbD_ushiftRight, BitVec.getLsbD_setWidth, BitVec.getLsbD_extractLsb', hj]
  by_cases h1 : j < 32
  · simp [h1]
  · have e0 : q.getLsbD j = false := BitVec.getLsbD_of_ge _ _ (by omega)
    have e3 : 32 + (j - 32) = j := by omega
    by_cases h2 : j - 32 < 32
    · have e1 : 32 * (1 : Fin 4).val + (j - 32) = j := by show 32 * 1 + _ = _; omega
      simp [h1, h2, e0, e3]
    · by_cases h3 : j - 32 - 32 < 32
      · have e1 : 64 + (j - 32 - 32) = j := by show 64 + _ = _; omega
        simp [h1, h2, h3, e0, e1, e3]
      · have e1 : 96 + (j - 32 - 32 - 32) = j := by show 96 + _ = _; omega
        have h4 : j - 32 - 32 - 32 < 32 := by omega
        have f3 : 32 * ((3 : Fin 4) : Nat) = 96 := rfl
        simp only [f3, h1, h2, h3, h4, e0, e1, e3]
        simp

theorem l0_eq (v : BitVec 128) : l32 v 0 = Spec.lane v 0 := (lane_eq v 0).symm

theorem setWidth_put32 (o : BitVec 64) (v : BitVec 32) : (put .d o v).setWidth 32 = v := setWidth_put .d o v

theorem es_eq (v : BitVec 16) : (v &&& 0x80#16 == 0) = !v.getLsbD 7 := by
  rw [Bool.eq_iff_iff, beq_iff_eq]
  constructor
  · intro h
    have := congrArg (fun x => x.getLsbD 7) h
    simpa using this
  · intro h
    apply BitVec.eq_of_getLsbD_eq
    intro j hj
    have h' : v.getLsbD 7 = false := by simpa using h
    by_cases e : j = 7
    · subst e; simp; rw [← BitVec.getLsbD_eq_getElem]; exact h'
    · have : (0x80#16).getLsbD j = false := by
        revert e; revert hj; revert j; decide +kernel
      simp [this]

theorem mf_does (w : VEnv) (m : List I) (s : S) (hc : s.h.r .rcx = w.e.ctx) (r : Spec.Res)
    (H : ∀ s' : S, s'.h.r .rcx = w.e.ctx → s'.h.g = s.h.g → s'.v = s.v → s'.mx = s.mx → Spec.Does w m s' r) :
    Spec.Does w (mfCode ++ m) s (Spec.afterMf s r) := by
  unfold Spec.afterMf mfCode
  cases h : s.v.fsw.getLsbD 7 with
  | true =>
    have hz : (s.v.fsw &&& 0x80#16 == 0) = false := by rw [es_eq, h]; rfl
    rw [if_pos rfl]
    unfold Spec.Does
    vexec [hc, hz]
  | false =>
    have hz : (s.v.fsw &&& 0x80#16 == 0) = true := by rw [es_eq, h]; rfl
    rw [if_neg (by decide)]
    have := H { s with h := s.h.setF true (w.e.hf s.h .cf) (w.e.hf s.h .of) (w.e.hf s.h .sf) } (by hexec' [hc]) (by hexec' []) rfl rfl
    cases r with
    | done g v =>
      unfold Spec.Does at this ⊢
      vexec [hc, hz]
      exact this
    | exc y g v =>
      unfold Spec.Does at this ⊢
      vexec [hc, hz]
      exact this

theorem rdL_d (h : Host.St) (i : Nat) (v : BitVec 32) : rdL (wrL h .d i v) .d i = v := rdL_wrL_same ..

theorem rdL_54 (h : Host.St) (v : BitVec 32) : rdL (wrL h .d 4 v) .d 5 = rdL h .d 5 := rdL_wrL_ne _ (by decide) ..

theorem post_run (w : VEnv) (osx : Bool) (m : List I) (s : S) (hc : s.h.r .rcx = w.e.ctx) :
    let fl := s.mx &&& 0x3F#32
    let v := { s.v with mxcsr := (s.v.mxcsr &&& 0xFFFFFFC0#32) ||| fl }
    if (~~~ (s.v.mxcsr >>> 7) &&& 0x3F#32) &&& fl = 0#32 then
      ∃ s', run w 0 (postCode osx ++ m) s = run w 0 m s' ∧ s'.h.r .rcx = w.e.ctx ∧ s'.h.r .rbx = s.h.r .rbx ∧ s'.h.g = s.h.g ∧ rdL s'.h .d 5 = rdL s.h .d 5 ∧ s'.v = v ∧ s'.x = s.x
    else run w 0 (postCode osx ++ m) s = .stop (if osx then .xf else .ud) s.h.g v (rdL s.h .d 5) := by
  intro fl v
  unfold postCode
  by_cases hz : (~~~ (s.v.mxcsr >>> 7) &&& 0x3F#32) &&& fl = 0#32
  · have hb : (~~~ (s.v.mxcsr >>> 7) &&& BitVec.setWidth Sz.d.bits 63#64 &&& (s.mx &&& BitVec.setWidth Sz.d.bits 63#64) == 0) = true := beq_iff_eq.2 hz
    rw [if_pos hz]
    vexec [hc, rd_wr_d, rdL_d, hb]
    refine ⟨_, rfl, ?_, ?_, ?_, ?_, ?_, rfl⟩
    · hexec' [hc]
    · hexec' []
    · hexec' []
    · hexec' [rdL_54]
    · rfl
  · have hb : (~~~ (s.v.mxcsr >>> 7) &&& BitVec.setWidth Sz.d.bits 63#64 &&& (s.mx &&& BitVec.setWidth Sz.d.bits 63#64) == 0) = false := beq_eq_false_iff_ne.2 hz
    rw [if_neg hz]
    vexec [hc, rd_wr_d, rdL_d, hb]
    rfl

/-- The operand of the operations on lanes: 16 bytes without a check of the address, or the lowest lane. -/
theorem arSrc_does (w : VEnv) (packed : Bool) (rm : Rm) (s : S) (hc : s.h.r .rcx = w.e.ctx) (m : List I) (k : BitVec 128 → Spec.Res)
    (H : ∀ s' : S, s'.h.r .rcx = w.e.ctx → s'.h.g = s.h.g → s'.v = s.v → s'.mx = s.mx → Spec.Does w m s' (k (s'.x 1))) :
    Spec.Does w (arSrc w packed rm ++ m) s (match rm with
      | .reg i => k (s.v.xmm i)
      | .mem a => if packed then Spec.read128 w false s (.mem a) k else Spec.readMem w s .d a fun q => k (BitVec.setWidth 128 q)) := by
  unfold arSrc
  cases rm with
  | reg r =>
    dsimp only
    have := H (s.setX 1 (s.v.xmm r)) hc rfl rfl rfl
    have e : (s.setX 1 (s.v.xmm r)).x 1 = s.v.xmm r := rfl
    rw [e] at this
    revert this; generalize k _ = res; intro this
    cases res with
    | done g v => unfold Spec.Does at this ⊢; vexec [hc]; exact this
    | exc y g v => unfold Spec.Does at this ⊢; vexec [hc]; exact this
  | mem a =>
    cases packed with
    | true =>
      dsimp only
      rw [if_pos rfl, if_pos rfl, List.append_assoc]
      apply mem_does
      intro s' q h1 h2 h3 h4 h5 h6
      have := H (s'.setX 1 q) h1 h4 h5 h6
      have e : (s'.setX 1 q).x 1 = q := rfl
      rw [e] at this
      revert this; generalize k _ = res; intro this
      cases res with
      | done g v => unfold Spec.Does at this ⊢; vexec [h2, locAt_fr w s' q h3]; exact this
      | exc y g v => unfold Spec.Does at this ⊢; vexec [h2, locAt_fr w s' q h3]; exact this
    | false =>
      dsimp only
      rw [if_neg (by decide), if_neg (by decide)]
      unfold Spec.readMem
      by_cases h : w.e.ok a.lin Sz.d.bytes false = true
      · rw [if_pos h]
        generalize hq : BitVec.ofNat Sz.d.bits (Guest.load s.h.g.mem a.lin Sz.d.bytes) = q
        have r1 : ∃ s' : S, run w 0 ([.h (.ea a), .h (.ldMem .d), .movd 1] ++ m) s = run w 0 m s' ∧ s'.h.r .rcx = w.e.ctx ∧ s'.h.g = s.h.g ∧ s'.v = s.v ∧ s'.mx = s.mx ∧
            s'.x 1 = BitVec.setWidth 128 q := by
          vexec [hc, h, rd_wr_d, hq]
          refine ⟨_, rfl, ?_, ?_, rfl, rfl, ?_⟩
          · hexec' []
          · hexec' []
          · rfl
        obtain ⟨s', e, h1, h2, h3, h4, h5⟩ := r1
        have := H s' h1 h2 h3 h4
        rw [h5] at this
        show Spec.Does w _ s (k (BitVec.setWidth 128 q))
        revert this; generalize k _ = res; intro this
        cases res with
        | done g v => unfold Spec.Does at this ⊢; rw [e, ← h4]; exact this
        | exc y g v => unfold Spec.Does at this ⊢; rw [e, ← h4]; exact this
      · rw [if_neg h]
        unfold Spec.Does
        vexec [hc, h, rd_wr_d]

theorem Does.of_run {w : VEnv} {c m : List I} {s s' : S} {r : Spec.Res} (e : run w 0 c s = run w 0 m s') (hm : s'.mx = s.mx) (h : Spec.Does w m s' r) : Spec.Does w c s r := by
  cases r <;> (unfold Spec.Does at h ⊢; rw [e, ← hm]; exact h)

theorem masked_eq (m : BitVec 32) (fl : BitVec 6) : (~~~ (m >>> 7) &&& 0x3F#32) &&& fl.setWidth 32 = 0#32 ↔
    ¬ ∃ k : Fin 6, fl.getLsbD k.val = true ∧ m.getLsbD (7 + k.val) = false := by
  constructor
  · rintro h ⟨k, h1, h2⟩
    have := congrArg (fun x => x.getLsbD k.val) h
    have hk : k.val < 32 := by omega
    have h63 : ∀ k : Fin 6, (63#32).getLsbD k.val = true := by decide
    simp only [BitVec.getLsbD_and, BitVec.getLsbD_not, BitVec.getLsbD_ushiftRight, BitVec.getLsbD_setWidth, h1, h2, h63, hk, BitVec.getLsbD_zero] at this
    simp at this
  · intro h
    apply BitVec.eq_of_getLsbD_eq
    intro j hj
    simp only [BitVec.getLsbD_and, BitVec.getLsbD_not, BitVec.getLsbD_ushiftRight, BitVec.getLsbD_setWidth, BitVec.getLsbD_zero, hj, decide_true, Bool.true_and]
    by_cases h6 : j < 6
    · cases h1 : fl.getLsbD j with
      | false => simp
      | true =>
        cases h2 : m.getLsbD (7 + j) with
        | true => simp
        | false => exact absurd ⟨⟨j, h6⟩, h1, h2⟩ h
    · rw [BitVec.getLsbD_of_ge fl j (by omega)]; simp

theorem or_rev (a b c d : BitVec 6) : d ||| c ||| b ||| a = a ||| b ||| c ||| d := by
  apply BitVec.eq_of_getLsbD_eq
  intro j _
  simp only [BitVec.getLsbD_or]
  cases a.getLsbD j <;> cases b.getLsbD j <;> cases c.getLsbD j <;> cases d.getLsbD j <;> rfl

theorem arith_res (f : BitVec 32 → BitVec 32 → BitVec 32 × BitVec 6) (p : Bool) (d q : BitVec 128) : Simd.arith f p d q = (Spec.lanes f p d q, Spec.flags f p d q) := by
  unfold Simd.arith Spec.lanes Spec.flags Spec.ofLanes
  simp only [lane_eq]
  cases p
  · rfl
  · show (_, _) = (_, _)
    congr 1
    exact or_rev _ _ _ _

theorem sh_fl (sh : BitVec 32) (fl : BitVec 6) (h : sh &&& 0x3F#32 = 0#32) : (sh ||| fl.setWidth 32) &&& 0x3F#32 = fl.setWidth 32 := by
  apply BitVec.eq_of_getLsbD_eq
  intro j hj
  have h1 := congrArg (fun x => x.getLsbD j) h
  simp only [BitVec.getLsbD_and, BitVec.getLsbD_or, BitVec.getLsbD_setWidth, BitVec.getLsbD_zero, hj, decide_true, Bool.true_and] at h1 ⊢
  by_cases h6 : j < 6
  · have h63 : ∀ k : Fin 6, (63#32).getLsbD k.val = true := by decide
    have := h63 ⟨j, h6⟩
    dsimp only at this
    rw [this] at h1 ⊢
    simp at h1
    simp [h1]
  · have : ∀ k : Fin 32, ¬ k.val < 6 → (63#32).getLsbD k.val = false := by decide
    rw [this ⟨j, hj⟩ h6, BitVec.getLsbD_of_ge fl j (by omega)]
    simp

/-- What RCPPS and the like leave: the operation under the host's MXCSR. -/
theorem unchecked (w : VEnv) (o : Ar) (packed osx : Bool) (dst : Fin 8) (rm : Rm) (s : S) (hc : s.h.r .rcx = w.e.ctx) (ho : o.checked = false)
    (hz : ∀ a b, (w.fp o a b s.mx).2 = 0#6) :
    Spec.Does w (arCode w o packed osx dst rm) s (match rm with
      | .reg i => .done s.h.g (Spec.withX s.v dst (Spec.lanes (fun a b => w.fp o a b s.mx) packed (s.v.xmm dst) (s.v.xmm i)))
      | .mem a => if packed then Spec.read128 w false s (.mem a) fun q => .done s.h.g (Spec.withX s.v dst (Spec.lanes (fun a b => w.fp o a b s.mx) packed (s.v.xmm dst) q))
        else Spec.readMem w s .d a fun q => .done s.h.g (Spec.withX s.v dst (Spec.lanes (fun a b => w.fp o a b s.mx) packed (s.v.xmm dst) (BitVec.setWidth 128 q)))) := by
  unfold arCode
  rw [ho, if_neg (by decide)]
  apply arSrc_does w packed rm s hc _ (fun q => .done s.h.g (Spec.withX s.v dst (Spec.lanes (fun a b => w.fp o a b s.mx) packed (s.v.xmm dst) q)))
  intro s' h1 h2 h3 h4
  unfold Spec.Does
  vexec [h1, arith_res]
  refine ⟨_, rfl, ?_, ?_, ?_, ?_⟩
  · exact h1
  · exact h2
  · rw [h3, h4]; rfl
  · have e : ∀ d q, Spec.flags (fun a b => w.fp o a b s'.mx) packed d q = 0#6 := by
      intro d q
      unfold Spec.flags
      dsimp only
      simp only [h4, hz]
      cases packed <;> rfl
    rw [e]
    simp

end Verif.Simd
