import Verif.Model.EmitEa
import Verif.Model.EmitMore
import Verif.Model.EmitShift
import Verif.Lemmas.EmitMore
import Verif.Props.Shift
/-! Lemmas on the code of memory operands. -/
namespace Verif.Emit
open Host

/-- The address the code computes. -/
def MemOp.addr (e : Env) (g : G) (m : MemOp) : BitVec 32 :=
  match m.mode with
  | .moffs d => EffAddr.moffs m.a32 m.addBase m.flat (e.seg m.seg) d
  | .modrm o => EffAddr.ea m.a32 m.addBase m.flat (e.seg m.seg) g.gpr o

/-- Scales are those of a SIB byte. -/
def MemOp.ok (m : MemOp) : Prop :=
  match m.mode with
  | .moffs _ => True
  | .modrm o => ∀ i n, o.index = some (i, n) → n ≤ 3

/-- Only EDX, R10, R11 and the flags may differ. -/
structure Keep (h h1 : St) : Prop where
  loc : h1.loc = h.loc
  g : h1.g = h.g
  r : ∀ x, x ≠ .rdx → x ≠ .r10 → x ≠ .r11 → h1.r x = h.r x

theorem Keep.rfl' {h : St} : Keep h h := ⟨rfl, rfl, fun _ _ _ _ => rfl⟩
theorem Keep.trans {a b c : St} (h1 : Keep a b) (h2 : Keep b c) : Keep a c :=
  ⟨h2.loc.trans h1.loc, h2.g.trans h1.g, fun x p q s => (h2.r x p q s).trans (h1.r x p q s)⟩

theorem keep_wr {h : St} {z : Sz} {d : Reg} {v : BitVec z.bits} (hd : d = .rdx ∨ d = .r10 ∨ d = .r11) : Keep h (wr h z d v) :=
  ⟨rfl, rfl, fun x p q s => by rw [wr_r_ne]; rcases hd with rfl | rfl | rfl <;> assumption⟩
theorem keep_setF {h : St} {a b c d : Bool} : Keep h (h.setF a b c d) := ⟨rfl, rfl, fun _ _ _ _ => rfl⟩

/-- A stage of the code. -/
def Stage (e : Env) (code : List I) (h : St) (P : St → Prop) : Prop := ∃ h1, run e 0 code h = .next 0 h1 ∧ Keep h h1 ∧ P h1

theorem stage_append {e : Env} {c1 c2 : List I} {h : St} {P Q : St → Prop} (s1 : Stage e c1 h P)
    (s2 : ∀ h1, Keep h h1 → P h1 → Stage e c2 h1 Q) : Stage e (c1 ++ c2) h Q := by
  obtain ⟨h1, r1, k1, p1⟩ := s1
  obtain ⟨h2, r2, k2, p2⟩ := s2 h1 k1 p1
  exact ⟨h2, (run_append _ r1).trans r2, k1.trans k2, p2⟩

theorem wr_w (h : St) (r : Reg) (v : BitVec Sz.w.bits) (x : BitVec 16) (hx : h.r r = BitVec.setWidth 64 x) :
    (wr h .w r v).r r = BitVec.setWidth 64 (w := 16) v := by
  unfold wr St.set put
  simp only [if_true, hx]
  change BitVec 16 at v
  show (BitVec.setWidth 64 x &&& 0xFFFFFFFFFFFF0000#64) ||| BitVec.setWidth 64 v = BitVec.setWidth 64 v
  bits64

/-- 64 bits of a 32 bit register. -/
theorem rd_d_of {h : St} {r : Reg} {v : BitVec 32} (hr : h.r r = BitVec.setWidth 64 v) : rd h .d r = v := by
  unfold rd
  rw [hr]
  show BitVec.setWidth 32 (BitVec.setWidth 64 v) = v
  simp

theorem rd_w_of {h : St} {r : Reg} {v : BitVec 16} (hr : h.r r = BitVec.setWidth 64 v) : rd h .w r = v := by
  unfold rd
  rw [hr]
  show BitVec.setWidth 16 (BitVec.setWidth 64 v) = v
  simp

theorem rdG_whole_d (g : G) (i : Fin 8) : rdG g .d (whole i) = g.gpr i := by
  unfold rdG whole
  rw [if_neg (by simp)]
  exact BitVec.setWidth_eq _

theorem rdG_whole_w (g : G) (i : Fin 8) : rdG g .w (whole i) = (g.gpr i).setWidth 16 := by
  unfold rdG whole
  rw [if_neg (by simp)]

theorem xor_self32 (v : BitVec 32) : v ^^^ v = 0#32 := BitVec.xor_self

theorem stage_base32 {e : Env} {h : St} (hc : h.r .rcx = e.ctx) (b : Option (Fin 8)) :
    Stage e (base32Code b) h (fun h1 => h1.r .r10 = BitVec.setWidth 64 (EffAddr.base32 h.g.gpr b)) := by
  cases b with
  | none =>
    unfold Stage base32Code
    hexec' [hc]
    refine ⟨_, rfl, keep_wr (Or.inr (Or.inl rfl)) |>.trans keep_setF, ?_⟩
    hexec' []
    show BitVec.setWidth 64 (rd h Sz.d Reg.r10 ^^^ rd h Sz.d Reg.r10) = _
    rw [BitVec.xor_self]
    rfl
  | some b =>
    unfold Stage base32Code
    hexec' [hc]
    refine ⟨_, rfl, keep_wr (Or.inr (Or.inl rfl)), ?_⟩
    hexec' []
    rw [rdG_whole_d]
    rfl

theorem stage_index32 {e : Env} {h : St} (hc : h.r .rcx = e.ctx) (i : Option (Fin 8 × Nat)) (x : BitVec 32) (hx : h.r .r10 = BitVec.setWidth 64 x) :
    Stage e (index32Code i) h (fun h1 => h1.r .r10 = BitVec.setWidth 64 (EffAddr.index32 h.g.gpr x i)) := by
  cases i with
  | none => exact ⟨h, rfl, Keep.rfl', hx⟩
  | some p =>
    obtain ⟨i, n⟩ := p
    unfold Stage index32Code
    hexec' [hc]
    refine ⟨_, rfl, (keep_wr (Or.inr (Or.inr rfl))).trans (keep_wr (Or.inr (Or.inl rfl))), ?_⟩
    hexec' [rd_d_of hx, rdG_whole_d]
    show BitVec.setWidth 64 (x + h.g.gpr i <<< n + 0#32) = _
    rw [BitVec.add_zero]
    rfl

theorem stage_disp32 {e : Env} {h : St} (hc : h.r .rcx = e.ctx) (m : MemOp) (mod1 : Bool) (d : Option (BitVec 64)) (x : BitVec 32)
    (hx : h.r .r10 = BitVec.setWidth 64 x) :
    Stage e (disp32Code m mod1 d) h (fun h1 => h1.r .rdx = BitVec.setWidth 64 (match d with
      | some d => if m.addBase == false || m.flat then x + EffAddr.disp32 mod1 d else e.seg m.seg + x + EffAddr.disp32 mod1 d
      | none => if m.addBase && !m.flat then x + e.seg m.seg else x)) := by
  cases d with
  | none =>
    unfold Stage disp32Code
    simp only
    split
    · hexec' [hc]
      refine ⟨_, rfl, (keep_wr (Or.inl rfl)).trans ((keep_wr (Or.inl rfl)).trans keep_setF), ?_⟩
      hexec' [rd_d_of hx]
    · hexec' [hc]
      refine ⟨_, rfl, keep_wr (Or.inl rfl), ?_⟩
      hexec' [rd_d_of hx]
  | some d =>
    unfold Stage disp32Code
    rw [show (m.addBase == false) = !m.addBase by cases m.addBase <;> rfl]
    simp only
    split
    · hexec' [hc]
      refine ⟨_, rfl, keep_wr (Or.inl rfl), ?_⟩
      hexec' [rd_d_of hx]
      show BitVec.setWidth 64 (x + 0#32 + EffAddr.disp32 mod1 d) = _
      rw [BitVec.add_zero]
    · hexec' [hc]
      refine ⟨_, rfl, (keep_wr (Or.inl rfl)).trans (keep_wr (Or.inl rfl)), ?_⟩
      hexec' [rd_d_of hx]
      show BitVec.setWidth 64 (e.seg m.seg + x <<< 0 + EffAddr.disp32 mod1 d) = _
      rw [BitVec.shiftLeft_zero]

theorem stage_base16 {e : Env} {h : St} (hc : h.r .rcx = e.ctx) (b : Option (Fin 8)) :
    Stage e (base16Code b) h (fun h1 => h1.r .r10 = BitVec.setWidth 64 (EffAddr.base16 h.g.gpr b)) := by
  cases b with
  | none =>
    unfold Stage base16Code
    hexec' [hc]
    refine ⟨_, rfl, keep_wr (Or.inr (Or.inl rfl)) |>.trans keep_setF, ?_⟩
    hexec' []
    show BitVec.setWidth 64 (rd h Sz.d Reg.r10 ^^^ rd h Sz.d Reg.r10) = _
    rw [BitVec.xor_self]
    rfl
  | some b =>
    unfold Stage base16Code
    hexec' [hc]
    refine ⟨_, rfl, keep_wr (Or.inr (Or.inl rfl)), ?_⟩
    hexec' []
    rw [rdG_whole_w]
    show BitVec.setWidth 64 (BitVec.setWidth 32 (BitVec.setWidth 16 (h.g.gpr b))) = BitVec.setWidth 64 (BitVec.setWidth 16 (h.g.gpr b))
    generalize BitVec.setWidth 16 (h.g.gpr b) = y
    bits64


theorem stage_index16 {e : Env} {h : St} (hc : h.r .rcx = e.ctx) (i : Option (Fin 8 × Nat)) (hi : ∀ j n, i = some (j, n) → n ≤ 3) (x : BitVec 16)
    (hx : h.r .r10 = BitVec.setWidth 64 x) :
    Stage e (index16Code i) h (fun h1 => h1.r .r10 = BitVec.setWidth 64 (EffAddr.index16 h.g.gpr x i)) := by
  cases i with
  | none => exact ⟨h, rfl, Keep.rfl', hx⟩
  | some p =>
    obtain ⟨i, n⟩ := p
    have hn := hi i n rfl
    unfold Stage index16Code
    have hk : ∀ h : St, hostCount h (some n) = n := fun h => by unfold hostCount; simp only; omega
    have key : ∀ (g : St) (y : BitVec 16), rd g .w .r11 = y → g.r .r10 = BitVec.setWidth 64 x → Keep h g →
        ∃ h1, run e 0 [.alu .add .w .r10 (.reg .r11)] g = .next 0 h1 ∧ Keep h h1 ∧ h1.r .r10 = BitVec.setWidth 64 (x + y) := by
      intro g y hy hg hk
      hexec' []
      refine ⟨_, rfl, hk.trans ((keep_wr (Or.inr (Or.inl rfl))).trans keep_setF), ?_⟩
      simp only [setF_r]
      rw [wr_w _ _ _ x hg, rd_w_of hg, hy]
    by_cases h0 : n = 0
    · subst h0
      have : ∀ h : St, step e h (.shop (.sh .shl) .w .r11 .r11 (some 0)) = .next 0 h := by
        intro h
        simp only [step]
        unfold shopStep
        simp only [hk]
        rfl
      have e1 : run e 0 [.ldG .w .r11 (whole i), .shop (.sh .shl) .w .r11 .r11 (some 0), .alu .add .w .r10 (.reg .r11)] h =
          run e 0 [.alu .add .w .r10 (.reg .r11)] (wr h .w .r11 (rdG h.g .w (whole i))) := by
        rw [run_step]
        simp only [step, ctxd, hc, if_true]
        rw [run_step, this]
      rw [e1]
      have := key (wr h .w .r11 (rdG h.g .w (whole i))) ((h.g.gpr i).setWidth 16) (by rw [rd_wr_same, rdG_whole_w])
        (by rw [wr_r_ne _ _ (by simp)]; exact hx) (keep_wr (Or.inr (Or.inr rfl)))
      show ∃ h1, _ ∧ _ ∧ _ = BitVec.setWidth 64 (x + BitVec.setWidth 16 (h.g.gpr i) <<< 0)
      rw [BitVec.shiftLeft_zero]
      exact this
    · generalize hh : wr h .w .r11 (rdG h.g .w (whole i)) = h1
      have k1 : Keep h h1 := by rw [← hh]; exact keep_wr (Or.inr (Or.inr rfl))
      have r1 : rd h1 .w .r11 = (h.g.gpr i).setWidth 16 := by rw [← hh, rd_wr_same, rdG_whole_w]
      have x1 : h1.r .r10 = BitVec.setWidth 64 x := by rw [← hh, wr_r_ne _ _ (by simp)]; exact hx
      generalize hv : (Flags.hostShift .shl (rd h1 .w .r11) n ⟨e.hf h1 .cf, e.hf h1 .of, (e.hv h1 .r11).setWidth Sz.w.bits⟩) = v
      have v1 : v.1 = (h.g.gpr i).setWidth 16 <<< n := by
        rw [← hv, r1]
        exact Flags.hostShl_val _ _ _
      have e2 : step e h1 (.shop (.sh .shl) .w .r11 .r11 (some n)) = .next 0 ((wr h1 .w .r11 v.1).setF (e.hf h1 .zf) v.2.1 v.2.2 (e.hf h1 .sf)) := by
        simp only [step]
        unfold shopStep
        simp only [hk]
        rw [if_neg (by simp), if_neg h0]
        unfold ShF.eval
        simp only
        rw [hv]
      have e1 : run e 0 [.ldG .w .r11 (whole i), .shop (.sh .shl) .w .r11 .r11 (some n), .alu .add .w .r10 (.reg .r11)] h =
          run e 0 [.alu .add .w .r10 (.reg .r11)] ((wr h1 .w .r11 v.1).setF (e.hf h1 .zf) v.2.1 v.2.2 (e.hf h1 .sf)) := by
        rw [run_step]
        simp only [step, ctxd, hc, if_true, hh]
        rw [run_step, e2]
      rw [e1]
      exact key _ ((h.g.gpr i).setWidth 16 <<< n) (by rw [rd_setF, rd_wr_same, v1])
        (by rw [setF_r, wr_r_ne _ _ (by simp)]; exact x1) (k1.trans ((keep_wr (Or.inr (Or.inr rfl))).trans keep_setF))

theorem stage_disp16 {e : Env} {h : St} (hc : h.r .rcx = e.ctx) (m : MemOp) (mod1 : Bool) (d : Option (BitVec 64)) (x : BitVec 16)
    (hx : h.r .r10 = BitVec.setWidth 64 x) :
    Stage e (disp16Code m mod1 d) h (fun h1 => h1.r .rdx = BitVec.setWidth 64 (match d with
      | some d => if m.addBase == false || m.flat then (x + EffAddr.disp16 mod1 d).setWidth 32
          else e.seg m.seg + (x + EffAddr.disp16 mod1 d).setWidth 32
      | none => if m.addBase == false || m.flat then x.setWidth 32 else e.seg m.seg + x.setWidth 32)) := by
  have imm : ∀ y : BitVec 16, BitVec.setWidth Sz.w.bits (BitVec.setWidth 64 y) = y := by
    intro y
    show BitVec.setWidth 16 (BitVec.setWidth 64 y) = y
    simp
  have low : ∀ g : St, ∀ y : BitVec 16, g.r .r10 = BitVec.setWidth 64 y → rd g .d .r10 = BitVec.setWidth 32 y := by
    intro g y hy
    apply rd_d_of
    rw [hy]
    bits64
  rw [show (m.addBase == false) = !m.addBase by cases m.addBase <;> rfl]
  cases d with
  | none =>
    unfold Stage disp16Code
    simp only
    split
    · hexec' [hc]
      refine ⟨_, rfl, keep_wr (Or.inl rfl), ?_⟩
      hexec' [rd_w_of hx]
    · hexec' [hc]
      refine ⟨_, rfl, (keep_wr (Or.inl rfl)).trans ((keep_wr (Or.inl rfl)).trans keep_setF), ?_⟩
      hexec' [low h x hx]
  | some d =>
    unfold Stage disp16Code
    simp only
    split
    · hexec' [hc]
      refine ⟨_, rfl, ((keep_wr (Or.inr (Or.inl rfl))).trans keep_setF).trans (keep_wr (Or.inl rfl)), ?_⟩
      hexec' [rd_w_of hx, imm]
    · hexec' [hc]
      refine ⟨_, rfl, ((keep_wr (Or.inl rfl)).trans ((keep_wr (Or.inr (Or.inl rfl))).trans keep_setF)).trans ((keep_wr (Or.inl rfl)).trans keep_setF), ?_⟩
      hexec' [rd_w_of hx, imm]
      have : ∀ v : BitVec 32, rd (wr (wr h Sz.d Reg.rdx v) Sz.w Reg.r10 (x + EffAddr.disp16 mod1 d)) Sz.d Reg.r10 =
          BitVec.setWidth 32 (x + EffAddr.disp16 mod1 d) := by
        intro v
        apply low
        exact wr_w _ _ _ x (by rw [wr_r_ne _ _ (by simp)]; exact hx)
      erw [this]

/-- The code of a memory operand is `.ea` of its address. -/
theorem eaCode_run {e : Env} {h : St} (hc : h.r .rcx = e.ctx) (m : MemOp) (hm : m.ok) :
    ∃ a : Ea, a.lin = m.addr e h.g ∧ stepWith e m h (.ea a) = step e h (.ea a) := by
  have fin : Stage e (eaCode m) h (fun h1 => h1.r .rdx = BitVec.setWidth 64 (m.addr e h.g)) := by
    obtain ⟨a32, mode, seg, flat, addBase⟩ := m
    cases mode with
    | moffs d =>
      unfold Stage eaCode MemOp.addr EffAddr.moffs
      simp only
      have : ∀ a32 : Bool, BitVec.setWidth Sz.d.bits (if a32 then d else d &&& 0xFFFF#64) =
          if a32 then d.setWidth 32 else (d &&& 0xFFFF#64).setWidth 32 := by intro a; cases a <;> rfl
      cases hb : (addBase && !flat)
      rotate_left
      · hexec' [hc]
        refine ⟨_, rfl, (keep_wr (Or.inl rfl)).trans ((keep_wr (Or.inl rfl)).trans keep_setF), ?_⟩
        hexec' [this]
      · hexec' [hc]
        refine ⟨_, rfl, keep_wr (Or.inl rfl), ?_⟩
        hexec' [this]
    | modrm o =>
      unfold eaCode MemOp.addr EffAddr.ea
      simp only
      cases a32 with
      | true =>
        simp only [if_true]
        refine stage_append (stage_base32 hc o.base) (fun h1 k1 p1 => ?_)
        have c1 : h1.r .rcx = e.ctx := by rw [k1.r _ (by simp) (by simp) (by simp)]; exact hc
        refine stage_append (stage_index32 c1 o.index _ p1) (fun h2 k2 p2 => ?_)
        have c2 : h2.r .rcx = e.ctx := by rw [k2.r _ (by simp) (by simp) (by simp)]; exact c1
        have := stage_disp32 c2 ⟨true, .modrm o, seg, flat, addBase⟩ o.mod1 o.disp _ p2
        rw [k1.g] at this
        exact this
      | false =>
        simp only [Bool.false_eq_true, if_false]
        refine stage_append (stage_base16 hc o.base) (fun h1 k1 p1 => ?_)
        have c1 : h1.r .rcx = e.ctx := by rw [k1.r _ (by simp) (by simp) (by simp)]; exact hc
        refine stage_append (stage_index16 c1 o.index hm _ p1) (fun h2 k2 p2 => ?_)
        have c2 : h2.r .rcx = e.ctx := by rw [k2.r _ (by simp) (by simp) (by simp)]; exact c1
        have := stage_disp16 c2 ⟨false, .modrm o, seg, flat, addBase⟩ o.mod1 o.disp _ p2
        rw [k1.g] at this
        exact this
  obtain ⟨h1, r1, k1, p1⟩ := fin
  refine ⟨⟨m.addr e h.g, h1.r .r10, h1.r .r11, fun f => match f with | .zf => h1.zf | .cf => h1.cf | .of => h1.of | .sf => h1.sf⟩, rfl, ?_⟩
  unfold stepWith
  simp only [r1, step]
  congr 1
  obtain ⟨r, loc, zf, cf, of, sf, g⟩ := h1
  have hl := k1.loc
  have hg := k1.g
  simp only at hl hg p1
  subst hl hg
  unfold St.setF St.set wr St.set put
  simp only
  congr 1
  funext x
  by_cases h11 : x = .r11
  · rw [if_pos h11, h11]
  · rw [if_neg h11]
    by_cases h10 : x = .r10
    · rw [if_pos h10, h10]
    · rw [if_neg h10]
      by_cases hd : x = .rdx
      · rw [if_pos hd, hd]; exact p1
      · rw [if_neg hd]; exact k1.r x hd h10 h11

end Verif.Emit
