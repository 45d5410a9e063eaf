import Verif.Model.Emit
import Verif.Lemmas.Host
namespace Verif.Emit
open Host

/-- Run emitted code symbolically; the argument are further rewriting rules. -/
macro "hexec" "[" ts:Lean.Parser.Tactic.simpLemma,* "]" : tactic =>
  `(tactic| simp only [run_nil, run_step, run_skip, step, ctxd, List.cons_append, List.nil_append, List.append_nil,
    ite_true, ite_false, if_true, if_false, rd_wr_same, rd_wr_ne, wr_r_ne, wr_g, wr_loc, wr_zf, rd_set_ne, set_r_same, set_r_ne, set_g,
    set_loc, set_zf, rd_setF, setF_r, setF_g, setF_loc, setF_zf, rd_setG, setG_r, setG_g, setG_loc, setG_zf,
    rd_wrL, wrL_r, wrL_g, wrL_zf, rdL_wrL_same, rdL_wrL_ne, rdL_wr, rdL_set, rdL_setF, rdL_setG, rdL_clob, Nat.zero_ne_one, Nat.one_ne_zero, rd_clob_rbx, clob_rbx, clob_rcx, clob_g, clob_loc, val_reg, val_imm,
    ne_eq, reduceCtorEq, not_false_eq_true, Alu.eval, Sh.eval, $ts,*])

/-- The second operand of the flag sequences. -/
def Bok (b : Src) : Prop := b = .reg .rbx ∨ b = .reg .rdx ∨ ∃ v, b = .imm v
/-- The first one. -/
def Aok (a : Src) (isEax : Bool) : Prop := (isEax = true ∧ a = .reg .rax) ∨ (isEax = false ∧ (a = .reg .rbx ∨ ∃ v, a = .imm v))


theorem aux32 (v : BitVec 32) : v &&& 0xC0000008#32 = Flags.placeAux v := by
  unfold Flags.placeAux
  rw [if_pos rfl, BitVec.setWidth_eq]
theorem aux16 (v : BitVec 16) : ((BitVec.setWidth 32 v <<< 16) ||| BitVec.setWidth 32 v) &&& 0xC0000008#32 = Flags.placeAux v := by
  unfold Flags.placeAux
  rw [if_neg (by decide)]
theorem aux8 (v : BitVec 8) : ((BitVec.setWidth 32 v <<< 24) ||| BitVec.setWidth 32 v) &&& 0xC0000008#32 = Flags.placeAux v := by
  unfold Flags.placeAux
  rw [if_neg (by decide)]

theorem fl_ext {x y : Flags.St} (h1 : x.eflags = y.eflags) (h2 : x.res = y.res) (h3 : x.aux = y.aux) : x = y := by
  cases x; cases y; simp only at *; subst h1 h2 h3; rfl

theorem sx16 (v : BitVec Sz.w.bits) : BitVec.setWidth Sz.w.bits (BitVec.signExtend 32 v) = v := by
  change BitVec 16 at v
  show BitVec.setWidth 16 (BitVec.signExtend 32 v) = v
  ext i hi
  rw [BitVec.getElem_setWidth, BitVec.getLsbD_signExtend, if_pos (by omega)]
  have : i < 32 := by omega
  simp [hi, this]
theorem sx8 (v : BitVec Sz.b.bits) : BitVec.setWidth Sz.b.bits (BitVec.signExtend 32 v) = v := by
  change BitVec 8 at v
  show BitVec.setWidth 8 (BitVec.signExtend 32 v) = v
  ext i hi
  rw [BitVec.getElem_setWidth, BitVec.getLsbD_signExtend, if_pos (by omega)]
  have : i < 32 := by omega
  simp [hi, this]

theorem finSum_d (g : G) (a b s : BitVec Sz.d.bits) :
    ({ g with fl := { g.fl with res := s, aux := ((((a ||| b) &&& ~~~s) ||| (a &&& b))) &&& BitVec.setWidth Sz.d.bits 0xC0000008#64 } } : G) =
    { g with fl := Flags.setFlagsSum g.fl a b s } := by
  refine congrArg (fun x => ({ g with fl := x } : G)) (fl_ext rfl (BitVec.signExtend_eq _).symm ?_)
  
  show ((((a ||| b) &&& ~~~s) ||| (a &&& b))) &&& 0xC0000008#32 = Flags.placeAux (Flags.sumVec a b s)
  rw [aux32]
  rfl

theorem flagsSum_d (e : Env) (h : St) (hc : h.r .rcx = e.ctx) (a b : Src) (isEax : Bool) (ha : Aok a isEax) (hb : Bok b) :
    ∃ h', run e 0 (setFlagsSum .d a isEax b) h = .next 0 h' ∧
      h'.g = { h.g with fl := Flags.setFlagsSum h.g.fl (a.val h .d) (b.val h .d) (rd h .d .r8) } ∧
      h'.r .rcx = e.ctx ∧ h'.r .rbx = h.r .rbx ∧ h'.loc = h.loc ∧ h'.r .r11 = h.r .r11 := by
  rcases ha with ⟨rfl, rfl⟩ | ⟨rfl, rfl | ⟨v, rfl⟩⟩ <;> rcases hb with rfl | rfl | ⟨w, rfl⟩ <;>
  · unfold setFlagsSum flagsPre sumVec32
    hexec [hc]
    refine ⟨_, rfl, ?_, ?_⟩
    · hexec []
      exact finSum_d _ _ _ _
    · hexec []
      simp

theorem finSub_d (g : G) (a b d : BitVec Sz.d.bits) :
    ({ g with fl := { g.fl with res := d, aux := (((~~~(a ^^^ b) &&& d) ||| (~~~a &&& b))) &&& BitVec.setWidth Sz.d.bits 0xC0000008#64 } } : G) =
    { g with fl := Flags.setFlagsSub g.fl a b d } := by
  refine congrArg (fun x => ({ g with fl := x } : G)) (fl_ext rfl (BitVec.signExtend_eq _).symm ?_)
  
  show (((~~~(a ^^^ b) &&& d) ||| (~~~a &&& b))) &&& 0xC0000008#32 = Flags.placeAux (Flags.subVec a b d)
  rw [aux32]
  exact congrArg Flags.placeAux (BitVec.or_comm _ _)

theorem flagsSub_d (e : Env) (h : St) (hc : h.r .rcx = e.ctx) (a b : Src) (isEax : Bool) (ha : Aok a isEax) (hb : Bok b) :
    ∃ h', run e 0 (setFlagsSub .d a isEax b) h = .next 0 h' ∧
      h'.g = { h.g with fl := Flags.setFlagsSub h.g.fl (a.val h .d) (b.val h .d) (rd h .d .r8) } ∧
      h'.r .rcx = e.ctx ∧ h'.r .rbx = h.r .rbx ∧ h'.loc = h.loc ∧ h'.r .r11 = h.r .r11 := by
  rcases ha with ⟨rfl, rfl⟩ | ⟨rfl, rfl | ⟨v, rfl⟩⟩ <;> rcases hb with rfl | rfl | ⟨w, rfl⟩ <;>
  · unfold setFlagsSub flagsPre subVec32
    hexec [hc]
    refine ⟨_, rfl, ?_, ?_⟩
    · hexec []
      exact finSub_d _ _ _ _
    · hexec []
      simp

theorem finSum_w (g : G) (a b s : BitVec Sz.w.bits) :
    ({ g with fl := { g.fl with res := BitVec.signExtend 32 s, aux := ((BitVec.setWidth 32 ((a &&& b) ||| ((a ||| b) &&& ~~~BitVec.setWidth Sz.w.bits (BitVec.signExtend 32 s))) <<< 16) ||| BitVec.setWidth 32 ((a &&& b) ||| ((a ||| b) &&& ~~~BitVec.setWidth Sz.w.bits (BitVec.signExtend 32 s)))) &&& BitVec.setWidth Sz.d.bits 0xC0000008#64 } } : G) =
    { g with fl := Flags.setFlagsSum g.fl a b s } := by
  refine congrArg (fun x => ({ g with fl := x } : G)) (fl_ext rfl rfl ?_)
  rw [sx16]
  show ((BitVec.setWidth 32 ((a &&& b) ||| ((a ||| b) &&& ~~~s)) <<< 16) ||| BitVec.setWidth 32 ((a &&& b) ||| ((a ||| b) &&& ~~~s))) &&& 0xC0000008#32 = Flags.placeAux (Flags.sumVec a b s)
  rw [aux16]
  exact congrArg Flags.placeAux (BitVec.or_comm _ _)

theorem flagsSum_w (e : Env) (h : St) (hc : h.r .rcx = e.ctx) (a b : Src) (isEax : Bool) (ha : Aok a isEax) (hb : Bok b) :
    ∃ h', run e 0 (setFlagsSum .w a isEax b) h = .next 0 h' ∧
      h'.g = { h.g with fl := Flags.setFlagsSum h.g.fl (a.val h .w) (b.val h .w) (rd h .w .r8) } ∧
      h'.r .rcx = e.ctx ∧ h'.r .rbx = h.r .rbx ∧ h'.loc = h.loc ∧ h'.r .r11 = h.r .r11 := by
  rcases ha with ⟨rfl, rfl⟩ | ⟨rfl, rfl | ⟨v, rfl⟩⟩ <;> rcases hb with rfl | rfl | ⟨w, rfl⟩ <;>
  · unfold setFlagsSum flagsPre sumVecSmall
    hexec [hc, rd_wr_d]
    refine ⟨_, rfl, ?_, ?_⟩
    · hexec [rd_wr_d]
      exact finSum_w _ _ _ _
    · hexec []
      simp

theorem finSub_w (g : G) (a b d : BitVec Sz.w.bits) :
    ({ g with fl := { g.fl with res := BitVec.signExtend 32 d, aux := ((BitVec.setWidth 32 ((~~~a &&& b) ||| (~~~(a ^^^ b) &&& BitVec.setWidth Sz.w.bits (BitVec.signExtend 32 d))) <<< 16) ||| BitVec.setWidth 32 ((~~~a &&& b) ||| (~~~(a ^^^ b) &&& BitVec.setWidth Sz.w.bits (BitVec.signExtend 32 d)))) &&& BitVec.setWidth Sz.d.bits 0xC0000008#64 } } : G) =
    { g with fl := Flags.setFlagsSub g.fl a b d } := by
  refine congrArg (fun x => ({ g with fl := x } : G)) (fl_ext rfl rfl ?_)
  rw [sx16]
  show ((BitVec.setWidth 32 ((~~~a &&& b) ||| (~~~(a ^^^ b) &&& d)) <<< 16) ||| BitVec.setWidth 32 ((~~~a &&& b) ||| (~~~(a ^^^ b) &&& d))) &&& 0xC0000008#32 = Flags.placeAux (Flags.subVec a b d)
  rw [aux16]
  rfl

theorem flagsSub_w (e : Env) (h : St) (hc : h.r .rcx = e.ctx) (a b : Src) (isEax : Bool) (ha : Aok a isEax) (hb : Bok b) :
    ∃ h', run e 0 (setFlagsSub .w a isEax b) h = .next 0 h' ∧
      h'.g = { h.g with fl := Flags.setFlagsSub h.g.fl (a.val h .w) (b.val h .w) (rd h .w .r8) } ∧
      h'.r .rcx = e.ctx ∧ h'.r .rbx = h.r .rbx ∧ h'.loc = h.loc ∧ h'.r .r11 = h.r .r11 := by
  rcases ha with ⟨rfl, rfl⟩ | ⟨rfl, rfl | ⟨v, rfl⟩⟩ <;> rcases hb with rfl | rfl | ⟨w, rfl⟩ <;>
  · unfold setFlagsSub flagsPre subVecSmall
    hexec [hc, rd_wr_d]
    refine ⟨_, rfl, ?_, ?_⟩
    · hexec [rd_wr_d]
      exact finSub_w _ _ _ _
    · hexec []
      simp

theorem finSum_b (g : G) (a b s : BitVec Sz.b.bits) :
    ({ g with fl := { g.fl with res := BitVec.signExtend 32 s, aux := ((BitVec.setWidth 32 ((a &&& b) ||| ((a ||| b) &&& ~~~BitVec.setWidth Sz.b.bits (BitVec.signExtend 32 s))) <<< 24) ||| BitVec.setWidth 32 ((a &&& b) ||| ((a ||| b) &&& ~~~BitVec.setWidth Sz.b.bits (BitVec.signExtend 32 s)))) &&& BitVec.setWidth Sz.d.bits 0xC0000008#64 } } : G) =
    { g with fl := Flags.setFlagsSum g.fl a b s } := by
  refine congrArg (fun x => ({ g with fl := x } : G)) (fl_ext rfl rfl ?_)
  rw [sx8]
  show ((BitVec.setWidth 32 ((a &&& b) ||| ((a ||| b) &&& ~~~s)) <<< 24) ||| BitVec.setWidth 32 ((a &&& b) ||| ((a ||| b) &&& ~~~s))) &&& 0xC0000008#32 = Flags.placeAux (Flags.sumVec a b s)
  rw [aux8]
  exact congrArg Flags.placeAux (BitVec.or_comm _ _)

theorem flagsSum_b (e : Env) (h : St) (hc : h.r .rcx = e.ctx) (a b : Src) (isEax : Bool) (ha : Aok a isEax) (hb : Bok b) :
    ∃ h', run e 0 (setFlagsSum .b a isEax b) h = .next 0 h' ∧
      h'.g = { h.g with fl := Flags.setFlagsSum h.g.fl (a.val h .b) (b.val h .b) (rd h .b .r8) } ∧
      h'.r .rcx = e.ctx ∧ h'.r .rbx = h.r .rbx ∧ h'.loc = h.loc ∧ h'.r .r11 = h.r .r11 := by
  rcases ha with ⟨rfl, rfl⟩ | ⟨rfl, rfl | ⟨v, rfl⟩⟩ <;> rcases hb with rfl | rfl | ⟨w, rfl⟩ <;>
  · unfold setFlagsSum flagsPre sumVecSmall
    hexec [hc, rd_wr_d]
    refine ⟨_, rfl, ?_, ?_⟩
    · hexec [rd_wr_d]
      exact finSum_b _ _ _ _
    · hexec []
      simp

theorem finSub_b (g : G) (a b d : BitVec Sz.b.bits) :
    ({ g with fl := { g.fl with res := BitVec.signExtend 32 d, aux := ((BitVec.setWidth 32 ((~~~a &&& b) ||| (~~~(a ^^^ b) &&& BitVec.setWidth Sz.b.bits (BitVec.signExtend 32 d))) <<< 24) ||| BitVec.setWidth 32 ((~~~a &&& b) ||| (~~~(a ^^^ b) &&& BitVec.setWidth Sz.b.bits (BitVec.signExtend 32 d)))) &&& BitVec.setWidth Sz.d.bits 0xC0000008#64 } } : G) =
    { g with fl := Flags.setFlagsSub g.fl a b d } := by
  refine congrArg (fun x => ({ g with fl := x } : G)) (fl_ext rfl rfl ?_)
  rw [sx8]
  show ((BitVec.setWidth 32 ((~~~a &&& b) ||| (~~~(a ^^^ b) &&& d)) <<< 24) ||| BitVec.setWidth 32 ((~~~a &&& b) ||| (~~~(a ^^^ b) &&& d))) &&& 0xC0000008#32 = Flags.placeAux (Flags.subVec a b d)
  rw [aux8]
  rfl

theorem flagsSub_b (e : Env) (h : St) (hc : h.r .rcx = e.ctx) (a b : Src) (isEax : Bool) (ha : Aok a isEax) (hb : Bok b) :
    ∃ h', run e 0 (setFlagsSub .b a isEax b) h = .next 0 h' ∧
      h'.g = { h.g with fl := Flags.setFlagsSub h.g.fl (a.val h .b) (b.val h .b) (rd h .b .r8) } ∧
      h'.r .rcx = e.ctx ∧ h'.r .rbx = h.r .rbx ∧ h'.loc = h.loc ∧ h'.r .r11 = h.r .r11 := by
  rcases ha with ⟨rfl, rfl⟩ | ⟨rfl, rfl | ⟨v, rfl⟩⟩ <;> rcases hb with rfl | rfl | ⟨w, rfl⟩ <;>
  · unfold setFlagsSub flagsPre subVecSmall
    hexec [hc, rd_wr_d]
    refine ⟨_, rfl, ?_, ?_⟩
    · hexec [rd_wr_d]
      exact finSub_b _ _ _ _
    · hexec []
      simp
end Verif.Emit
