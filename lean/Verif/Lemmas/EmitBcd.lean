import Verif.Lemmas.EmitFlag
import Verif.Model.Bcd
namespace Verif.Emit
open Host

/-- AL, AH and the flags. -/
def bcdOf (g : G) : Flags.BcdSt := ⟨rdG g .b acc, rdG g .b ah, g.fl⟩
/-- The state with other AL, AH and flags. -/
def bcdTo (g : G) (t : Flags.BcdSt) : G := { wrG (wrG g .b acc t.al) .b ah t.ah with fl := t.fl }

theorem ax_of (g : G) : rdG g .w acc = (bcdOf g).ax := by
  show (g.gpr 0).setWidth 16 = (((g.gpr 0) >>> 8).setWidth 8 : BitVec 8).setWidth 16 <<< 8 ||| ((g.gpr 0).setWidth 8 : BitVec 8).setWidth 16
  generalize g.gpr 0 = x
  bits16
theorem put_ax (o : BitVec 32) (x : BitVec 16) (y : BitVec 8) :
    putG .b false (putG .w false o x) y = putG .b true (putG .b false o y) ((x >>> 8).setWidth 8) := by
  show ((o &&& 0xFFFF0000#32 ||| x.setWidth 32) &&& 0xFFFFFF00#32) ||| y.setWidth 32 =
    (((o &&& 0xFFFFFF00#32) ||| y.setWidth 32) &&& 0xFFFF00FF#32) ||| (((x >>> 8).setWidth 8 : BitVec 8).setWidth 32 <<< 8)
  bits32
theorem put_ah (o : BitVec 32) (y : BitVec 8) :
    putG .b false o y = putG .b true (putG .b false o y) ((o >>> 8).setWidth 8) := by
  show (o &&& 0xFFFFFF00#32) ||| y.setWidth 32 =
    (((o &&& 0xFFFFFF00#32) ||| y.setWidth 32) &&& 0xFFFF00FF#32) ||| (((o >>> 8).setWidth 8 : BitVec 8).setWidth 32 <<< 8)
  bits32
theorem gExt {g g' : G} (h1 : ∀ i, g.gpr i = g'.gpr i) (h2 : g.fl = g'.fl) (h3 : g.mem = g'.mem) : g = g' := by
  cases g
  cases g'
  cases h2
  cases h3
  congr 1
  exact funext h1
theorem bcdTo_ax (g : G) (x : BitVec 16) (y : BitVec 8) (f : Flags.St) :
    { wrG (wrG g .w acc x) .b acc y with fl := f } = bcdTo g ⟨y, (x >>> 8).setWidth 8, f⟩ := by
  refine gExt (fun i => ?_) rfl rfl
  by_cases h : i = 0
  · subst h
    exact put_ax _ _ _
  · simp [bcdTo, wrG, acc, ah, h]
theorem bcdTo_al (g : G) (y : BitVec 8) (f : Flags.St) :
    { wrG g .b acc y with fl := f } = bcdTo g ⟨y, (bcdOf g).ah, f⟩ := by
  refine gExt (fun i => ?_) rfl rfl
  by_cases h : i = 0
  · subst h
    exact put_ah _ _
  · simp [bcdTo, wrG, acc, ah, h]

theorem rd_b_w (h : Host.St) (r : Reg) : rd h .b r = (rd h .w r).setWidth 8 :=
  (BitVec.setWidth_setWidth_of_le _ (by decide)).symm
theorem rd_b_d (h : Host.St) (r : Reg) : rd h .b r = (rd h .d r).setWidth 8 :=
  (BitVec.setWidth_setWidth_of_le _ (by decide)).symm
/-- What stays through a comparison and a jump. -/
structure Kept (h h' : Host.St) : Prop where
  regs : h'.r = h.r
  g : h'.g = h.g
  loc : h'.loc = h.loc
theorem Kept.rd {h h' : Host.St} (k : Kept h h') (z : Sz) (r : Reg) : rd h' z r = rd h z r := by unfold Host.rd; rw [k.regs]
theorem cmpJa_run {e : Env} {h : Host.St} (z : Sz) (d : Reg) (s : Src) (n : Nat) (a b : BitVec z.bits) (ha : rd h z d = a) (hb : s.val h z = b) :
    ∃ h', run e 0 [.cmp z d s, .ja n] h = .next (if b.toNat < a.toNat then n else 0) h' ∧ Kept h h' := by
  refine ⟨h.setF (a == b) (decide (a.toNat < b.toNat)) (decide ((a - b).toInt ≠ a.toInt - b.toInt)) (a - b).msb, ?_, rfl, rfl, rfl⟩
  rw [run_step]
  simp only [step]
  rw [ha, hb]
  try dsimp only
  rw [run_step]
  simp only [step]
  have : ((!decide (a.toNat < b.toNat) && !(a == b)) = true) = (b.toNat < a.toNat) := by
    simp only [Bool.and_eq_true, Bool.not_eq_true', decide_eq_false_iff_not, beq_eq_false_iff_ne, ne_eq, BitVec.toNat_eq, eq_iff_iff]
    omega
  show (match Out.next (if (!decide (a.toNat < b.toNat) && !(a == b)) = true then n else 0) _ with
    | .next k h' => run e k [] h'
    | .fault g => .fault g
    | .stuck => .stuck) = _
  try dsimp only
  rw [run_nil]
  by_cases hx : b.toNat < a.toNat
  · rw [if_pos (this ▸ hx), if_pos hx]
  · rw [if_neg (this ▸ hx), if_neg hx]
theorem cmpJeq_run {e : Env} {h : Host.St} (z : Sz) (d : Reg) (s : Src) (n : Nat) (a b : BitVec z.bits) (ha : rd h z d = a) (hb : s.val h z = b) :
    ∃ h', run e 0 [.cmp z d s, .jeq n] h = .next (if a = b then n else 0) h' ∧ Kept h h' := by
  refine ⟨h.setF (a == b) (decide (a.toNat < b.toNat)) (decide ((a - b).toInt ≠ a.toInt - b.toInt)) (a - b).msb, ?_, rfl, rfl, rfl⟩
  rw [run_step]
  simp only [step]
  rw [ha, hb]
  try dsimp only
  rw [run_step]
  simp only [step]
  show (match Out.next (if (a == b) = true then n else 0) _ with
    | .next k h' => run e k [] h'
    | .fault g => .fault g
    | .stuck => .stuck) = _
  try dsimp only
  rw [run_nil]
  by_cases hx : a = b
  · rw [if_pos (by simpa using hx), if_pos hx]
  · rw [if_neg (by simpa using hx), if_neg hx]

theorem aaA_run {e : Env} {h : Host.St} (hc : h.r .rcx = e.ctx) (x y : Reg) (hxy : (x = .rax ∧ y = .rdx) ∨ (x = .rbx ∧ y = .rax)) :
    ∃ h', run e 0 ([.ldG .w x acc, .mov .w y (.reg x), .alu .and .w y (.imm 0xF#64)] ++ [.cmp .b y (.imm 9#64), .ja 4]) h =
        .next (if 9 < (((bcdOf h.g).ax &&& 0xF#16).setWidth 8 : BitVec 8).toNat then 4 else 0) h' ∧ h'.r .rcx = e.ctx ∧ h'.g = h.g ∧
      rd h' .w x = (bcdOf h.g).ax ∧ rd h' .w y = (bcdOf h.g).ax &&& 0xF#16 := by
  obtain ⟨h1, r1, c1, g1, x1, y1⟩ : ∃ h1, run e 0 [.ldG .w x acc, .mov .w y (.reg x), .alu .and .w y (.imm 0xF#64)] h = .next 0 h1 ∧ h1.r .rcx = e.ctx ∧ h1.g = h.g ∧
      rd h1 .w x = (bcdOf h.g).ax ∧ rd h1 .w y = (bcdOf h.g).ax &&& 0xF#16 := by
    rcases hxy with ⟨rfl, rfl⟩ | ⟨rfl, rfl⟩ <;>
    · hexec' [hc, ax_of]
      refine ⟨_, rfl, ?_⟩
      hexec' [hc]
      exact ⟨trivial, trivial, trivial, rfl⟩
  obtain ⟨h2, r2, k2⟩ := cmpJa_run (e := e) (h := h1) .b y (.imm 9#64) 4 _ 9#8 (by rw [rd_b_w, y1]) rfl
  refine ⟨h2, (run_append _ r1).trans r2, ?_, by rw [k2.g, g1], by rw [k2.rd, x1], by rw [k2.rd, y1]⟩
  rw [k2.regs, c1]
theorem aaB_run {e : Env} {h : Host.St} (hc : h.r .rcx = e.ctx) (r : Reg) (n : Nat) :
    ∃ h', run e 0 ([.ldAux r, .alu .and .d r (.imm 8#64)] ++ [.cmp .d r (.imm 0#64), .jeq n]) h =
        .next (if h.g.fl.aux &&& 8#32 = 0#32 then n else 0) h' ∧ h'.g = h.g ∧ ∀ x, x ≠ r → h'.r x = h.r x := by
  obtain ⟨h1, r1, g1, k1, x1⟩ : ∃ h1, run e 0 [.ldAux r, .alu .and .d r (.imm 8#64)] h = .next 0 h1 ∧ h1.g = h.g ∧ (∀ x, x ≠ r → h1.r x = h.r x) ∧
      rd h1 .d r = h.g.fl.aux &&& 8#32 := by
    hexec' [hc]
    refine ⟨_, rfl, ?_⟩
    hexec' [hc]
    refine ⟨trivial, fun x hx => ?_, rfl⟩
    rw [wr_r_ne _ _ hx, wr_r_ne _ _ hx]
  obtain ⟨h2, r2, k2⟩ := cmpJeq_run (e := e) (h := h1) .d r (.imm 0#64) n _ 0#32 x1 rfl
  exact ⟨h2, (run_append _ r1).trans r2, by rw [k2.g, g1], fun x hx => by rw [k2.regs, k1 x hx]⟩
theorem aaC_run {e : Env} {h : Host.St} (hc : h.r .rcx = e.ctx) (a : BitVec 16) (ha : rd h .w .rax = a) :
    ∃ h', run e 0 [.alu .add .w .rax (.imm 0x106#64), .mov .w .rdx (.reg .rax), .alu .and .b .rdx (.imm 0xF#64), .stG .w acc .rax, .stAux (.imm 0x80000008#64), .jmp 1] h = .next 1 h' ∧
      h'.r .rcx = e.ctx ∧ h'.g = { wrG h.g .w acc (a + 0x106#16) with fl := { h.g.fl with aux := 0x80000008#32 } } ∧
      rd h' .b .rdx = ((a + 0x106#16).setWidth 8 &&& 0xF#8) := by
  hexec' [hc, ha]
  refine ⟨_, rfl, ?_⟩
  hexec' [hc, ha]
  refine ⟨trivial, rfl, ?_⟩
  rw [rd_b_w, rd_wr_same]
  rfl
theorem ldAf_aux (f : Flags.St) : Flags.ldAf f = f.aux &&& 8#32 := rfl
theorem aaEnd_run {e : Env} {h : Host.St} (hc : h.r .rcx = e.ctx) (r : Reg) :
    run e 0 [.stG .b acc r] h = .next 0 (h.setG (wrG h.g .b acc (rd h .b r))) := by hexec' [hc]
theorem aaaJoin {g : G} {x : BitVec 16} {y : BitVec 8} (f : Flags.St) :
    wrG { wrG g .w acc x with fl := f } .b acc y = bcdTo g ⟨y, (x >>> 8).setWidth 8, f⟩ :=
  (bcdTo_ax g x y f).symm ▸ rfl
theorem aaaSplit : aaa = ([.ldG .w .rax acc, .mov .w .rdx (.reg .rax), .alu .and .w .rdx (.imm 0xF#64)] ++ [.cmp .b .rdx (.imm 9#64), .ja 4]) ++
    (([.ldAux .rbx, .alu .and .d .rbx (.imm 8#64)] ++ [.cmp .d .rbx (.imm 0#64), .jeq 6]) ++
    ([.alu .add .w .rax (.imm 0x106#64), .mov .w .rdx (.reg .rax), .alu .and .b .rdx (.imm 0xF#64), .stG .w acc .rax, .stAux (.imm 0x80000008#64), .jmp 1] ++
    ([.stAux (.imm 0#64)] ++ [.stG .b acc .rdx]))) := rfl
theorem aaYes_run {e : Env} {h : Host.St} (hc : h.r .rcx = e.ctx) (a : BitVec 16) (ha : rd h .w .rax = a) :
    ∃ h', run e 0 ([.alu .add .w .rax (.imm 0x106#64), .mov .w .rdx (.reg .rax), .alu .and .b .rdx (.imm 0xF#64), .stG .w acc .rax, .stAux (.imm 0x80000008#64), .jmp 1] ++
      ([.stAux (.imm 0#64)] ++ [.stG .b acc .rdx])) h = .next 0 h' ∧ h'.r .rcx = e.ctx ∧
      h'.g = bcdTo h.g ⟨(a + 0x106#16).setWidth 8 &&& 0xF#8, ((a + 0x106#16) >>> 8).setWidth 8, { h.g.fl with aux := 0x80000008#32 }⟩ := by
  obtain ⟨h1, r1, c1, g1, d1⟩ := aaC_run hc a ha
  refine ⟨_, (run_append _ r1).trans (aaEnd_run c1 .rdx), c1, ?_⟩
  show wrG h1.g .b acc (rd h1 .b .rdx) = _
  rw [d1, g1]
  exact aaaJoin _
theorem aaNo_run {e : Env} {h : Host.St} (hc : h.r .rcx = e.ctx) (r : Reg) (d : BitVec 8) (hd : rd h .b r = d) :
    ∃ h', run e 0 ([.stAux (.imm 0#64)] ++ [.stG .b acc r]) h = .next 0 h' ∧ h'.r .rcx = e.ctx ∧
      h'.g = bcdTo h.g ⟨d, (bcdOf h.g).ah, { h.g.fl with aux := 0#32 }⟩ := by
  have r1 : run e 0 [.stAux (.imm 0#64)] h = .next 0 (h.setG { h.g with fl := { h.g.fl with aux := 0#32 } }) := by hexec' [hc]; rfl
  refine ⟨_, (run_append _ r1).trans (aaEnd_run (h := h.setG { h.g with fl := { h.g.fl with aux := 0#32 } }) hc r), hc, ?_⟩
  show wrG { h.g with fl := { h.g.fl with aux := 0#32 } } .b acc (rd h .b r) = _
  rw [hd, ← bcdTo_al]
  rfl
theorem aaa_run {e : Env} {h : Host.St} (hc : h.r .rcx = e.ctx) :
    ∃ h', run e 0 aaa h = .next 0 h' ∧ h'.r .rcx = e.ctx ∧ h'.g = bcdTo h.g (Flags.aaaOp (bcdOf h.g)) := by
  rw [aaaSplit]
  obtain ⟨h1, r1, c1, g1, x1, y1⟩ := aaA_run hc .rax .rdx (.inl ⟨rfl, rfl⟩)
  rw [run_append _ r1]
  unfold Flags.aaaOp
  dsimp only
  rw [ldAf_aux]
  by_cases h9 : 9 < (((bcdOf h.g).ax &&& 0xF#16).setWidth 8 : BitVec 8).toNat
  · rw [if_pos h9, if_pos (.inl h9)]
    obtain ⟨h2, r2, c2, g2⟩ := aaYes_run c1 _ x1
    exact ⟨h2, r2, c2, by rw [g2, g1]; rfl⟩
  · rw [if_neg h9]
    obtain ⟨h2, r2, g2, k2⟩ := aaB_run c1 .rbx 6
    rw [run_append _ r2, g1]
    have c2 : h2.r .rcx = e.ctx := (k2 _ (by decide)).trans c1
    by_cases hf : h.g.fl.aux &&& 8#32 = 0#32
    · rw [if_pos hf, if_neg (show ¬ (9 < (((bcdOf h.g).ax &&& 0xF#16).setWidth 8 : BitVec 8).toNat ∨ (bcdOf h.g).fl.aux &&& 8#32 ≠ 0#32) from
        fun hh => hh.elim h9 (fun h' => h' hf))]
      obtain ⟨h3, r3, c3, g3⟩ := aaNo_run c2 .rdx (((bcdOf h.g).ax &&& 0xF#16).setWidth 8) (by rw [rd_b_w, ← y1]; exact congrArg (fun x => BitVec.setWidth 8 (BitVec.setWidth 16 x)) (k2 _ (by decide)))
      exact ⟨h3, r3, c3, by rw [g3, g2, g1]; rfl⟩
    · rw [if_neg hf, if_pos (show (9 < (((bcdOf h.g).ax &&& 0xF#16).setWidth 8 : BitVec 8).toNat ∨ (bcdOf h.g).fl.aux &&& 8#32 ≠ 0#32) from .inr hf)]
      obtain ⟨h3, r3, c3, g3⟩ := aaYes_run c2 (bcdOf h.g).ax (by rw [← x1]; exact congrArg (BitVec.setWidth 16) (k2 _ (by decide)))
      exact ⟨h3, r3, c3, by rw [g3, g2, g1]; rfl⟩

theorem sw16 (x : BitVec 16) : BitVec.setWidth 16 (BitVec.setWidth 32 x) = x := by bits16
theorem sw8 (x : BitVec 8) : BitVec.setWidth 16 (BitVec.setWidth 32 x) = BitVec.setWidth 16 x := by bits16
theorem aasMid1_run {e : Env} {h : Host.St} (hc : h.r .rcx = e.ctx) (a : BitVec 16) (ha : rd h .w .rbx = a) :
    ∃ h', run e 0 [.mov .d .rax (.imm 0xFFFA#64), .mov .d .rdx (.imm 0xFF#64), .alu .add .w .rbx (.reg .rax), .movzx .w .rax .rbx, .alu .and .w .rbx (.reg .rdx),
      .sh .shr .w .rax 8] h = .next 0 h' ∧ h'.r .rcx = e.ctx ∧ h'.g = h.g ∧ rd h' .w .rax = (a + 0xFFFA#16) >>> 8 ∧ rd h' .w .rbx = ((a + 0xFFFA#16) &&& 0xFF#16) := by
  hexec' [hc, ha, rd_wr_d]
  refine ⟨_, rfl, ?_⟩
  hexec' [hc, ha, rd_wr_d]
  refine ⟨trivial, trivial, ?_, rfl⟩
  exact congrArg (fun x : BitVec 16 => x >>> 8) (sw16 (a + 0xFFFA#16))
theorem aasMid2_run {e : Env} {h : Host.St} (hc : h.r .rcx = e.ctx) (a b : BitVec 16) (ha : rd h .w .rax = a) (hb : rd h .w .rbx = b) :
    ∃ h', run e 0 [.alu .sub .b .rax (.imm 1#64), .movzx .b .rax .rax, .sh .shl .w .rax 8, .alu .or .w .rax (.reg .rbx), .stG .w acc .rax,
   .alu .and .b .rax (.imm 0xF#64), .stAux (.imm 0x80000008#64), .jmp 1] h = .next 1 h' ∧ h'.r .rcx = e.ctx ∧
     h'.g = { wrG h.g .w acc (((a.setWidth 8 - 1#8 : BitVec 8).setWidth 16 <<< 8) ||| b) with fl := { h.g.fl with aux := 0x80000008#32 } } ∧
     rd h' .b .rax = ((((a.setWidth 8 - 1#8 : BitVec 8).setWidth 16 <<< 8) ||| b).setWidth 8 &&& 0xF#8) := by
  have ha' : rd h .b .rax = a.setWidth 8 := by rw [rd_b_w, ha]
  hexec' [hc, ha', hb, rd_wr_d]
  refine ⟨_, rfl, ?_⟩
  hexec' [hc, ha', hb, rd_wr_d]
  rw [rd_b_w, rd_wr_same]
  refine ⟨trivial, ?_, ?_⟩
  · exact congrArg (fun x : BitVec 16 => { wrG h.g .w acc (x <<< 8 ||| b) with fl := { h.g.fl with aux := 0x80000008#32 } }) (sw8 (a.setWidth 8 - 1#8))
  · exact congrArg (fun x : BitVec 16 => (x <<< 8 ||| b).setWidth 8 &&& 0xF#8) (sw8 (a.setWidth 8 - 1#8))
theorem aasSplit : aas = ([.ldG .w .rbx acc, .mov .w .rax (.reg .rbx), .alu .and .w .rax (.imm 0xF#64)] ++ [.cmp .b .rax (.imm 9#64), .ja 4]) ++
    (([.ldAux .rdx, .alu .and .d .rdx (.imm 8#64)] ++ [.cmp .d .rdx (.imm 0#64), .jeq 14]) ++
    (([.mov .d .rax (.imm 0xFFFA#64), .mov .d .rdx (.imm 0xFF#64), .alu .add .w .rbx (.reg .rax), .movzx .w .rax .rbx, .alu .and .w .rbx (.reg .rdx),
      .sh .shr .w .rax 8] ++
    [.alu .sub .b .rax (.imm 1#64), .movzx .b .rax .rax, .sh .shl .w .rax 8, .alu .or .w .rax (.reg .rbx), .stG .w acc .rax,
   .alu .and .b .rax (.imm 0xF#64), .stAux (.imm 0x80000008#64), .jmp 1]) ++
    ([.stAux (.imm 0#64)] ++ [.stG .b acc .rax]))) := rfl
/-- The adjusted AX of AAS. -/
def aasAx (x : BitVec 16) : BitVec 16 := ((((x + 0xFFFA#16) >>> 8).setWidth 8 - 1#8 : BitVec 8).setWidth 16 <<< 8) ||| ((x + 0xFFFA#16) &&& 0xFF#16)
theorem asYes_run {e : Env} {h : Host.St} (hc : h.r .rcx = e.ctx) (a : BitVec 16) (ha : rd h .w .rbx = a) :
    ∃ h', run e 0 (([.mov .d .rax (.imm 0xFFFA#64), .mov .d .rdx (.imm 0xFF#64), .alu .add .w .rbx (.reg .rax), .movzx .w .rax .rbx, .alu .and .w .rbx (.reg .rdx),
      .sh .shr .w .rax 8] ++
    [.alu .sub .b .rax (.imm 1#64), .movzx .b .rax .rax, .sh .shl .w .rax 8, .alu .or .w .rax (.reg .rbx), .stG .w acc .rax,
   .alu .and .b .rax (.imm 0xF#64), .stAux (.imm 0x80000008#64), .jmp 1]) ++
    ([.stAux (.imm 0#64)] ++ [.stG .b acc .rax])) h = .next 0 h' ∧ h'.r .rcx = e.ctx ∧
      h'.g = bcdTo h.g ⟨(aasAx a).setWidth 8 &&& 0xF#8, (aasAx a >>> 8).setWidth 8, { h.g.fl with aux := 0x80000008#32 }⟩ := by
  obtain ⟨h1, r1, c1, g1, d1, b1⟩ := aasMid1_run hc a ha
  obtain ⟨h2, r2, c2, g2, d2⟩ := aasMid2_run c1 _ _ d1 b1
  refine ⟨_, (run_append _ ((run_append _ r1).trans r2)).trans (aaEnd_run c2 .rax), c2, ?_⟩
  show wrG h2.g .b acc (rd h2 .b .rax) = _
  rw [d2, g2, g1]
  exact aaaJoin _
theorem aas_run {e : Env} {h : Host.St} (hc : h.r .rcx = e.ctx) :
    ∃ h', run e 0 aas h = .next 0 h' ∧ h'.r .rcx = e.ctx ∧ h'.g = bcdTo h.g (Flags.aasOp (bcdOf h.g)) := by
  rw [aasSplit]
  obtain ⟨h1, r1, c1, g1, x1, y1⟩ := aaA_run hc .rbx .rax (.inr ⟨rfl, rfl⟩)
  rw [run_append _ r1]
  unfold Flags.aasOp
  dsimp only
  rw [ldAf_aux]
  by_cases h9 : 9 < (((bcdOf h.g).ax &&& 0xF#16).setWidth 8 : BitVec 8).toNat
  · rw [if_pos h9, if_pos (.inl h9)]
    obtain ⟨h2, r2, c2, g2⟩ := asYes_run c1 _ x1
    exact ⟨h2, r2, c2, by rw [g2, g1]; rfl⟩
  · rw [if_neg h9]
    obtain ⟨h2, r2, g2, k2⟩ := aaB_run c1 .rdx 14
    rw [run_append _ r2, g1]
    have c2 : h2.r .rcx = e.ctx := (k2 _ (by decide)).trans c1
    by_cases hf : h.g.fl.aux &&& 8#32 = 0#32
    · rw [if_pos hf, if_neg (show ¬ (9 < (((bcdOf h.g).ax &&& 0xF#16).setWidth 8 : BitVec 8).toNat ∨ (bcdOf h.g).fl.aux &&& 8#32 ≠ 0#32) from
        fun hh => hh.elim h9 (fun h' => h' hf))]
      obtain ⟨h3, r3, c3, g3⟩ := aaNo_run c2 .rax (((bcdOf h.g).ax &&& 0xF#16).setWidth 8) (by rw [rd_b_w, ← y1]; exact congrArg (fun x => BitVec.setWidth 8 (BitVec.setWidth 16 x)) (k2 _ (by decide)))
      exact ⟨h3, r3, c3, by rw [g3, g2, g1]; rfl⟩
    · rw [if_neg hf, if_pos (show (9 < (((bcdOf h.g).ax &&& 0xF#16).setWidth 8 : BitVec 8).toNat ∨ (bcdOf h.g).fl.aux &&& 8#32 ≠ 0#32) from .inr hf)]
      obtain ⟨h3, r3, c3, g3⟩ := asYes_run c2 (bcdOf h.g).ax (by rw [← x1]; exact congrArg (BitVec.setWidth 16) (k2 _ (by decide)))
      exact ⟨h3, r3, c3, by rw [g3, g2, g1]; rfl⟩
theorem prod_low (a v : BitVec 8) : BitVec.setWidth 8 (BitVec.setWidth 32 (product true (BitVec.setWidth 32 a) (BitVec.setWidth 32 (BitVec.setWidth 64 v)))) =
    (a.setWidth 32 * v.setWidth 32 : BitVec 32).setWidth 8 := by
  have hs : ∀ x : BitVec 8, BitVec.signExtend 64 (BitVec.setWidth 32 x) = BitVec.setWidth 64 x := by
    intro x
    rw [BitVec.signExtend_eq_setWidth_of_msb_false (by
      rw [BitVec.msb_eq_getLsbD_last, BitVec.getLsbD_setWidth]
      simp [BitVec.getLsbD_of_ge])]
    bits64
  have hv : (BitVec.setWidth 32 (BitVec.setWidth 64 v) : BitVec 32) = BitVec.setWidth 32 v := BitVec.setWidth_setWidth_of_le _ (by decide)
  unfold product
  rw [hv, if_pos rfl, hs, hs]
  apply BitVec.eq_of_toNat_eq
  simp only [BitVec.toNat_setWidth, BitVec.toNat_mul]
  have h1 := a.isLt
  have h2 := v.isLt
  have h3 : a.toNat * v.toNat < 256 * 256 := Nat.mul_lt_mul'' h1 h2
  rw [Nat.mod_eq_of_lt (show a.toNat < 2 ^ 64 by omega), Nat.mod_eq_of_lt (show v.toNat < 2 ^ 64 by omega),
    Nat.mod_eq_of_lt (show a.toNat < 2 ^ 32 by omega), Nat.mod_eq_of_lt (show v.toNat < 2 ^ 32 by omega)]
  omega
theorem aad_run {e : Env} {h : Host.St} (hc : h.r .rcx = e.ctx) (v : BitVec 8) :
    ∃ h', run e 0 (aad v) h = .next 0 h' ∧ h'.r .rcx = e.ctx ∧ h'.g = bcdTo h.g (Flags.aadOp (bcdOf h.g) v) := by
  unfold aad
  hexec' [hc, rd_wr_d]
  refine ⟨_, rfl, ?_⟩
  hexec' [hc, rd_wr_d]
  refine ⟨trivial, ?_⟩
  exact congrArg (fun x : BitVec 8 => bcdTo h.g ⟨x + rdG h.g .b acc, 0#8, { h.g.fl with res := (x + rdG h.g .b acc : BitVec 8).signExtend 32, aux := 0#32 }⟩)
    (prod_low (rdG h.g .b ah) v)
theorem cat_zero (x : BitVec 8) : ((0#32 : BitVec 32) ++ x.setWidth 32 : BitVec 64) = x.setWidth 64 := by
  apply BitVec.eq_of_toNat_eq
  rw [BitVec.toNat_append]
  simp
  have := x.isLt
  omega
theorem div_small (x v : BitVec 8) (hv : v ≠ 0#8) :
    (¬ ((v.setWidth 64 : BitVec 64) = 0#64 ∨ 2 ^ 32 ≤ (x.setWidth 64 : BitVec 64).toNat / (v.setWidth 64 : BitVec 64).toNat)) ∧
    ((x.setWidth 64 / v.setWidth 64 : BitVec 64).setWidth 32 = x.setWidth 32 / v.setWidth 32) ∧
    ((x.setWidth 64 % v.setWidth 64 : BitVec 64).setWidth 32 = x.setWidth 32 % v.setWidth 32) := by
  have h0 : v.toNat ≠ 0 := fun h => hv (BitVec.eq_of_toNat_eq h)
  have hx := x.isLt
  have hl := v.isLt
  have hq : x.toNat / v.toNat ≤ x.toNat := Nat.div_le_self _ _
  have hr : x.toNat % v.toNat ≤ x.toNat := Nat.mod_le _ _
  have e1 : (x.setWidth 64 : BitVec 64).toNat = x.toNat := by rw [BitVec.toNat_setWidth]; omega
  have e2 : (v.setWidth 64 : BitVec 64).toNat = v.toNat := by rw [BitVec.toNat_setWidth]; omega
  have e3 : (x.setWidth 32 : BitVec 32).toNat = x.toNat := by rw [BitVec.toNat_setWidth]; omega
  have e4 : (v.setWidth 32 : BitVec 32).toNat = v.toNat := by rw [BitVec.toNat_setWidth]; omega
  refine ⟨?_, ?_, ?_⟩
  · rw [e1, e2]
    rintro (h | h)
    · exact h0 (by rw [← e2, h]; rfl)
    · omega
  · apply BitVec.eq_of_toNat_eq
    rw [BitVec.toNat_setWidth, BitVec.toNat_udiv, BitVec.toNat_udiv, e1, e2, e3, e4]
    exact Nat.mod_eq_of_lt (Nat.lt_of_le_of_lt hq (by omega))
  · apply BitVec.eq_of_toNat_eq
    rw [BitVec.toNat_setWidth, BitVec.toNat_umod, BitVec.toNat_umod, e1, e2, e3, e4]
    exact Nat.mod_eq_of_lt (Nat.lt_of_le_of_lt hr (by omega))
theorem aam_run {e : Env} {h : Host.St} (hc : h.r .rcx = e.ctx) (v : BitVec 8) (hv : v ≠ 0#8) :
    ∃ h', run e 0 (aam v) h = .next 0 h' ∧ h'.r .rcx = e.ctx ∧ ∃ t, Flags.aamOp (bcdOf h.g) v = some t ∧ h'.g = bcdTo h.g t := by
  obtain ⟨h1, r1, c1, g1, a1, d1, b1⟩ : ∃ h1, run e 0 [.ldGx false .d .b .rax acc, .alu .xor .d .rdx (.reg .rdx), .mov .d .rbx (.imm (v.setWidth 64))] h = .next 0 h1 ∧
      h1.r .rcx = e.ctx ∧ h1.g = h.g ∧ rd h1 .d .rax = (rdG h.g .b acc).setWidth 32 ∧ rd h1 .d .rdx = 0#32 ∧ rd h1 .d .rbx = v.setWidth 32 := by
    hexec' [hc, rd_wr_d]
    refine ⟨_, rfl, ?_⟩
    hexec' [hc, rd_wr_d]
    refine ⟨trivial, trivial, trivial, BitVec.xor_self, ?_⟩
    exact BitVec.setWidth_setWidth_of_le _ (by decide)
  have hal : (rdG h.g .b acc).toNat < 256 := (rdG h.g .b acc).isLt
  have hv0 : v.toNat ≠ 0 := fun hx => hv (BitVec.eq_of_toNat_eq hx)
  have hvl := v.isLt
  have hdiv : run e 0 [.div .rbx] h1 = .next 0 ((wr (wr h1 .d .rax ((rdG h.g .b acc).setWidth 32 / v.setWidth 32)) .d .rdx
      ((rdG h.g .b acc).setWidth 32 % v.setWidth 32)).setF (e.hf h1 .zf) (e.hf h1 .cf) (e.hf h1 .of) (e.hf h1 .sf)) := by
    rw [run_step]
    simp only [step]
    rw [a1, d1, b1]
    have hn : ((0#32 : BitVec 32) ++ (rdG h.g .b acc).setWidth 32 : BitVec 64) = (rdG h.g .b acc).setWidth 64 := cat_zero _
    have hd : ((v.setWidth 32 : BitVec 32).setWidth 64 : BitVec 64) = v.setWidth 64 := by bits64
    have := div_small (rdG h.g .b acc) v hv
    rw [show (((0#32 : BitVec 32) ++ (rdG h.g .b acc).setWidth 32 : BitVec (32 + 32))) = (rdG h.g .b acc).setWidth 64 from hn, hd, if_neg this.1, this.2.1, this.2.2]
    rfl
  obtain ⟨h2, r2, c2, g2⟩ : ∃ h2, run e 0 [.stG .b acc .rdx, .stG .b ah .rax, .movsx .b .rdx .rdx, .stRes (.reg .rdx), .stAux (.imm 0#64)]
      ((wr (wr h1 .d .rax ((rdG h.g .b acc).setWidth 32 / v.setWidth 32)) .d .rdx
      ((rdG h.g .b acc).setWidth 32 % v.setWidth 32)).setF (e.hf h1 .zf) (e.hf h1 .cf) (e.hf h1 .of) (e.hf h1 .sf)) = .next 0 h2 ∧ h2.r .rcx = e.ctx ∧
      h2.g = bcdTo h.g ⟨((rdG h.g .b acc).setWidth 32 % v.setWidth 32 : BitVec 32).setWidth 8, ((rdG h.g .b acc).setWidth 32 / v.setWidth 32 : BitVec 32).setWidth 8,
        { h.g.fl with res := (((rdG h.g .b acc).setWidth 32 % v.setWidth 32 : BitVec 32).setWidth 8 : BitVec 8).signExtend 32, aux := 0#32 }⟩ := by
    generalize (rdG h.g .b acc).setWidth 32 / v.setWidth 32 = q
    generalize (rdG h.g .b acc).setWidth 32 % v.setWidth 32 = m
    hexec' [c1, rd_wr_d]
    refine ⟨_, rfl, ?_⟩
    hexec' [c1, rd_wr_d]
    refine ⟨trivial, ?_⟩
    rw [g1]
    rfl
  refine ⟨h2, (run_append _ r1).trans ((run_append _ hdiv).trans r2), c2, _, if_neg hv, ?_⟩
  rw [g2]
  rfl

theorem wr_q_r (h : Host.St) (r : Reg) (v : BitVec 64) : (wr h .q r v).r r = v := by
  unfold wr Host.St.set put
  simp only [if_true]
theorem sumVec8_run {e : Env} {h : Host.St} (a s : BitVec 8) (hc : rd h .b .rcx = a) (ha : rd h .b .rax = a) (hs : rd h .b .r8 = s) :
    ∃ h', run e 0 (sumVecSmall .b (.imm 6#64) 24) h = .next 0 h' ∧ h'.g = h.g ∧ h'.r .r10 = h.r .r10 ∧ h'.r .r11 = h.r .r11 ∧
      rd h' .d .rax = Flags.placeAux (Flags.sumVec a 6#8 s) := by
  unfold sumVecSmall
  hexec' [hc, ha, hs, rd_wr_d]
  refine ⟨_, rfl, ?_⟩
  hexec' [hc, ha, hs, rd_wr_d]
  refine ⟨trivial, trivial, trivial, ?_⟩
  exact (aux8 ((a &&& 6#8) ||| ((a ||| 6#8) &&& ~~~s))).trans (congrArg Flags.placeAux (BitVec.or_comm _ _))
theorem subVec8_run {e : Env} {h : Host.St} (a s : BitVec 8) (hc : rd h .b .rcx = a) (ha : rd h .b .rax = a) (hs : rd h .b .r8 = s) :
    ∃ h', run e 0 (subVecSmall .b (.imm 6#64) 24) h = .next 0 h' ∧ h'.g = h.g ∧ h'.r .r10 = h.r .r10 ∧ h'.r .r11 = h.r .r11 ∧
      rd h' .d .rax = Flags.placeAux (Flags.subVec a 6#8 s) := by
  unfold subVecSmall
  hexec' [hc, ha, hs, rd_wr_d]
  refine ⟨_, rfl, ?_⟩
  hexec' [hc, ha, hs, rd_wr_d]
  refine ⟨trivial, trivial, trivial, ?_⟩
  exact aux8 ((~~~a &&& 6#8) ||| (~~~(a ^^^ 6#8) &&& s))
theorem daPre_run {e : Env} {h : Host.St} (hc : h.r .rcx = e.ctx) (sum : Bool) (o : BitVec 8) (h10 : rd h .b .r10 = o) :
    ∃ h', run e 0 [.mov .q .rdx (.reg .rcx), .mov .b .rcx (.reg .r10), .mov .b .r8 (.reg .r10), .alu (if sum then .add else .sub) .b .r8 (.imm 6#64),
    .stGB .rdx .b acc .r8, .mov .b .rax (.reg .rcx)] h = .next 0 h' ∧ h'.r .r10 = h.r .r10 ∧ h'.r .r11 = h.r .r11 ∧
      rd h' .b .rcx = o ∧ rd h' .b .rax = o ∧ rd h' .b .r8 = (if sum then o + 6#8 else o - 6#8) ∧ h'.g = wrG h.g .b acc (if sum then o + 6#8 else o - 6#8) := by
  have hq : rd h .q .rcx = e.ctx := (BitVec.setWidth_eq _).trans hc
  cases sum
  · hexec' [hc, h10, hq, wr_q_r, rd_wr_d]
    refine ⟨_, rfl, ?_⟩
    hexec' [hc, h10, hq, wr_q_r, rd_wr_d]
    exact ⟨trivial, trivial, trivial, trivial, rfl, rfl⟩
  · hexec' [hc, h10, hq, wr_q_r, rd_wr_d]
    refine ⟨_, rfl, ?_⟩
    hexec' [hc, h10, hq, wr_q_r, rd_wr_d]
    exact ⟨trivial, trivial, trivial, trivial, rfl, rfl⟩
theorem daPost_run {e : Env} {h : Host.St} (a c : BitVec 32) (ha : rd h .d .rax = a) (h11 : rd h .d .r11 = c) :
    ∃ h', run e 0 [.reload, .alu .and .d .rax (.imm 0x80000000#64), .alu .or .d .rax (.reg .r11), .alu .or .d .rax (.imm 8#64), .stAux (.reg .rax), .jmp 1] h = .next 1 h' ∧
      h'.r .rcx = e.ctx ∧ h'.r .r10 = h.r .r10 ∧ h'.r .r11 = h.r .r11 ∧ h'.g = { h.g with fl := { h.g.fl with aux := (a &&& 0x80000000#32) ||| c ||| 8#32 } } := by
  hexec' [ha, h11, rd_wr_d]
  refine ⟨_, rfl, ?_⟩
  hexec' [ha, h11, rd_wr_d]
  exact ⟨trivial, trivial, trivial, rfl⟩

/-- The head of DAA and DAS. -/
theorem daHead_run {e : Env} {h : Host.St} (hc : h.r .rcx = e.ctx) :
    ∃ h', run e 0 ([.ldG .b .r10 acc, .ldAux .r11, .alu .and .d .r11 (.imm 0x80000000#64), .mov .b .r8 (.reg .r10), .alu .and .b .r8 (.imm 0xF#64)] ++
        [.cmp .b .r8 (.imm 9#64), .ja 4]) h = .next (if 9 < ((bcdOf h.g).al &&& 0xF#8).toNat then 4 else 0) h' ∧ h'.r .rcx = e.ctx ∧ h'.g = h.g ∧
      rd h' .b .r10 = (bcdOf h.g).al ∧ rd h' .d .r11 = Flags.ldCf h.g.fl := by
  obtain ⟨h1, r1, c1, g1, x1, y1, z1⟩ : ∃ h1, run e 0 [.ldG .b .r10 acc, .ldAux .r11, .alu .and .d .r11 (.imm 0x80000000#64), .mov .b .r8 (.reg .r10), .alu .and .b .r8 (.imm 0xF#64)] h = .next 0 h1 ∧
      h1.r .rcx = e.ctx ∧ h1.g = h.g ∧ rd h1 .b .r10 = (bcdOf h.g).al ∧ rd h1 .d .r11 = Flags.ldCf h.g.fl ∧ rd h1 .b .r8 = (bcdOf h.g).al &&& 0xF#8 := by
    hexec' [hc, rd_wr_d]
    refine ⟨_, rfl, ?_⟩
    hexec' [hc, rd_wr_d]
    exact ⟨trivial, trivial, rfl, rfl, rfl⟩
  obtain ⟨h2, r2, k2⟩ := cmpJa_run (e := e) (h := h1) .b .r8 (.imm 9#64) 4 _ 9#8 z1 rfl
  exact ⟨h2, (run_append _ r1).trans r2, by rw [k2.regs, c1], by rw [k2.g, g1], by rw [k2.rd, x1], by rw [k2.rd, y1]⟩

/-- AL plus or minus a number. -/
def adj (sum : Bool) (a b : BitVec 8) : BitVec 8 := if sum then a + b else a - b
/-- The lazy word of the first adjustment. -/
def daAux (sum : Bool) (o : BitVec 8) (cf : BitVec 32) : BitVec 32 :=
  ((Flags.placeAux (if sum then Flags.sumVec o 6#8 (o + 6#8) else Flags.subVec o 6#8 (o - 6#8)) &&& 0x80000000#32) ||| cf) ||| 8#32
/-- AL and the lazy word after the first adjustment. -/
def daP (sum : Bool) (s : Flags.BcdSt) : BitVec 8 × BitVec 32 :=
  if 9 < (s.al &&& 0xF#8).toNat ∨ Flags.ldAf s.fl ≠ 0#32 then (adj sum s.al 6#8, daAux sum s.al (Flags.ldCf s.fl)) else (s.al, 0#32)

def daAdj (sum : Bool) : List I :=
  [.mov .q .rdx (.reg .rcx), .mov .b .rcx (.reg .r10), .mov .b .r8 (.reg .r10), .alu (if sum then .add else .sub) .b .r8 (.imm 6#64),
    .stGB .rdx .b acc .r8, .mov .b .rax (.reg .rcx)] ++
   ((if sum then sumVecSmall .b (.imm 6#64) 24 else subVecSmall .b (.imm 6#64) 24) ++
   [.reload, .alu .and .d .rax (.imm 0x80000000#64), .alu .or .d .rax (.reg .r11), .alu .or .d .rax (.imm 8#64), .stAux (.reg .rax), .jmp 1])
theorem daAdj_run {e : Env} {h : Host.St} (hc : h.r .rcx = e.ctx) (sum : Bool) (o : BitVec 8) (c : BitVec 32) (h10 : rd h .b .r10 = o) (h11 : rd h .d .r11 = c) :
    ∃ h', run e 0 (daAdj sum ++ [.stAux (.imm 0#64)]) h = .next 0 h' ∧ h'.r .rcx = e.ctx ∧ rd h' .b .r10 = o ∧ rd h' .d .r11 = c ∧
      h'.g = { wrG h.g .b acc (adj sum o 6#8) with fl := { h.g.fl with aux := daAux sum o c } } := by
  obtain ⟨h1, r1, a1, b1, x1, y1, z1, g1⟩ := daPre_run hc sum o h10
  obtain ⟨h2, r2, g2, a2, b2, x2⟩ : ∃ h', run e 0 (if sum then sumVecSmall .b (.imm 6#64) 24 else subVecSmall .b (.imm 6#64) 24) h1 = .next 0 h' ∧ h'.g = h1.g ∧
      h'.r .r10 = h1.r .r10 ∧ h'.r .r11 = h1.r .r11 ∧ rd h' .d .rax = Flags.placeAux (if sum then Flags.sumVec o 6#8 (o + 6#8) else Flags.subVec o 6#8 (o - 6#8)) := by
    cases sum
    · exact subVec8_run o _ x1 y1 z1
    · exact sumVec8_run o _ x1 y1 z1
  obtain ⟨h3, r3, c3, a3, b3, g3⟩ := daPost_run _ c x2 (by rw [← h11]; exact congrArg (BitVec.setWidth 32) (b2.trans b1))
  refine ⟨h3, ?_, c3, ?_, ?_, ?_⟩
  · exact run_append (k' := 1) _ ((run_append _ r1).trans ((run_append _ r2).trans r3))
  · rw [← h10]
    exact congrArg (BitVec.setWidth 8) (a3.trans (a2.trans a1))
  · rw [← h11]
    exact congrArg (BitVec.setWidth 32) (b3.trans (b2.trans b1))
  · rw [g3, g2, g1]
    rfl
theorem al_same (g : G) : wrG g .b acc (bcdOf g).al = g := by
  refine gExt (fun i => ?_) rfl rfl
  by_cases h : i = 0
  · subst h
    show (g.gpr 0 &&& 0xFFFFFF00#32) ||| ((g.gpr 0).setWidth 8 : BitVec 8).setWidth 32 = g.gpr 0
    generalize g.gpr 0 = x
    bits32
  · simp [wrG, acc, h]
theorem daFirstSplit (sum : Bool) : daFirst sum = ([.ldG .b .r10 acc, .ldAux .r11, .alu .and .d .r11 (.imm 0x80000000#64), .mov .b .r8 (.reg .r10), .alu .and .b .r8 (.imm 0xF#64)] ++
        [.cmp .b .r8 (.imm 9#64), .ja 4]) ++ (([.ldAux .rdx, .alu .and .d .rdx (.imm 8#64)] ++ [.cmp .d .rdx (.imm 0#64), .jeq (if sum then 22 else 23)]) ++
        (daAdj sum ++ [.stAux (.imm 0#64)])) := by
  cases sum <;> rfl
theorem daFirst_run {e : Env} {h : Host.St} (hc : h.r .rcx = e.ctx) (sum : Bool) :
    ∃ h', run e 0 (daFirst sum) h = .next 0 h' ∧ h'.r .rcx = e.ctx ∧ rd h' .b .r10 = (bcdOf h.g).al ∧ rd h' .d .r11 = Flags.ldCf h.g.fl ∧
      h'.g = { wrG h.g .b acc (daP sum (bcdOf h.g)).1 with fl := { h.g.fl with aux := (daP sum (bcdOf h.g)).2 } } := by
  rw [daFirstSplit]
  obtain ⟨h1, r1, c1, g1, x1, y1⟩ := daHead_run hc
  rw [run_append _ r1]
  by_cases h9 : 9 < ((bcdOf h.g).al &&& 0xF#8).toNat
  · rw [if_pos h9]
    have hp : daP sum (bcdOf h.g) = (adj sum (bcdOf h.g).al 6#8, daAux sum (bcdOf h.g).al (Flags.ldCf h.g.fl)) := if_pos (.inl h9)
    obtain ⟨h2, r2, c2, x2, y2, g2⟩ := daAdj_run c1 sum _ _ x1 y1
    exact ⟨h2, r2, c2, x2, y2, by rw [g2, g1, hp]⟩
  · rw [if_neg h9]
    obtain ⟨h2, r2, g2, k2⟩ := aaB_run c1 .rdx (if sum then 22 else 23)
    rw [run_append _ r2, g1]
    have c2 : h2.r .rcx = e.ctx := (k2 _ (by decide)).trans c1
    have x2 : rd h2 .b .r10 = (bcdOf h.g).al := by rw [← x1]; exact congrArg (BitVec.setWidth 8) (k2 _ (by decide))
    have y2 : rd h2 .d .r11 = Flags.ldCf h.g.fl := by rw [← y1]; exact congrArg (BitVec.setWidth 32) (k2 _ (by decide))
    by_cases hf : h.g.fl.aux &&& 8#32 = 0#32
    · have hp : daP sum (bcdOf h.g) = ((bcdOf h.g).al, 0#32) := if_neg (fun hh => hh.elim h9 (fun h' => h' hf))
      rw [if_pos hf]
      refine ⟨h2.setG { h2.g with fl := { h2.g.fl with aux := 0#32 } }, ?_, c2, x2, y2, ?_⟩
      · have r3 : run e 0 [.stAux (.imm 0#64)] h2 = .next 0 (h2.setG { h2.g with fl := { h2.g.fl with aux := 0#32 } }) := by hexec' [c2]; rfl
        cases sum <;> exact r3
      · rw [hp, al_same]
        show ({ h2.g with fl := { h2.g.fl with aux := 0#32 } } : G) = _
        rw [g2, g1]
    · rw [if_neg hf]
      have hp : daP sum (bcdOf h.g) = (adj sum (bcdOf h.g).al 6#8, daAux sum (bcdOf h.g).al (Flags.ldCf h.g.fl)) := if_pos (.inr hf)
      obtain ⟨h3, r3, c3, x3, y3, g3⟩ := daAdj_run c2 sum _ _ x2 y2
      exact ⟨h3, r3, c3, x3, y3, by rw [g3, g2, g1, hp]⟩

theorem daAdj2_run {e : Env} {h : Host.St} (hc : h.r .rcx = e.ctx) (sum : Bool) :
    ∃ h', run e 0 [.ldG .b .r10 acc, .alu (if sum then .add else .sub) .b .r10 (.imm 0x60#64), .stG .b acc .r10, .ldAux .rdx,
      .alu .or .d .rdx (.imm 0x80000000#64), .stAux (.reg .rdx)] h = .next 0 h' ∧ h'.r .rcx = e.ctx ∧
      h'.g = { wrG h.g .b acc (adj sum (bcdOf h.g).al 0x60#8) with fl := { h.g.fl with aux := h.g.fl.aux ||| 0x80000000#32 } } := by
  cases sum <;>
  · hexec' [hc, rd_wr_d]
    refine ⟨_, rfl, ?_⟩
    hexec' [hc, rd_wr_d]
    exact ⟨trivial, rfl⟩
theorem daClr_run {e : Env} {h : Host.St} (hc : h.r .rcx = e.ctx) :
    ∃ h', run e 0 [.ldAux .rdx, .alu .and .d .rdx (.imm 0x7FFFFFFF#64), .stAux (.reg .rdx)] h = .next 0 h' ∧ h'.r .rcx = e.ctx ∧
      h'.g = { h.g with fl := { h.g.fl with aux := h.g.fl.aux &&& 0x7FFFFFFF#32 } } := by
  hexec' [hc, rd_wr_d]
  refine ⟨_, rfl, ?_⟩
  hexec' [hc, rd_wr_d]
  exact ⟨trivial, rfl⟩
theorem daRes_run {e : Env} {h : Host.St} (hc : h.r .rcx = e.ctx) :
    ∃ h', run e 0 [.ldGx true .d .b .r10 acc, .stRes (.reg .r10)] h = .next 0 h' ∧ h'.r .rcx = e.ctx ∧
      h'.g = { h.g with fl := { h.g.fl with res := (bcdOf h.g).al.signExtend 32 } } := by
  hexec' [hc, rd_wr_d]
  refine ⟨_, rfl, ?_⟩
  hexec' [hc, rd_wr_d]
  exact ⟨trivial, rfl⟩

/-- AL and the lazy word after the second adjustment. -/
def daQ (sum : Bool) (o : BitVec 8) (cf : BitVec 32) (p : BitVec 8 × BitVec 32) : BitVec 8 × BitVec 32 :=
  if 0x99 < o.toNat ∨ cf ≠ 0#32 then (adj sum p.1 0x60#8, p.2 ||| 0x80000000#32) else (p.1, if sum then p.2 &&& 0x7FFFFFFF#32 else p.2)
theorem daaDas_op (sum : Bool) (s : Flags.BcdSt) :
    (if sum then Flags.daaOp s else Flags.dasOp s) =
      { s with al := (daQ sum s.al (Flags.ldCf s.fl) (daP sum s)).1
               fl := { s.fl with res := (daQ sum s.al (Flags.ldCf s.fl) (daP sum s)).1.signExtend 32, aux := (daQ sum s.al (Flags.ldCf s.fl) (daP sum s)).2 } } := by
  cases sum <;> rfl
def daElse (sum : Bool) : List I := if sum then [.jmp 3, .ldAux .rdx, .alu .and .d .rdx (.imm 0x7FFFFFFF#64), .stAux (.reg .rdx)] else []
theorem daSecondSplit (sum : Bool) : daSecond sum = [.cmp .b .r10 (.imm 0x99#64), .ja 2] ++ ([.cmp .d .r11 (.imm 0#64), .jeq (if sum then 7 else 6)] ++
    ([.ldG .b .r10 acc, .alu (if sum then .add else .sub) .b .r10 (.imm 0x60#64), .stG .b acc .r10, .ldAux .rdx,
      .alu .or .d .rdx (.imm 0x80000000#64), .stAux (.reg .rdx)] ++ (daElse sum ++ [.ldGx true .d .b .r10 acc, .stRes (.reg .r10)]))) := by
  cases sum <;> rfl
theorem al_wr (g : G) (v : BitVec 8) (f : Flags.St) : (bcdOf { wrG g .b acc v with fl := f }).al = v := by
  show (((g.gpr 0 &&& 0xFFFFFF00#32) ||| v.setWidth 32 : BitVec 32).setWidth 8 : BitVec 8) = v
  generalize g.gpr 0 = x
  bits8
theorem wr_wr (g : G) (v w : BitVec 8) (f f' : Flags.St) : { wrG { wrG g .b acc v with fl := f } .b acc w with fl := f' } = { wrG g .b acc w with fl := f' } := by
  refine gExt (fun i => ?_) rfl rfl
  by_cases h : i = 0
  · subst h
    show (((g.gpr 0 &&& 0xFFFFFF00#32) ||| v.setWidth 32) &&& 0xFFFFFF00#32) ||| w.setWidth 32 = (g.gpr 0 &&& 0xFFFFFF00#32) ||| w.setWidth 32
    generalize g.gpr 0 = x
    bits32
  · simp [wrG, acc, h]
theorem daYes2_run {e : Env} {h : Host.St} (hc : h.r .rcx = e.ctx) (sum : Bool) (g : G) (f : Flags.St) (p : BitVec 8) (hg : h.g = { wrG g .b acc p with fl := f }) :
    ∃ h', run e 0 ([.ldG .b .r10 acc, .alu (if sum then .add else .sub) .b .r10 (.imm 0x60#64), .stG .b acc .r10, .ldAux .rdx,
      .alu .or .d .rdx (.imm 0x80000000#64), .stAux (.reg .rdx)] ++ (daElse sum ++ [.ldGx true .d .b .r10 acc, .stRes (.reg .r10)])) h = .next 0 h' ∧ h'.r .rcx = e.ctx ∧
      h'.g = { wrG g .b acc (adj sum p 0x60#8) with fl := { f with aux := f.aux ||| 0x80000000#32, res := (adj sum p 0x60#8).signExtend 32 } } := by
  obtain ⟨h1, r1, c1, g1⟩ := daAdj2_run hc sum
  have g1' : h1.g = { wrG g .b acc (adj sum p 0x60#8) with fl := { f with aux := f.aux ||| 0x80000000#32 } } := by
    rw [g1, hg, al_wr, wr_wr]
  obtain ⟨h2, r2, c2, g2⟩ := daRes_run c1
  rw [g1', al_wr] at g2
  refine ⟨h2, (run_append _ r1).trans ?_, c2, g2⟩
  cases sum
  · exact r2
  · exact r2
theorem daNo2_run {e : Env} {h : Host.St} (hc : h.r .rcx = e.ctx) (sum : Bool) (g : G) (f : Flags.St) (p : BitVec 8) (hg : h.g = { wrG g .b acc p with fl := f }) :
    ∃ h', run e (if sum then 7 else 6) ([.ldG .b .r10 acc, .alu (if sum then .add else .sub) .b .r10 (.imm 0x60#64), .stG .b acc .r10, .ldAux .rdx,
      .alu .or .d .rdx (.imm 0x80000000#64), .stAux (.reg .rdx)] ++ (daElse sum ++ [.ldGx true .d .b .r10 acc, .stRes (.reg .r10)])) h = .next 0 h' ∧ h'.r .rcx = e.ctx ∧
      h'.g = { wrG g .b acc p with fl := { f with aux := if sum then f.aux &&& 0x7FFFFFFF#32 else f.aux, res := p.signExtend 32 } } := by
  cases sum
  · obtain ⟨h2, r2, c2, g2⟩ := daRes_run hc
    rw [hg, al_wr] at g2
    exact ⟨h2, r2, c2, g2⟩
  · obtain ⟨h1, r1, c1, g1⟩ := daClr_run hc
    obtain ⟨h2, r2, c2, g2⟩ := daRes_run c1
    rw [g1, hg, al_wr] at g2
    exact ⟨h2, (run_append _ r1).trans r2, c2, g2⟩
theorem daaDas_run {e : Env} {h : Host.St} (hc : h.r .rcx = e.ctx) (sum : Bool) :
    ∃ h', run e 0 (daaDas sum) h = .next 0 h' ∧ h'.r .rcx = e.ctx ∧
      h'.g = bcdTo h.g (if sum then Flags.daaOp (bcdOf h.g) else Flags.dasOp (bcdOf h.g)) := by
  obtain ⟨h1, r1, c1, x1, y1, g1⟩ := daFirst_run hc sum
  unfold daaDas
  rw [run_append _ r1, daSecondSplit, daaDas_op]
  generalize daP sum (bcdOf h.g) = p at g1 ⊢
  have hend : ∀ (h' : Host.St) (q : BitVec 8 × BitVec 32), q = daQ sum (bcdOf h.g).al (Flags.ldCf (bcdOf h.g).fl) p →
      h'.g = { wrG h.g .b acc q.1 with fl := { h.g.fl with aux := q.2, res := q.1.signExtend 32 } } →
      h'.g = bcdTo h.g { (bcdOf h.g) with al := (daQ sum (bcdOf h.g).al (Flags.ldCf (bcdOf h.g).fl) p).1, fl := { (bcdOf h.g).fl with res := (daQ sum (bcdOf h.g).al (Flags.ldCf (bcdOf h.g).fl) p).1.signExtend 32, aux := (daQ sum (bcdOf h.g).al (Flags.ldCf (bcdOf h.g).fl) p).2 } } := by
    intro h' q hq hh
    rw [← hq, hh, bcdTo_al]
    rfl
  obtain ⟨h2, r2, k2⟩ := cmpJa_run (e := e) (h := h1) .b .r10 (.imm 0x99#64) 2 _ 0x99#8 x1 rfl
  rw [run_append _ r2]
  have c2 : h2.r .rcx = e.ctx := by rw [k2.regs, c1]
  have g2 := k2.g.trans g1
  by_cases h9 : (0x99#8 : BitVec 8).toNat < (bcdOf h.g).al.toNat
  · rw [if_pos h9]
    obtain ⟨h3, r3, c3, g3⟩ := daYes2_run c2 sum _ _ _ g2
    exact ⟨h3, r3, c3, hend h3 _ (if_pos (.inl h9)).symm g3⟩
  · rw [if_neg h9]
    obtain ⟨h3, r3, k3⟩ := cmpJeq_run (e := e) (h := h2) .d .r11 (.imm 0#64) (if sum then 7 else 6) _ 0#32 ((k2.rd _ _).trans y1) rfl
    have c3 : h3.r .rcx = e.ctx := by rw [k3.regs, c2]
    have g3 := k3.g.trans g2
    rw [run_append _ r3]
    by_cases hf : Flags.ldCf h.g.fl = 0#32
    · rw [if_pos hf]
      obtain ⟨h4, r4, c4, g4⟩ := daNo2_run c3 sum _ _ _ g3
      exact ⟨h4, r4, c4, hend h4 _ (if_neg (fun hh => hh.elim h9 (fun h' => h' hf))).symm g4⟩
    · rw [if_neg hf]
      obtain ⟨h4, r4, c4, g4⟩ := daYes2_run c3 sum _ _ _ g3
      exact ⟨h4, r4, c4, hend h4 _ (if_pos (.inr hf)).symm g4⟩
end Verif.Emit
