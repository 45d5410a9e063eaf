import Verif.Model.EmitFlag
import Verif.Lemmas.EmitMov
import Verif.Props.FlagInstr
import Verif.Model.BitTest
import Verif.Props.EmitMul
namespace Verif.Emit
open Host

theorem parIdx_small (r a : BitVec 32) :
    ((BitVec.setWidth 64 (BitVec.setWidth 32 (BitVec.setWidth 8 r)) : BitVec 64) ^^^ BitVec.setWidth 64 (a >>> 8 &&& 255#32)).toNat < 256 := by
  have : (BitVec.setWidth 64 (BitVec.setWidth 32 (BitVec.setWidth 8 r)) : BitVec 64) ^^^ BitVec.setWidth 64 (a >>> 8 &&& 255#32) =
      BitVec.setWidth 64 (BitVec.setWidth 8 (r ^^^ (a >>> 8)) : BitVec 8) := by bits64
  rw [this, BitVec.toNat_setWidth]
  have := (BitVec.setWidth 8 (r ^^^ (a >>> 8)) : BitVec 8).isLt
  omega
theorem parIdx_byte (s : Flags.St) :
    BitVec.setWidth 8 ((BitVec.setWidth 64 (BitVec.setWidth 32 (BitVec.setWidth 8 s.res)) : BitVec 64) ^^^ BitVec.setWidth 64 (s.aux >>> 8 &&& 255#32)) =
      Flags.parIdx s := by
  unfold Flags.parIdx
  generalize s.aux = a
  generalize s.res = r
  bits8

/-- The sequence that looks up the parity. -/
theorem par_run {e : Env} {h : Host.St} (hc : h.r .rcx = e.ctx) (d : Reg) (hd : d = .r8 ∨ d = .r9) :
    ∃ h', run e 0 [.ldRes .rdx, .ldFl8 true 1 .rax, .movzx .b .rbx .rdx, .alu .xor .q .rbx (.reg .rax), .movPar .rax, .ldPar2 d .rbx .rax] h = .next 0 h' ∧
      h'.g = h.g ∧ h'.r .rcx = e.ctx ∧ rd h' .d d = Flags.parity (Flags.parIdx h.g.fl) ∧ rd h' .d .rdx = h.g.fl.res ∧
      (d = .r9 → rd h' .d .r8 = rd h .d .r8) := by
  have h1 : ∀ hh : Host.St, hh.r .rax = e.par → (hh.r .rbx) = ((BitVec.setWidth 64 (BitVec.setWidth 32 (BitVec.setWidth 8 h.g.fl.res)) : BitVec 64) ^^^ BitVec.setWidth 64 (h.g.fl.aux >>> 8 &&& 255#32)) →
      step e hh (.ldPar2 d .rbx .rax) = .next 0 (wr hh .d d (Flags.parity (Flags.parIdx h.g.fl))) := by
    intro hh a b
    simp only [step]
    rw [a, b, if_pos ⟨rfl, parIdx_small _ _⟩, parIdx_byte]
  rw [show ([.ldRes .rdx, .ldFl8 true 1 .rax, .movzx .b .rbx .rdx, .alu .xor .q .rbx (.reg .rax), .movPar .rax, .ldPar2 d .rbx .rax] : List I) =
    [.ldRes .rdx, .ldFl8 true 1 .rax, .movzx .b .rbx .rdx, .alu .xor .q .rbx (.reg .rax), .movPar .rax] ++ [.ldPar2 d .rbx .rax] from rfl]
  have h2 : ∃ h', run e 0 [.ldRes .rdx, .ldFl8 true 1 .rax, .movzx .b .rbx .rdx, .alu .xor .q .rbx (.reg .rax), .movPar .rax] h = .next 0 h' ∧
      h'.g = h.g ∧ h'.r .rcx = e.ctx ∧ rd h' .d .rdx = h.g.fl.res ∧ rd h' .d .r8 = rd h .d .r8 ∧ h'.r .rax = e.par ∧
      h'.r .rbx = ((BitVec.setWidth 64 (BitVec.setWidth 32 (BitVec.setWidth 8 h.g.fl.res)) : BitVec 64) ^^^ BitVec.setWidth 64 (h.g.fl.aux >>> 8 &&& 255#32)) := by
    hexec' [hc, rd_wr_d]
    refine ⟨_, rfl, ?_⟩
    hexec' [hc, rd_wr_d]
    refine ⟨trivial, trivial, trivial, trivial, trivial, ?_⟩
    unfold wr Host.St.set put
    simp only [if_true]
  obtain ⟨h', r1, g1, c1, d1, e1, a1, b1⟩ := h2
  rw [run_append _ r1, run_step, h1 h' a1 b1]
  refine ⟨_, rfl, by rw [wr_g, g1], ?_⟩
  rcases hd with rfl | rfl
  · hexec' [c1, d1]
    simp
  · hexec' [c1, d1, e1]
    simp
/-- The word of flags that LAHF builds, with its constants written out. -/
theorem lahf_eq (s : Flags.St) (x : BitVec 32) :
    BitVec.setWidth Sz.b.bits
      ((s.res >>> (8 * 3) &&& 255#32 ^^^ s.aux <<< 7) &&& BitVec.setWidth Sz.d.bits 128#64 |||
            ((Flags.parity (Flags.parIdx s) ^^^ BitVec.setWidth Sz.d.bits 1#64 |||
                  if (s.res &&& s.res == 0) = true then BitVec.setWidth Sz.d.bits 16#64 else x ^^^ x) <<< 2 |||
              BitVec.setWidth Sz.d.bits 2#64) |||
          (s.aux &&& BitVec.setWidth Sz.d.bits 8#64) + (s.aux &&& BitVec.setWidth Sz.d.bits 8#64) |||
        s.aux >>> 31) = Flags.lahfOp s := by
  unfold Flags.lahfOp
  rw [BitVec.and_self, BitVec.xor_self]
  show BitVec.setWidth 8
      ((s.res >>> 24 &&& 255#32 ^^^ s.aux <<< 7) &&& 128#32 |||
            ((Flags.parity (Flags.parIdx s) ^^^ 1#32 ||| if (s.res == 0#32) = true then 16#32 else 0#32) <<< 2 ||| 2#32) |||
          (s.aux &&& 8#32) + (s.aux &&& 8#32) ||| s.aux >>> 31) = _
  rw [show (s.res >>> 24 &&& 255#32) = s.res >>> 24 by generalize s.res = r; bits32]
  by_cases hr : s.res = 0#32
  · rw [if_pos hr, if_pos (by rw [hr]; rfl)]
  · rw [if_neg hr, if_neg (by simpa using hr)]
theorem lahf_run {e : Env} {h : Host.St} (hc : h.r .rcx = e.ctx) :
    ∃ h', run e 0 lahf h = .next 0 h' ∧ h'.r .rcx = e.ctx ∧ h'.g = wrG h.g .b ah (Flags.lahfOp h.g.fl) := by
  obtain ⟨h1, r1, g1, c1, p1, d1, -⟩ := par_run hc .r8 (.inl rfl)
  unfold lahf
  rw [show ∀ (a b c d f g : I) l, a :: b :: c :: d :: f :: g :: l = [a, b, c, d, f, g] ++ l from fun _ _ _ _ _ _ _ => rfl, run_append _ r1]
  hexec' [c1, g1, d1, p1, rd_wr_d]
  refine ⟨_, rfl, ?_⟩
  hexec' [c1, g1, d1, p1, rd_wr_d]
  refine ⟨trivial, congrArg (wrG h.g .b ah) ?_⟩
  exact lahf_eq _ _
theorem sahf_run {e : Env} {h : Host.St} (hc : h.r .rcx = e.ctx) :
    ∃ h', run e 0 sahf h = .next 0 h' ∧ h'.r .rcx = e.ctx ∧ h'.g = { h.g with fl := Flags.sahfOp h.g.fl (rdG h.g .b ah) } := by
  unfold sahf ldOf
  hexec' [hc, rd_wr_d]
  refine ⟨_, rfl, ?_⟩
  hexec' [hc, rd_wr_d]
  exact ⟨trivial, rfl⟩
theorem pushfA_run {e : Env} {h : Host.St} (hc : h.r .rcx = e.ctx) (a p r : BitVec 32) (h8 : rd h .d .r8 = a) (h9 : rd h .d .r9 = p)
    (hd : rd h .d .rdx = r) :
    ∃ h', run e 0 [.alu .xor .d .rax (.reg .rax), .alu .xor .d .r9 (.imm 1#64), .mov .d .rbx (.imm 0x10#64), .test .d .rdx .rdx, .mov .d .rdx (.reg .r8),
      .cmov .e .d .rax .rbx, .mov .d .rbx (.reg .r8), .alu .or .d .r9 (.reg .rax)] h = .next 0 h' ∧ h'.r .rcx = e.ctx ∧ h'.g = h.g ∧
      rd h' .d .r8 = a ∧ rd h' .d .rdx = a ∧ rd h' .d .rbx = a ∧ rd h' .d .r9 = p ^^^ 1#32 ||| if r = 0#32 then 16#32 else 0#32 := by
  hexec' [hc, h8, h9, hd, rd_wr_d]
  refine ⟨_, rfl, ?_⟩
  hexec' [hc, h8, h9, hd, rd_wr_d]
  refine ⟨trivial, trivial, trivial, trivial, trivial, ?_⟩
  rw [BitVec.and_self, BitVec.xor_self]
  by_cases hr : r = 0#32
  · rw [if_pos hr, if_pos (by rw [hr]; rfl)]
    rfl
  · rw [if_neg hr, if_neg (by simpa using hr)]
    rfl
theorem pushfB_run {e : Env} {h : Host.St} (hc : h.r .rcx = e.ctx) (a p : BitVec 32) (h8 : rd h .d .r8 = a) (h9 : rd h .d .r9 = p)
    (hd : rd h .d .rdx = a) (hb : rd h .d .rbx = a) :
    ∃ h', run e 0 [.sh .shr .d .rbx 1, .alu .xor .d .rbx (.reg .r8),
   .sh .shl .d .rdx 7, .mov .d .rax (.reg .r8), .sh .shl .d .r9 2, .sh .shr .d .rax 12, .alu .and .d .rbx (.imm 0x40000000#64),
   .alu .or .d .rax (.reg .rbx)] h = .next 0 h' ∧ h'.r .rcx = e.ctx ∧ h'.g = h.g ∧
      rd h' .d .r8 = a ∧ rd h' .d .rdx = a <<< 7 ∧ rd h' .d .r9 = p <<< 2 ∧ rd h' .d .rax = a >>> 12 ||| ((a >>> 1 ^^^ a) &&& 0x40000000#32) := by
  hexec' [hc, h8, h9, hd, hb, rd_wr_d]
  refine ⟨_, rfl, ?_⟩
  hexec' [hc, h8, h9, hd, hb, rd_wr_d]
  exact ⟨trivial, trivial, trivial, trivial, trivial, rfl⟩
theorem pushfC_run {e : Env} {h : Host.St} (hc : h.r .rcx = e.ctx) (a p d x : BitVec 32) (h8 : rd h .d .r8 = a) (h9 : rd h .d .r9 = p)
    (hd : rd h .d .rdx = d) (hb : rd h .d .rax = x) :
    ∃ h', run e 0 [.alu .and .d .r8 (.imm 8#64), .ldFl8 false 3 .rbx, .alu .add .d .r8 (.reg .r8), .sh .shr .d .rax 19,
   .alu .xor .d .rdx (.reg .rbx), .alu .or .d .rax (.reg .r9), .alu .and .d .rdx (.imm 0x80#64), .alu .or .d .rax (.reg .rdx),
   .alu .or .d .rax (.reg .r8)] h = .next 0 h' ∧ h'.r .rcx = e.ctx ∧ h'.g = h.g ∧
      rd h' .d .rax = x >>> 19 ||| p ||| ((d ^^^ (h.g.fl.res >>> 24 &&& 255#32)) &&& 0x80#32) ||| ((a &&& 8#32) + (a &&& 8#32)) := by
  hexec' [hc, h8, h9, hd, hb, rd_wr_d]
  refine ⟨_, rfl, ?_⟩
  hexec' [hc, h8, h9, hd, hb, rd_wr_d]
  exact ⟨trivial, trivial, rfl⟩
theorem pushfFlags_run {e : Env} {h : Host.St} (hc : h.r .rcx = e.ctx) :
    ∃ h', run e 0 pushfFlags h = .next 0 h' ∧ h'.r .rcx = e.ctx ∧ h'.g = h.g ∧ rd h' .d .rax = Flags.pushfArith h.g.fl := by
  have r0 : run e 0 [.ldAux .r8] h = .next 0 (wr h .d .r8 h.g.fl.aux) := by hexec' [hc]
  obtain ⟨h1, r1, g1, c1, p1, d1, e1⟩ := par_run (e := e) (h := wr h .d .r8 h.g.fl.aux) (by hexec' [hc]) .r9 (.inr rfl)
  rw [rd_wr_d] at e1
  rw [wr_g] at g1 p1 d1
  obtain ⟨h2, r2, c2, g2, a2, b2, x2, p2⟩ := pushfA_run c1 _ _ _ (e1 rfl) p1 d1
  obtain ⟨h3, r3, c3, g3, a3, d3, p3, x3⟩ := pushfB_run c2 _ _ a2 p2 b2 x2
  obtain ⟨h4, r4, c4, g4, x4⟩ := pushfC_run c3 _ _ _ _ a3 p3 d3 x3
  refine ⟨h4, ?_, c4, by rw [g4, g3, g2, g1], ?_⟩
  · exact (run_append _ r0).trans ((run_append _ r1).trans ((run_append _ r2).trans ((run_append _ r3).trans r4)))
  · rw [x4, g3, g2, g1, show (h.g.fl.res >>> 24 &&& 255#32) = h.g.fl.res >>> 24 by generalize h.g.fl.res = r; bits32]
    rfl
theorem popfA_run {e : Env} {h : Host.St} (hc : h.r .rcx = e.ctx) (mask v : BitVec 32) (hb : rd h .d .rbx = v) :
    ∃ h', run e 0 [.mov .d .rdx (.reg .rbx), .ldEfl .rax, .alu .and .d .rax (.imm ((~~~mask).setWidth 64)), .alu .and .d .rdx (.imm (mask.setWidth 64)),
   .alu .or .d .rax (.reg .rdx), .alu .or .d .rax (.imm 2#64), .stEfl .rax] h = .next 0 h' ∧ h'.r .rcx = e.ctx ∧ rd h' .d .rbx = v ∧
     h'.g = { h.g with fl := { h.g.fl with eflags := (h.g.fl.eflags &&& ~~~mask) ||| (v &&& mask) ||| 2#32 } } := by
  hexec' [hc, hb, rd_wr_d]
  refine ⟨_, rfl, ?_⟩
  hexec' [hc, hb, rd_wr_d]
  refine ⟨trivial, trivial, ?_⟩
  have m : ∀ x : BitVec 32, BitVec.setWidth Sz.d.bits (BitVec.setWidth 64 x) = x := fun x =>
    (BitVec.setWidth_setWidth_of_le _ (by decide)).trans (BitVec.setWidth_eq _)
  rw [m, m]
  rfl
theorem popfB_run {e : Env} {h : Host.St} (hc : h.r .rcx = e.ctx) (v : BitVec 32) (hb : rd h .d .rbx = v) :
    ∃ h', run e 0 [.mov .d .r9 (.reg .rbx), .leaS .rax .rbx 2, .not .d .rax, .alu .and .d .rax (.imm 0x100#64), .stRes (.reg .rax)] h = .next 0 h' ∧
     h'.r .rcx = e.ctx ∧ rd h' .d .rbx = v ∧ rd h' .d .r9 = v ∧ h'.g = { h.g with fl := { h.g.fl with res := ~~~(v <<< 2) &&& 0x100#32 } } := by
  hexec' [hc, hb, rd_wr_d]
  refine ⟨_, rfl, ?_⟩
  hexec' [hc, hb, rd_wr_d]
  exact ⟨trivial, trivial, trivial, rfl⟩
theorem popfC_run {e : Env} {h : Host.St} (hc : h.r .rcx = e.ctx) (v : BitVec 32) (hb : rd h .d .rbx = v) (h9 : rd h .d .r9 = v) :
    ∃ h', run e 0 [.mov .d .rdx (.reg .rbx), .sh .shl .d .rdx 11, .mov .d .rax (.reg .rbx), .alu .xor .d .rdx (.reg .rbx), .sh .shl .d .rax 12,
   .alu .and .d .rdx (.imm 0x800#64), .sh .shr .d .rbx 6, .alu .or .d .rdx (.reg .rax), .alu .and .d .rbx (.imm 2#64)] h = .next 0 h' ∧
     h'.r .rcx = e.ctx ∧ h'.g = h.g ∧ rd h' .d .rbx = (v >>> 6 &&& 2#32) ∧ rd h' .d .r9 = v ∧
     rd h' .d .rdx = ((v <<< 11 ^^^ v) &&& 0x800#32 ||| v <<< 12) := by
  hexec' [hc, hb, h9, rd_wr_d]
  refine ⟨_, rfl, ?_⟩
  hexec' [hc, hb, h9, rd_wr_d]
  exact ⟨trivial, trivial, rfl, trivial, rfl⟩
theorem popfD_run {e : Env} {h : Host.St} (hc : h.r .rcx = e.ctx) (v x d : BitVec 32) (hb : rd h .d .rbx = x) (h9 : rd h .d .r9 = v)
    (hd : rd h .d .rdx = d) :
    ∃ h', run e 0 [.mov .d .rax (.reg .r9),
   .sh .shl .d .rdx 19, .sh .shl .d .r9 6, .alu .and .d .rax (.imm 0x10#64), .alu .or .d .rbx (.reg .rax), .not .d .r9, .sh .shr .d .rbx 1,
   .alu .and .d .r9 (.imm 0x100#64), .alu .or .d .rdx (.reg .rbx), .alu .or .d .rdx (.reg .r9), .stAux (.reg .rdx)] h = .next 0 h' ∧
     h'.r .rcx = e.ctx ∧ h'.g = { h.g with fl := { h.g.fl with aux := d <<< 19 ||| (x ||| v &&& 0x10#32) >>> 1 ||| ~~~(v <<< 6) &&& 0x100#32 } } := by
  hexec' [hc, hb, h9, hd, rd_wr_d]
  refine ⟨_, rfl, ?_⟩
  hexec' [hc, hb, h9, hd, rd_wr_d]
  exact ⟨trivial, rfl⟩
theorem popfEnd_run {e : Env} {h : Host.St} (hc : h.r .rcx = e.ctx) (mask v : BitVec 32) (hb : rd h .d .rbx = v) :
    ∃ h', run e 0 (popfEnd mask) h = .next 0 h' ∧ h'.r .rcx = e.ctx ∧ h'.g = { h.g with fl := Flags.popfUpdate h.g.fl v mask } := by
  obtain ⟨h1, r1, c1, b1, g1⟩ := popfA_run hc mask v hb
  obtain ⟨h2, r2, c2, b2, n2, g2⟩ := popfB_run c1 v b1
  obtain ⟨h3, r3, c3, g3, b3, n3, d3⟩ := popfC_run c2 v b2 n2
  obtain ⟨h4, r4, c4, g4⟩ := popfD_run c3 v _ _ b3 n3 d3
  refine ⟨h4, ?_, c4, ?_⟩
  · exact (run_append _ r1).trans ((run_append _ r2).trans ((run_append _ r3).trans r4))
  · rw [g4, g3, g2, g1]
    rfl

/-- The bit number. -/
def bitNum (g : G) (z : Sz) : BitSrc → BitVec z.bits
  | .reg r => rdG g z r
  | .imm v => v.setWidth z.bits

theorem bitFlags_run {e : Env} {h : Host.St} (hc : h.r .rcx = e.ctx) (c : Bool) (hb : rd h .b .rbx = (BitVec.ofBool c).setWidth 8) :
    ∃ h', run e 0 bitFlags h = .next 0 h' ∧ h'.r .rcx = e.ctx ∧ h'.g = { h.g with fl := BitTest.setCf h.g.fl c } := by
  unfold bitFlags
  hexec' [hc, rd_wr_d, hb]
  refine ⟨_, rfl, ?_⟩
  hexec' [hc, rd_wr_d, hb]
  refine ⟨trivial, ?_⟩
  cases c <;> rfl
theorem bitLd_run {e : Env} {h : Host.St} (hc : h.r .rcx = e.ctx) (z : Sz) (n : BitSrc) :
    ∃ h', run e 0 (bitLd z n) h = .next 0 h' ∧ h'.r .rcx = e.ctx ∧ h'.g = h.g ∧ (bitSrc n).val h' z = bitNum h.g z n ∧ 
      (∀ r, r ≠ .rbx → h'.r r = h.r r) ∧ h'.loc = h.loc := by
  cases n with
  | imm v => exact ⟨h, rfl, hc, rfl, rfl, fun _ _ => rfl, rfl⟩
  | reg r =>
    unfold bitLd bitSrc bitNum
    hexec' [hc, rd_wr_d]
    refine ⟨_, rfl, ?_⟩
    hexec' [hc, rd_wr_d]
    exact ⟨trivial, trivial, trivial, fun r hr => wr_r_ne _ _ hr _, trivial⟩
theorem setc_eq (c : Bool) : (if c = true then 1#8 else 0#8) = BitVec.setWidth 8 (BitVec.ofBool c) := by cases c <;> rfl
theorem bt_run {e : Env} {h : Host.St} (hc : h.r .rcx = e.ctx) (k : Fin 4) (z : Sz) (n : BitSrc) (b : BitVec z.bits) (hn : (bitSrc n).val h z = b) :
    ∃ h', run e 0 [.bt k z .rax (bitSrc n), .setcc .c .rbx] h = .next 0 h' ∧ h'.r .rcx = e.ctx ∧ h'.g = h.g ∧
      rd h' z .rax = btVal k (rd h z .rax) (b.toNat % z.bits) ∧ rd h' .b .rbx = (BitVec.ofBool ((rd h z .rax).getLsbD (b.toNat % z.bits))).setWidth 8 := by
  by_cases hk : k = 0
  · subst hk
    hexec' [hc, hn]
    refine ⟨_, rfl, ?_⟩
    hexec' [hc]
    exact ⟨trivial, trivial, rfl, setc_eq _⟩
  · hexec' [hc, hn, hk]
    refine ⟨_, rfl, ?_⟩
    hexec' [hc]
    exact ⟨trivial, trivial, rd_wr_same _ _ _ _, setc_eq _⟩
theorem bit_reg_run {e : Env} {h : Host.St} (hc : h.r .rcx = e.ctx) (k : Fin 4) {z : Sz} (n : BitSrc) (r : GReg) :
    ∃ h', run e 0 (bit k z n (.reg r)) h = .next 0 h' ∧ h'.r .rcx = e.ctx ∧
      h'.g = { (if k = 0 then h.g else wrG h.g z r (btVal k (rdG h.g z r) ((bitNum h.g z n).toNat % z.bits))) with
        fl := BitTest.setCf h.g.fl ((rdG h.g z r).getLsbD ((bitNum h.g z n).toNat % z.bits)) } := by
  have r1 : run e 0 [.ldG z .rax r] h = .next 0 (wr h z .rax (rdG h.g z r)) := by hexec' [hc]
  obtain ⟨h2, r2, c2, g2, n2, k2, -⟩ := bitLd_run (e := e) (h := wr h z .rax (rdG h.g z r)) (by hexec' [hc]) z n
  rw [wr_g] at g2 n2
  have a2 : rd h2 z .rax = rdG h.g z r := by
    show (h2.r .rax).setWidth z.bits = _
    rw [k2 .rax (by decide)]
    exact rd_wr_same _ _ _ _
  obtain ⟨h3, r3, c3, g3, a3, b3⟩ := bt_run c2 k z n _ n2
  rw [a2] at a3 b3
  have hcode : bit k z n (.reg r) = [.ldG z .rax r] ++ (bitLd z n ++ ([.bt k z .rax (bitSrc n), .setcc .c .rbx] ++ ((if k = 0 then [] else [.stG z r .rax]) ++ bitFlags))) := by
    simp only [bit, List.append_assoc]
  rw [hcode, run_append _ r1, run_append _ r2, run_append _ r3]
  by_cases hk : k = 0
  · rw [if_pos hk, if_pos hk]
    obtain ⟨h4, r4, c4, g4⟩ := bitFlags_run c3 _ b3
    exact ⟨h4, r4, c4, by rw [g4, g3, g2]⟩
  · rw [if_neg hk, if_neg hk]
    have r4 : run e 0 [.stG z r .rax] h3 = .next 0 (h3.setG (wrG h3.g z r (rd h3 z .rax))) := by hexec' [c3]
    obtain ⟨h5, r5, c5, g5⟩ := bitFlags_run (e := e) (h := h3.setG (wrG h3.g z r (rd h3 z .rax))) (by exact c3) _ (show _ = _ from b3)
    rw [run_append _ r4]
    refine ⟨h5, r5, c5, ?_⟩
    rw [g5]
    rw [show (h3.setG (wrG h3.g z r (rd h3 z .rax))).g = wrG h3.g z r (rd h3 z .rax) from rfl, a3, g3, g2, wrG_fl]
theorem btL_run {e : Env} {h : Host.St} (hc : h.r .rcx = e.ctx) (k : Fin 4) (z : Sz) (n : BitSrc) (b : Nat)
    (hn : btIdx h z (bitSrc n) = b) (hb : b < z.bits) :
    ∃ h', run e 0 [.btL k z 0 (bitSrc n), .setcc .c .rbx] h = .next 0 h' ∧ h'.r .rcx = e.ctx ∧ h'.g = h.g ∧ h'.r .rdx = h.r .rdx ∧
      rdL h' z 0 = btVal k (rdL h z 0) b ∧ rd h' .b .rbx = (BitVec.ofBool ((rdL h z 0).getLsbD b)).setWidth 8 := by
  have r1 : run e 0 [.btL k z 0 (bitSrc n)] h = .next 0 { wrL h z 0 (btVal k (rdL h z 0) b) with cf := (rdL h z 0).getLsbD b, of := e.hf h .of, sf := e.hf h .sf } := by
    rw [run_step]
    simp only [step]
    rw [hn, if_pos hb]
    rfl
  rw [show ([.btL k z 0 (bitSrc n), .setcc .c .rbx] : List I) = [.btL k z 0 (bitSrc n)] ++ [.setcc .c .rbx] from rfl, run_append _ r1]
  hexec' [hc]
  refine ⟨_, rfl, ?_⟩
  hexec' [hc]
  exact ⟨trivial, trivial, trivial, rdL_wrL_same _ _ _ _, setc_eq _⟩
theorem btL_stuck {e : Env} {h : Host.St} (k : Fin 4) (z : Sz) (n : BitSrc) (l : List I)
    (hn : z.bits ≤ btIdx h z (bitSrc n)) :
    run e 0 ([.btL k z 0 (bitSrc n), .setcc .c .rbx] ++ l) h = .stuck := by
  rw [List.cons_append, run_step]
  simp only [step]
  rw [if_neg (Nat.not_lt.2 hn)]
/-- The bit number of a memory operand: one in a register is not reduced. -/
def bitNumM (g : G) (z : Sz) : BitSrc → Nat
  | .reg r => (rdG g z r).toNat
  | .imm v => v.toNat % z.bits
theorem bitPre_run {e : Env} {h : Host.St} (hc : h.r .rcx = e.ctx) (z : Sz) (n : BitSrc) (a : Ea) :
    (e.ok a.lin z.bytes false = true → ∃ h', run e 0 ([.ea a, .mov .d .rbx (.reg .rdx), .ldMem z, .mov .d .rdx (.reg .rbx), .stL z 0 .rax] ++ bitLd z n) h = .next 0 h' ∧
      h'.r .rcx = e.ctx ∧ h'.g = h.g ∧ rd h' .d .rdx = a.lin ∧ rdL h' z 0 = BitVec.ofNat z.bits (Guest.load h.g.mem a.lin z.bytes) ∧
      btIdx h' z (bitSrc n) = bitNumM h.g z n) ∧
    (e.ok a.lin z.bytes false = false → ∀ l, run e 0 ([.ea a, .mov .d .rbx (.reg .rdx), .ldMem z, .mov .d .rdx (.reg .rbx), .stL z 0 .rax] ++ l) h = .fault h.g) := by
  obtain ⟨h1, r1, c1, g1, d1, b1⟩ : ∃ h1, run e 0 [.ea a, .mov .d .rbx (.reg .rdx)] h = .next 0 h1 ∧ h1.r .rcx = e.ctx ∧ h1.g = h.g ∧
      rd h1 .d .rdx = a.lin ∧ rd h1 .d .rbx = a.lin := by
    hexec' [hc]
    refine ⟨_, rfl, ?_⟩
    hexec' [hc, rd_wr_d]
    exact ⟨trivial, trivial, trivial, trivial⟩
  obtain ⟨l1, l2⟩ := ldMem_run c1 z
  rw [d1, g1] at l1 l2
  refine ⟨fun hk => ?_, fun hk l => ?_⟩
  · obtain ⟨h2, r2, g2, a2, c2, b2, -⟩ := l1 hk
    have b2' : rd h2 .d .rbx = a.lin := by
      rw [← b1]
      exact congrArg (BitVec.setWidth _) b2
    obtain ⟨h3, r3, c3, g3, d3, l3⟩ : ∃ h3, run e 0 [.mov .d .rdx (.reg .rbx), .stL z 0 .rax] h2 = .next 0 h3 ∧ h3.r .rcx = e.ctx ∧ h3.g = h2.g ∧
        rd h3 .d .rdx = a.lin ∧ rdL h3 z 0 = rd h2 z .rax := by
      hexec' [c2]
      refine ⟨_, rfl, ?_⟩
      hexec' [c2, b2', rd_wr_d]
      exact ⟨trivial, trivial, trivial, trivial⟩
    obtain ⟨h4, r4, c4, g4, n4, k4, l4⟩ := bitLd_run c3 z n
    refine ⟨h4, ?_, c4, by rw [g4, g3, g2], ?_, ?_, ?_⟩
    · exact (run_append _ (run_append _ r1 |>.trans ((run_append _ r2).trans r3))).trans r4
    · show (h4.r .rdx).setWidth _ = _
      rw [k4 _ (by decide)]
      exact d3
    · unfold rdL
      rw [l4, ← a2]
      exact l3
    · cases n with
      | reg r =>
        rw [g3, g2] at n4
        exact congrArg BitVec.toNat n4
      | imm v => rfl
  · exact (run_append _ r1).trans (run_append_fault (a := [.ldMem z]) _ (l2 hk))
theorem bit_mem_run {e : Env} {h : Host.St} (hc : h.r .rcx = e.ctx) (k : Fin 4) {z : Sz} (n : BitSrc) (a : Ea) :
    (e.ok a.lin z.bytes false = false → run e 0 (bit k z n (.mem a)) h = .fault h.g) ∧
    (e.ok a.lin z.bytes false = true → z.bits ≤ bitNumM h.g z n → run e 0 (bit k z n (.mem a)) h = .stuck) ∧
    (e.ok a.lin z.bytes false = true → bitNumM h.g z n < z.bits → k ≠ 0 → e.ok a.lin z.bytes true = false → run e 0 (bit k z n (.mem a)) h = .fault h.g) ∧
    (e.ok a.lin z.bytes false = true → bitNumM h.g z n < z.bits → (k = 0 ∨ e.ok a.lin z.bytes true = true) →
      ∃ h', run e 0 (bit k z n (.mem a)) h = .next 0 h' ∧ h'.r .rcx = e.ctx ∧
      h'.g = { h.g with
        mem := if k = 0 then h.g.mem else Guest.store h.g.mem a.lin z.bytes (btVal k (BitVec.ofNat z.bits (Guest.load h.g.mem a.lin z.bytes)) (bitNumM h.g z n)).toNat
        fl := BitTest.setCf h.g.fl ((BitVec.ofNat z.bits (Guest.load h.g.mem a.lin z.bytes)).getLsbD (bitNumM h.g z n)) }) := by
  obtain ⟨p1, p2⟩ := bitPre_run hc z n a
  have hcode : bit k z n (.mem a) = ([.ea a, .mov .d .rbx (.reg .rdx), .ldMem z, .mov .d .rdx (.reg .rbx), .stL z 0 .rax] ++ bitLd z n) ++
      ([.btL k z 0 (bitSrc n), .setcc .c .rbx] ++ ((if k = 0 then [] else [.ldL z .r8 0, .stMem z]) ++ bitFlags)) := by
    simp only [bit, List.append_assoc]
  refine ⟨fun hk => ?_, fun hk hn => ?_, fun hk hn h0 hw => ?_, fun hk hn hw => ?_⟩
  · rw [hcode, List.append_assoc]
    exact p2 hk _
  · obtain ⟨h1, r1, c1, g1, d1, l1, n1⟩ := p1 hk
    rw [hcode, run_append _ r1]
    exact btL_stuck k z n _ (by rw [n1]; exact hn)
  · obtain ⟨h1, r1, c1, g1, d1, l1, n1⟩ := p1 hk
    obtain ⟨h2, r2, c2, g2, d2, l2, b2⟩ := btL_run c1 k z n _ n1 hn
    have r3 : run e 0 [.ldL z .r8 0] h2 = .next 0 (wr h2 z .r8 (rdL h2 z 0)) := by hexec' [c2]
    have hs := (stMem_run (e := e) (h := wr h2 z .r8 (rdL h2 z 0)) (by hexec' [c2]) z).2
    have hd : rd (wr h2 z .r8 (rdL h2 z 0)) .d .rdx = a.lin := by
      rw [rd_wr_ne _ _ _ (show Reg.rdx ≠ Reg.r8 by decide) _, ← d1]
      exact congrArg (BitVec.setWidth _) d2
    rw [hd, wr_g, g2, g1] at hs
    rw [hcode, run_append _ r1, run_append _ r2, if_neg h0]
    exact (run_append _ r3).trans (run_append_fault (a := [.stMem z]) _ (hs hw))
  · obtain ⟨h1, r1, c1, g1, d1, l1, n1⟩ := p1 hk
    obtain ⟨h2, r2, c2, g2, d2, l2, b2⟩ := btL_run c1 k z n _ n1 hn
    rw [l1] at l2 b2
    rw [hcode, run_append _ r1, run_append _ r2]
    by_cases h0 : k = 0
    · rw [if_pos h0, if_pos h0]
      obtain ⟨h4, r4, c4, g4⟩ := bitFlags_run c2 _ b2
      exact ⟨h4, r4, c4, by rw [g4, g2, g1]⟩
    · rw [if_neg h0, if_neg h0]
      have r3 : run e 0 [.ldL z .r8 0] h2 = .next 0 (wr h2 z .r8 (rdL h2 z 0)) := by hexec' [c2]
      have hs := (stMem_run (e := e) (h := wr h2 z .r8 (rdL h2 z 0)) (by hexec' [c2]) z).1
      have hd : rd (wr h2 z .r8 (rdL h2 z 0)) .d .rdx = a.lin := by
        rw [rd_wr_ne _ _ _ (show Reg.rdx ≠ Reg.r8 by decide) _, ← d1]
        exact congrArg (BitVec.setWidth _) d2
      rw [hd, wr_g, rd_wr_same, g2, g1, l2] at hs
      obtain ⟨h4, r4, g4, c4, b4, -⟩ := hs (hw.resolve_left h0)
      rw [l2] at r3
      have b4' : rd h4 .b .rbx = rd h2 .b .rbx := (congrArg (BitVec.setWidth _) b4).trans (rd_wr_ne _ _ _ (show Reg.rbx ≠ Reg.r8 by decide) _)
      obtain ⟨h5, r5, c5, g5⟩ := bitFlags_run c4 _ (b4'.trans b2)
      exact ⟨h5, (run_append _ ((run_append _ r3).trans r4)).trans r5, c5, by rw [g5, g4]⟩

theorem divCall_run {e : Env} {h : Host.St} (hc : h.r .rcx = e.ctx) (sg : Bool) (z : Sz) (eip : BitVec 64) (d : BitVec z.bits) (hd : rd h z .rdx = d) :
    match divHelper sg z (h.g.gpr 0) (h.g.gpr 2) (d.setWidth 64) with
    | .ok a c => ∃ h', run e 0 [.mov .d .r8 (.imm eip), .callDiv sg z, .reload, .test .d .rax .rax, .jeq 1] h = .next 1 h' ∧ h'.r .rcx = e.ctx ∧
        h'.g = { h.g with gpr := fun i => if i = 0 then a else if i = 2 then c else h.g.gpr i }
    | .de => ∃ h', run e 0 [.mov .d .r8 (.imm eip), .callDiv sg z, .reload, .test .d .rax .rax, .jeq 1] h = .next 0 h' ∧ h'.r .rcx = e.ctx ∧ h'.g = h.g
    | .ub => run e 0 [.mov .d .r8 (.imm eip), .callDiv sg z, .reload, .test .d .rax .rax, .jeq 1] h = .stuck := by
  have r1 : run e 0 [.mov .d .r8 (.imm eip)] h = .next 0 (wr h .d .r8 (eip.setWidth 32)) := by hexec' [hc]
  have hx : divHelper sg z (h.g.gpr 0) (h.g.gpr 2) ((wr h .d .r8 (eip.setWidth 32)).r .rdx) = divHelper sg z (h.g.gpr 0) (h.g.gpr 2) (d.setWidth 64) := by
    rw [wr_r_ne _ _ (by decide), ← hd]
    unfold divHelper rd
    cases z <;> cases sg <;> simp [Sz.bits]
  have hrun : ∀ o, step e (wr h .d .r8 (eip.setWidth 32)) (.callDiv sg z) = o → run e 0 [.mov .d .r8 (.imm eip), .callDiv sg z, .reload, .test .d .rax .rax, .jeq 1] h =
      (match o with
       | .next k h' => run e k [.reload, .test .d .rax .rax, .jeq 1] h'
       | .fault g => .fault g
       | .stuck => .stuck) := by
    intro o ho
    rw [show ([.mov .d .r8 (.imm eip), .callDiv sg z, .reload, .test .d .rax .rax, .jeq 1] : List I) = [.mov .d .r8 (.imm eip)] ++ [.callDiv sg z, .reload, .test .d .rax .rax, .jeq 1] from rfl,
      run_append _ r1, run_step, ho]
    cases o <;> rfl
  have hs : step e (wr h .d .r8 (eip.setWidth 32)) (.callDiv sg z) = callDiv e (wr h .d .r8 (eip.setWidth 32)) sg z := by
    simp only [step]
    unfold ctxd
    rw [if_pos (by rw [wr_r_ne _ _ (by decide)]; exact hc)]
  generalize hw : wr h .d .r8 (eip.setWidth 32) = w at *
  have hg : w.g = h.g := by rw [← hw]; rfl
  unfold callDiv at hs
  rw [hg, hx] at hs
  cases hv : divHelper sg z (h.g.gpr 0) (h.g.gpr 2) (d.setWidth 64) with
  | ub =>
    rw [hv] at hs
    rw [hrun _ hs]
  | de =>
    rw [hv] at hs
    rw [hrun _ hs]
    dsimp only
    hexec' []
    refine ⟨_, rfl, ?_⟩
    hexec' [hg]
    exact ⟨trivial, trivial⟩
  | ok a c =>
    rw [hv] at hs
    rw [hrun _ hs]
    dsimp only
    hexec' []
    refine ⟨_, rfl, ?_⟩
    hexec' [hg]
    exact ⟨trivial, trivial⟩
theorem div_reg_code (sg : Bool) (z : Sz) (eip : BitVec 64) (r : GReg) :
    div sg z eip (.reg r) = [.ldG z .rdx r] ++ [.mov .d .r8 (.imm eip), .callDiv sg z, .reload, .test .d .rax .rax, .jeq 1] := rfl
theorem div_mem_code (sg : Bool) (z : Sz) (eip : BitVec 64) (a : Ea) :
    div sg z eip (.mem a) = [.ea a, .ldMem z, .mov z .rdx (.reg .rax)] ++ [.mov .d .r8 (.imm eip), .callDiv sg z, .reload, .test .d .rax .rax, .jeq 1] := rfl
theorem div_fault {e : Env} {h : Host.St} (hc : h.r .rcx = e.ctx) (sg : Bool) (z : Sz) (eip : BitVec 64) (a : Ea) (hk : e.ok a.lin z.bytes false = false) :
    run e 0 (div sg z eip (.mem a)) h = .fault h.g := by
  rw [div_mem_code]
  obtain ⟨h1, r1, c1, g1, d1⟩ : ∃ h1, run e 0 [.ea a] h = .next 0 h1 ∧ h1.r .rcx = e.ctx ∧ h1.g = h.g ∧ rd h1 .d .rdx = a.lin := by
    hexec' [hc]
    refine ⟨_, rfl, ?_⟩
    hexec' [hc]
    exact ⟨trivial, trivial, trivial⟩
  have := (ldMem_run c1 z).2
  rw [d1, g1] at this
  exact (run_append _ r1).trans (run_append_fault (a := [.ldMem z]) _ (this hk))
theorem div_run {e : Env} {h : Host.St} (hc : h.r .rcx = e.ctx) (sg : Bool) (z : Sz) (eip : BitVec 64) (rm : Rm) (hk : (Spec.ofRm rm).ok e z false = true) :
    match divHelper sg z (h.g.gpr 0) (h.g.gpr 2) (((Spec.ofRm rm).get h.g z).setWidth 64) with
    | .ok a c => ∃ h', run e 0 (div sg z eip rm) h = .next 1 h' ∧ h'.r .rcx = e.ctx ∧
        h'.g = { h.g with gpr := fun i => if i = 0 then a else if i = 2 then c else h.g.gpr i }
    | .de => ∃ h', run e 0 (div sg z eip rm) h = .next 0 h' ∧ h'.r .rcx = e.ctx ∧ h'.g = h.g
    | .ub => run e 0 (div sg z eip rm) h = .stuck := by
  have hpre : ∃ pre h1, div sg z eip rm = pre ++ [.mov .d .r8 (.imm eip), .callDiv sg z, .reload, .test .d .rax .rax, .jeq 1] ∧
      run e 0 pre h = .next 0 h1 ∧ h1.r .rcx = e.ctx ∧ h1.g = h.g ∧ rd h1 z .rdx = (Spec.ofRm rm).get h.g z := by
    cases rm with
    | reg r =>
      refine ⟨_, wr h z .rdx (rdG h.g z r), div_reg_code sg z eip r, by hexec' [hc], by hexec' [hc], rfl, rd_wr_same _ _ _ _⟩
    | mem a =>
      obtain ⟨h1, r1, c1, g1, d1⟩ : ∃ h1, run e 0 [.ea a] h = .next 0 h1 ∧ h1.r .rcx = e.ctx ∧ h1.g = h.g ∧ rd h1 .d .rdx = a.lin := by
        hexec' [hc]
        refine ⟨_, rfl, ?_⟩
        hexec' [hc]
        exact ⟨trivial, trivial, trivial⟩
      have := (ldMem_run c1 z).1
      rw [d1, g1] at this
      obtain ⟨h2, r2, g2, a2, c2, -⟩ := this hk
      have r3 : run e 0 [.mov z .rdx (.reg .rax)] h2 = .next 0 (wr h2 z .rdx (rd h2 z .rax)) := by hexec' [c2]
      refine ⟨_, wr h2 z .rdx (rd h2 z .rax), div_mem_code sg z eip a, (run_append _ r1).trans ((run_append _ r2).trans r3), by hexec' [c2], by rw [wr_g, g2], ?_⟩
      rw [rd_wr_same, a2]
      rfl
  obtain ⟨pre, h1, hcode, r1, c1, g1, d1⟩ := hpre
  have := divCall_run c1 sg z eip _ d1
  rw [g1] at this
  rw [hcode, run_append _ r1]
  exact this
end Verif.Emit
