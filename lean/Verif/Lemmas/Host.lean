import Verif.Model.Host
import Verif.Lemmas.Bits
/-
Symbolic execution of emitted host code.
-/
namespace Verif.Host
open Guest

theorem put8 (o : BitVec 64) (v : BitVec 8) :
    ((o &&& 0xFFFFFFFFFFFFFF00#64) ||| v.setWidth 64).setWidth 8 = v := by bits8
theorem put16 (o : BitVec 64) (v : BitVec 16) :
    ((o &&& 0xFFFFFFFFFFFF0000#64) ||| v.setWidth 64).setWidth 16 = v := by bits16

theorem setWidth_put (z : Sz) (o : BitVec 64) (v : BitVec z.bits) : (put z o v).setWidth z.bits = v := by
  cases z
  · exact put8 o v
  · exact put16 o v
  · show BitVec.setWidth 32 (BitVec.setWidth 64 (w := 32) v) = v
    rw [BitVec.setWidth_setWidth_of_le _ (by decide)]; exact BitVec.setWidth_eq _
  · exact BitVec.setWidth_eq _

@[simp] theorem rd_wr_same (h : St) (z : Sz) (r : Reg) (v : BitVec z.bits) : rd (wr h z r v) z r = v := by
  unfold rd wr St.set
  simp only [if_true]
  exact setWidth_put z _ v

@[simp] theorem rd_wr_ne (h : St) (z z' : Sz) {r r' : Reg} (hr : r ≠ r') (v : BitVec z'.bits) :
    rd (wr h z' r' v) z r = rd h z r := by
  unfold rd wr St.set
  simp only [if_neg hr]

theorem rd_wr_d (h : St) (z : Sz) (r : Reg) (v : BitVec 32) : rd (wr h .d r v) z r = v.setWidth z.bits := by
  unfold rd wr St.set put
  simp only [if_true]
  rw [BitVec.setWidth_setWidth_of_le _ (by cases z <;> decide)]

@[simp] theorem wr_r_ne (h : St) (z : Sz) {r r' : Reg} (hr : r ≠ r') (v : BitVec z.bits) :
    (wr h z r' v).r r = h.r r := by
  unfold wr St.set; simp only [if_neg hr]
@[simp] theorem wr_g (h : St) (z : Sz) (r : Reg) (v : BitVec z.bits) : (wr h z r v).g = h.g := rfl
@[simp] theorem wr_loc (h : St) (z : Sz) (r : Reg) (v : BitVec z.bits) : (wr h z r v).loc = h.loc := rfl
@[simp] theorem wr_zf (h : St) (z : Sz) (r : Reg) (v : BitVec z.bits) : (wr h z r v).zf = h.zf := rfl

@[simp] theorem rd_set_ne (h : St) (z : Sz) {r r' : Reg} (hr : r ≠ r') (v : BitVec 64) :
    rd (h.set r' v) z r = rd h z r := by
  unfold rd St.set; simp only [if_neg hr]
@[simp] theorem set_r_same (h : St) (r : Reg) (v : BitVec 64) : (h.set r v).r r = v := by
  unfold St.set; simp only [if_true]
@[simp] theorem set_r_ne (h : St) {r r' : Reg} (hr : r ≠ r') (v : BitVec 64) : (h.set r' v).r r = h.r r := by
  unfold St.set; simp only [if_neg hr]
@[simp] theorem set_g (h : St) (r : Reg) (v : BitVec 64) : (h.set r v).g = h.g := rfl
@[simp] theorem set_loc (h : St) (r : Reg) (v : BitVec 64) : (h.set r v).loc = h.loc := rfl
@[simp] theorem set_zf (h : St) (r : Reg) (v : BitVec 64) : (h.set r v).zf = h.zf := rfl

@[simp] theorem rd_setF (h : St) (a b c d : Bool) (z : Sz) (r : Reg) : rd (h.setF a b c d) z r = rd h z r := rfl
@[simp] theorem setF_r (h : St) (a b c d : Bool) : (h.setF a b c d).r = h.r := rfl
@[simp] theorem setF_g (h : St) (a b c d : Bool) : (h.setF a b c d).g = h.g := rfl
@[simp] theorem setF_loc (h : St) (a b c d : Bool) : (h.setF a b c d).loc = h.loc := rfl
@[simp] theorem setF_zf (h : St) (a b c d : Bool) : (h.setF a b c d).zf = a := rfl

@[simp] theorem rd_setG (h : St) (g : G) (z : Sz) (r : Reg) : rd (h.setG g) z r = rd h z r := rfl
@[simp] theorem setG_r (h : St) (g : G) : (h.setG g).r = h.r := rfl
@[simp] theorem setG_g (h : St) (g : G) : (h.setG g).g = g := rfl
@[simp] theorem setG_loc (h : St) (g : G) : (h.setG g).loc = h.loc := rfl
@[simp] theorem setG_zf (h : St) (g : G) : (h.setG g).zf = h.zf := rfl

@[simp] theorem rd_wrL (h : St) (i : Nat) (z' : Sz) (v : BitVec z'.bits) (z : Sz) (r : Reg) :
    rd (wrL h z' i v) z r = rd h z r := rfl
@[simp] theorem wrL_r (h : St) (i : Nat) (z : Sz) (v : BitVec z.bits) : (wrL h z i v).r = h.r := rfl
@[simp] theorem wrL_g (h : St) (i : Nat) (z : Sz) (v : BitVec z.bits) : (wrL h z i v).g = h.g := rfl
@[simp] theorem wrL_zf (h : St) (i : Nat) (z : Sz) (v : BitVec z.bits) : (wrL h z i v).zf = h.zf := rfl
@[simp] theorem rdL_wrL_same (h : St) (i : Nat) (z : Sz) (v : BitVec z.bits) : rdL (wrL h z i v) z i = v := by
  unfold rdL wrL
  simp only [if_true]
  exact setWidth_put z _ v
@[simp] theorem rdL_wrL_ne (h : St) {i j : Nat} (hi : i ≠ j) (z z' : Sz) (v : BitVec z'.bits) :
    rdL (wrL h z' j v) z i = rdL h z i := by
  unfold rdL wrL
  simp only [if_neg hi]
@[simp] theorem rdL_wr (h : St) (i : Nat) (z z' : Sz) (r : Reg) (v : BitVec z'.bits) :
    rdL (wr h z' r v) z i = rdL h z i := rfl
@[simp] theorem rdL_set (h : St) (i : Nat) (z : Sz) (r : Reg) (v : BitVec 64) : rdL (h.set r v) z i = rdL h z i := rfl
@[simp] theorem rdL_setF (h : St) (i : Nat) (z : Sz) (a b c d : Bool) : rdL (h.setF a b c d) z i = rdL h z i := rfl
@[simp] theorem rdL_setG (h : St) (i : Nat) (z : Sz) (g : G) : rdL (h.setG g) z i = rdL h z i := rfl
@[simp] theorem rdL_clob (e : Env) (h : St) (i : Nat) (z : Sz) : rdL (clob e h) z i = rdL h z i := rfl
theorem rdL_of_loc {h h' : St} (hl : h'.loc = h.loc) (z : Sz) (i : Nat) : rdL h' z i = rdL h z i := by
  unfold rdL; rw [hl]

@[simp] theorem rd_clob_rbx (e : Env) (h : St) (z : Sz) : rd (clob e h) z .rbx = rd h z .rbx := rfl
@[simp] theorem clob_rbx (e : Env) (h : St) : (clob e h).r .rbx = h.r .rbx := rfl
@[simp] theorem clob_rcx (e : Env) (h : St) : (clob e h).r .rcx = e.ctx := rfl
@[simp] theorem clob_g (e : Env) (h : St) : (clob e h).g = h.g := rfl
@[simp] theorem clob_loc (e : Env) (h : St) : (clob e h).loc = h.loc := rfl

@[simp] theorem val_reg (h : St) (z : Sz) (r : Reg) : (Src.reg r).val h z = rd h z r := rfl
@[simp] theorem val_imm (h : St) (z : Sz) (v : BitVec 64) : (Src.imm v).val h z = v.setWidth z.bits := rfl

theorem ctxd_ok {e : Env} {h : St} (hc : h.r .rcx = e.ctx) (k : Out) : ctxd e h k = k := if_pos hc

theorem run_nil (e : Env) (k : Nat) (h : St) : run e k [] h = .next k h := by
  cases k <;> rfl
theorem run_skip (e : Env) (k : Nat) (i : I) (l : List I) (h : St) : run e (k + 1) (i :: l) h = run e k l h := rfl
theorem run_step (e : Env) (i : I) (l : List I) (h : St) : run e 0 (i :: l) h = match step e h i with
    | .next k h' => run e k l h'
    | .fault g => .fault g
    | .stuck => .stuck := rfl

/-- A sequence that runs through is followed by the rest. -/
theorem run_append {e : Env} {k : Nat} {a : List I} {h h' : St} (b : List I) {k' : Nat}
    (hr : run e k a h = .next k' h') : run e k (a ++ b) h = run e k' b h' := by
  induction a generalizing k h with
  | nil =>
    rw [run_nil] at hr
    injection hr with h1 h2
    subst h1 h2; rfl
  | cons i a ih =>
    cases k with
    | succ k => exact ih hr
    | zero =>
      rw [List.cons_append, run_step]
      rw [run_step] at hr
      cases hs : step e h i with
      | next k h1 => rw [hs] at hr; exact ih hr
      | fault g => rw [hs] at hr; cases hr
      | stuck => rw [hs] at hr; cases hr

/-- A sequence that faults keeps faulting. -/
theorem run_append_fault {e : Env} {k : Nat} {a : List I} {h : St} (b : List I) {g : G}
    (hr : run e k a h = .fault g) : run e k (a ++ b) h = .fault g := by
  induction a generalizing k h with
  | nil => rw [run_nil] at hr; cases hr
  | cons i a ih =>
    cases k with
    | succ k => exact ih hr
    | zero =>
      rw [List.cons_append, run_step]
      rw [run_step] at hr
      cases hs : step e h i with
      | next k h1 => rw [hs] at hr; exact ih hr
      | fault g => rw [hs] at hr; exact hr
      | stuck => rw [hs] at hr; cases hr

end Verif.Host
