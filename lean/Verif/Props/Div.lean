import Verif.Model.Div
import Verif.Lemmas.Bits
/-
C31: DIV and IDIV.
The specification uses the mathematical dividend and divisor, and truncated division (Int.tdiv, Int.tmod).
-/
namespace Verif.Div

/-! ### Operands and results -/

/-- Register parts. -/
def lo16 (x : BitVec 32) : BitVec 16 := x.setWidth 16
def hi16 (x : BitVec 32) : BitVec 16 := (x >>> 16).setWidth 16
def al (x : BitVec 32) : BitVec 8 := x.setWidth 8
def ah (x : BitVec 32) : BitVec 8 := (x >>> 8).setWidth 8

/-- The dividend EDX:EAX, DX:AX, AX as an unsigned number ... -/
def udividend32 (eax edx : BitVec 32) : Nat := edx.toNat * 2 ^ 32 + eax.toNat
def udividend16 (eax edx : BitVec 32) : Nat := (lo16 edx).toNat * 2 ^ 16 + (lo16 eax).toNat
def udividend8 (eax : BitVec 32) : Nat := (lo16 eax).toNat
/-- ... and as a signed one. -/
def sdividend32 (eax edx : BitVec 32) : Int := edx.toInt * 2 ^ 32 + eax.toNat
def sdividend16 (eax edx : BitVec 32) : Int := (lo16 edx).toInt * 2 ^ 16 + (lo16 eax).toNat
def sdividend8 (eax : BitVec 32) : Int := (lo16 eax).toInt

/-- The integer fits in `k + 1` bits, signed. -/
def Fits (k : Nat) (q : Int) : Prop := -2 ^ k ≤ q ∧ q < 2 ^ k

theorem cat32 (eax edx : BitVec 32) : eax.setWidth 64 ||| (edx.setWidth 64 <<< 32) = (edx ++ eax : BitVec 64) := by
  apply BitVec.eq_of_getLsbD_eq
  intro i hi
  rw [BitVec.getLsbD_or, BitVec.getLsbD_append, BitVec.getLsbD_shiftLeft, BitVec.getLsbD_setWidth, BitVec.getLsbD_setWidth]
  by_cases h : i < 32
  · simp [h, hi]
  · have := BitVec.getLsbD_of_ge eax i (by omega)
    simp only [this, h, hi, decide_true, Bool.and_false, Bool.true_and, Bool.not_false, Bool.false_or, decide_false]
    simp; intro _; omega
theorem cat16 (eax edx : BitVec 32) : (eax &&& 0xFFFF#32) ||| ((edx &&& 0xFFFF#32) <<< 16) = (lo16 edx ++ lo16 eax : BitVec 32) := by
  unfold lo16
  apply BitVec.eq_of_getLsbD_eq
  intro i hi
  rw [BitVec.getLsbD_append]
  by_cases h : i < 16
  · have e : (0xFFFF#32).getLsbD i = true := by
      have : ∀ k : Fin 16, (0xFFFF#32).getLsbD k = true := by decide
      exact this ⟨i, h⟩
    simp only [BitVec.getLsbD_or, BitVec.getLsbD_and, BitVec.getLsbD_shiftLeft, BitVec.getLsbD_setWidth, e, h]; simp
  · have e : (0xFFFF#32).getLsbD i = false := by
      have : ∀ k : Fin 32, 16 ≤ k.val → (0xFFFF#32).getLsbD k = false := by decide
      exact this ⟨i, hi⟩ (by simpa using h)
    have e2 : (0xFFFF#32).getLsbD (i - 16) = true := by
      have : ∀ k : Fin 16, (0xFFFF#32).getLsbD k = true := by decide
      exact this ⟨i - 16, by omega⟩
    have : i - 16 < 16 := by omega
    simp only [BitVec.getLsbD_or, BitVec.getLsbD_and, BitVec.getLsbD_shiftLeft, BitVec.getLsbD_setWidth, e, e2, h, this]; simp [hi]
theorem low16 (x : BitVec 32) : (x &&& 0xFFFF#32).setWidth 16 = lo16 x := by unfold lo16; bits16

theorem append_toNat {n m : Nat} (x : BitVec n) (y : BitVec m) : (x ++ y).toNat = x.toNat * 2 ^ m + y.toNat := by
  rw [BitVec.toNat_append, ← Nat.shiftLeft_add_eq_or_of_lt y.isLt, Nat.shiftLeft_eq]
theorem udividend32_eq (eax edx : BitVec 32) : (edx ++ eax).toNat = udividend32 eax edx := append_toNat _ _
theorem udividend16_eq (eax edx : BitVec 32) : (lo16 edx ++ lo16 eax).toNat = udividend16 eax edx := append_toNat _ _
theorem sdividend32_eq (eax edx : BitVec 32) : (edx ++ eax).toInt = sdividend32 eax edx := by
  rw [BitVec.toInt_append]; unfold sdividend32; simp [Int.mul_comm]
theorem sdividend16_eq (eax edx : BitVec 32) : (lo16 edx ++ lo16 eax).toInt = sdividend16 eax edx := by
  rw [BitVec.toInt_append]; unfold sdividend16; simp [Int.mul_comm]

theorem put16 (x y : BitVec 32) : lo16 ((x &&& ~~~0xFFFF#32) ||| (y &&& 0xFFFF#32)) = lo16 y ∧
    hi16 ((x &&& ~~~0xFFFF#32) ||| (y &&& 0xFFFF#32)) = hi16 x := by
  unfold lo16 hi16; constructor <;> bits16
theorem put8 (x : BitVec 32) (q r : BitVec 16) :
    let y := (x &&& ~~~0xFFFF#32) ||| ((r &&& 0xFF#16).setWidth 32 <<< 8) ||| (q &&& 0xFF#16).setWidth 32
    al y = q.setWidth 8 ∧ ah y = r.setWidth 8 ∧ hi16 y = hi16 x := by
  unfold al ah hi16
  refine ⟨?_, ?_, ?_⟩
  · bits8
  · bits8
  · bits16

/-! ### Unsigned -/

/-- C31, DIV r/m32: a divide error exactly when the divisor is zero or the quotient does not fit, and
else quotient and remainder in EAX and EDX. -/
theorem C31_div32 (eax edx d : BitVec 32) :
    (divd eax edx d = .de ↔ d.toNat = 0 ∨ 2 ^ 32 ≤ udividend32 eax edx / d.toNat) ∧ divd eax edx d ≠ .ub ∧
    ∀ a c, divd eax edx d = .ok a c →
      a.toNat = udividend32 eax edx / d.toNat ∧ c.toNat = udividend32 eax edx % d.toNat := by
  unfold divd
  simp only [cat32]
  by_cases h0 : d = 0#32
  · subst h0; simp
  · have hd : d.toNat ≠ 0 := fun h => h0 (BitVec.eq_of_toNat_eq (by simpa using h))
    have hdl := d.isLt
    rw [if_neg h0]
    have hw : (d.setWidth 64).toNat = d.toNat := by rw [BitVec.toNat_setWidth, Nat.mod_eq_of_lt (by omega)]
    have hq : ((edx ++ eax : BitVec 64) / d.setWidth 64).toNat = udividend32 eax edx / d.toNat := by
      rw [BitVec.toNat_udiv, hw, udividend32_eq]
    have hr : ((edx ++ eax : BitVec 64) % d.setWidth 64).toNat = udividend32 eax edx % d.toNat := by
      rw [BitVec.toNat_umod, hw, udividend32_eq]
    have hrl : udividend32 eax edx % d.toNat < d.toNat := Nat.mod_lt _ (by omega)
    have hlt : (0xFFFFFFFF#64 < (edx ++ eax : BitVec 64) / d.setWidth 64) ↔ 2 ^ 32 ≤ udividend32 eax edx / d.toNat := by
      rw [BitVec.lt_def, hq]; simp; omega
    by_cases hc : 2 ^ 32 ≤ udividend32 eax edx / d.toNat
    · rw [if_pos (hlt.mpr hc)]
      exact ⟨by simp [hc], by simp, by simp⟩
    · rw [if_neg (fun h => hc (hlt.mp h))]
      refine ⟨by simp [hc, hd], by simp, ?_⟩
      intro a c h
      injection h with h1 h2
      rw [← h1, ← h2, BitVec.toNat_setWidth, BitVec.toNat_setWidth, hq, hr]
      exact ⟨Nat.mod_eq_of_lt (by omega), Nat.mod_eq_of_lt (by omega)⟩

/-- C31, DIV r/m16: quotient and remainder in AX and DX, the upper halves kept. -/
theorem C31_div16 (eax edx : BitVec 32) (d : BitVec 16) :
    (divw eax edx d = .de ↔ d.toNat = 0 ∨ 2 ^ 16 ≤ udividend16 eax edx / d.toNat) ∧ divw eax edx d ≠ .ub ∧
    ∀ a c, divw eax edx d = .ok a c →
      (lo16 a).toNat = udividend16 eax edx / d.toNat ∧ (lo16 c).toNat = udividend16 eax edx % d.toNat ∧
      hi16 a = hi16 eax ∧ hi16 c = hi16 edx := by
  unfold divw
  simp only [cat16]
  by_cases h0 : d = 0#16
  · subst h0; simp
  · have hd : d.toNat ≠ 0 := fun h => h0 (BitVec.eq_of_toNat_eq (by simpa using h))
    have hdl := d.isLt
    rw [if_neg h0]
    have hw : (d.setWidth 32).toNat = d.toNat := by rw [BitVec.toNat_setWidth, Nat.mod_eq_of_lt (by omega)]
    have hq : ((lo16 edx ++ lo16 eax : BitVec 32) / d.setWidth 32).toNat = udividend16 eax edx / d.toNat := by
      rw [BitVec.toNat_udiv, hw, udividend16_eq]
    have hr : ((lo16 edx ++ lo16 eax : BitVec 32) % d.setWidth 32).toNat = udividend16 eax edx % d.toNat := by
      rw [BitVec.toNat_umod, hw, udividend16_eq]
    have hrl : udividend16 eax edx % d.toNat < d.toNat := Nat.mod_lt _ (by omega)
    have hlt : (0xFFFF#32 < (lo16 edx ++ lo16 eax : BitVec 32) / d.setWidth 32) ↔ 2 ^ 16 ≤ udividend16 eax edx / d.toNat := by
      rw [BitVec.lt_def, hq]; simp; omega
    by_cases hc : 2 ^ 16 ≤ udividend16 eax edx / d.toNat
    · rw [if_pos (hlt.mpr hc)]
      exact ⟨by simp [hc], by simp, by simp⟩
    · rw [if_neg (fun h => hc (hlt.mp h))]
      refine ⟨by simp [hc, hd], by simp, ?_⟩
      intro a c h
      injection h with h1 h2
      rw [← h1, ← h2, (put16 _ _).1, (put16 _ _).1, (put16 _ _).2, (put16 _ _).2]
      unfold lo16
      rw [BitVec.toNat_setWidth, BitVec.toNat_setWidth]
      unfold lo16 at hq hr
      rw [hq, hr]
      exact ⟨Nat.mod_eq_of_lt (by omega), Nat.mod_eq_of_lt (by omega), rfl, rfl⟩

/-- C31, DIV r/m8: quotient in AL and remainder in AH, the rest of EAX and EDX kept. -/
theorem C31_div8 (eax edx : BitVec 32) (d : BitVec 8) :
    (divb eax edx d = .de ↔ d.toNat = 0 ∨ 2 ^ 8 ≤ udividend8 eax / d.toNat) ∧ divb eax edx d ≠ .ub ∧
    ∀ a c, divb eax edx d = .ok a c →
      (al a).toNat = udividend8 eax / d.toNat ∧ (ah a).toNat = udividend8 eax % d.toNat ∧
      hi16 a = hi16 eax ∧ c = edx := by
  unfold divb
  simp only [low16]
  by_cases h0 : d = 0#8
  · subst h0; simp
  · have hd : d.toNat ≠ 0 := fun h => h0 (BitVec.eq_of_toNat_eq (by simpa using h))
    have hdl := d.isLt
    have hel := (lo16 eax).isLt
    rw [if_neg h0]
    have hw : (d.setWidth 32).toNat = d.toNat := by rw [BitVec.toNat_setWidth, Nat.mod_eq_of_lt (by omega)]
    have hwe : ((lo16 eax).setWidth 32).toNat = (lo16 eax).toNat := by rw [BitVec.toNat_setWidth, Nat.mod_eq_of_lt (by omega)]
    have hm1 : (d.setWidth 32).msb = false := by rw [BitVec.msb_eq_false_iff_two_mul_lt, hw]; omega
    have hm2 : ((lo16 eax).setWidth 32).msb = false := by rw [BitVec.msb_eq_false_iff_two_mul_lt, hwe]; omega
    have hsd : ((lo16 eax).setWidth 32).sdiv (d.setWidth 32) = (lo16 eax).setWidth 32 / d.setWidth 32 := by
      rw [BitVec.sdiv_eq, hm1, hm2]; rfl
    have hsr : ((lo16 eax).setWidth 32).srem (d.setWidth 32) = (lo16 eax).setWidth 32 % d.setWidth 32 := by
      rw [BitVec.srem_eq, hm1, hm2]
    rw [hsd, hsr]
    have hql : (lo16 eax).toNat / d.toNat ≤ (lo16 eax).toNat := Nat.div_le_self _ _
    have hrl : (lo16 eax).toNat % d.toNat < d.toNat := Nat.mod_lt _ (by omega)
    have hq : (((lo16 eax).setWidth 32 / d.setWidth 32).setWidth 16).toNat = udividend8 eax / d.toNat := by
      rw [BitVec.toNat_setWidth, BitVec.toNat_udiv, hw, hwe]; exact Nat.mod_eq_of_lt (by omega)
    have hr : (((lo16 eax).setWidth 32 % d.setWidth 32).setWidth 16).toNat = udividend8 eax % d.toNat := by
      rw [BitVec.toNat_setWidth, BitVec.toNat_umod, hw, hwe]; exact Nat.mod_eq_of_lt (by omega)
    generalize ((lo16 eax).setWidth 32 / d.setWidth 32).setWidth 16 = q at hq ⊢
    generalize ((lo16 eax).setWidth 32 % d.setWidth 32).setWidth 16 = r at hr ⊢
    have hlt : (0xFF#16 < q) ↔ 2 ^ 8 ≤ udividend8 eax / d.toNat := by
      rw [BitVec.lt_def, hq]; simp; omega
    by_cases hc : 2 ^ 8 ≤ udividend8 eax / d.toNat
    · rw [if_pos (hlt.mpr hc)]
      exact ⟨by simp [hc], by simp, by simp⟩
    · rw [if_neg (fun h => hc (hlt.mp h))]
      refine ⟨by simp [hc, hd], by simp, ?_⟩
      intro a c h
      injection h with h1 h2
      obtain ⟨p1, p2, p3⟩ := put8 eax q r
      have hr8 : udividend8 eax % d.toNat < d.toNat := hrl
      rw [← h1, ← h2, p1, p2, p3, BitVec.toNat_setWidth, BitVec.toNat_setWidth, hq, hr]
      exact ⟨Nat.mod_eq_of_lt (by omega), Nat.mod_eq_of_lt (by omega), rfl, rfl⟩

/-! ### Signed -/

theorem tmod_abs (a b : Int) (hb : b ≠ 0) : (a.tmod b).natAbs < b.natAbs := by
  rw [Int.natAbs_tmod]
  exact Nat.mod_lt _ (by omega)

theorem tdiv_abs (a b : Int) : (a.tdiv b).natAbs ≤ a.natAbs := by
  rw [Int.natAbs_tdiv]; exact Nat.div_le_self _ _

theorem intMin_toInt {w : Nat} (hw : 0 < w) (x : BitVec w) : x = BitVec.intMin w ↔ x.toInt = -2 ^ (w - 1) := by
  have e : (BitVec.intMin w).toInt = -2 ^ (w - 1) := by
    cases w with
    | zero => omega
    | succ n => exact BitVec.toInt_intMin_of_pos hw
  rw [← e, BitVec.toInt_inj]

theorem neg_one_toInt {w : Nat} (hw : 1 < w) (x : BitVec w) : x = -1#w ↔ x.toInt = -1 := by
  have e : (-1#w).toInt = -1 := by
    rw [BitVec.neg_one_eq_allOnes, BitVec.toInt_allOnes, if_pos (by omega)]
  rw [← e, BitVec.toInt_inj]

/-- C31, IDIV r/m32, except for the most negative dividend divided by -1 (see C31_idiv32_violation). -/
theorem C31_idiv32_partial (eax edx d : BitVec 32) (hne : ¬ (sdividend32 eax edx = -2 ^ 63 ∧ d.toInt = -1)) :
    (idivd eax edx d = .de ↔ d.toInt = 0 ∨ ¬ Fits 31 ((sdividend32 eax edx).tdiv d.toInt)) ∧ idivd eax edx d ≠ .ub ∧
    ∀ a c, idivd eax edx d = .ok a c →
      a.toInt = (sdividend32 eax edx).tdiv d.toInt ∧ c.toInt = (sdividend32 eax edx).tmod d.toInt := by
  unfold idivd
  simp only [cat32]
  by_cases h0 : d = 0#32
  · subst h0; simp
  · have hd : d.toInt ≠ 0 := fun h => h0 (BitVec.eq_of_toInt_eq (by simpa using h))
    rw [if_neg h0]
    have hds : (d.signExtend 64).toInt = d.toInt := BitVec.toInt_signExtend_of_le (by omega)
    have hD := sdividend32_eq eax edx
    have hcond : (edx ++ eax : BitVec 64) ≠ BitVec.intMin 64 ∨ d.signExtend 64 ≠ -1#64 := by
      by_cases h1 : (edx ++ eax : BitVec 64) = BitVec.intMin 64
      · right
        intro h2
        apply hne
        refine ⟨?_, ?_⟩
        · have := (intMin_toInt (by omega) _).mp h1; rw [hD] at this; exact this
        · have := (neg_one_toInt (by omega) _).mp h2; rw [hds] at this; exact this
      · exact Or.inl h1
    have hcd : cdiv (edx ++ eax : BitVec 64) (d.signExtend 64) =
        some ((edx ++ eax : BitVec 64).sdiv (d.signExtend 64), (edx ++ eax : BitVec 64).srem (d.signExtend 64)) := by
      unfold cdiv; rw [if_neg]; rintro ⟨h1, h2⟩; rcases hcond with h | h
      · exact h h1
      · exact h h2
    rw [hcd]
    have hq : ((edx ++ eax : BitVec 64).sdiv (d.signExtend 64)).toInt = (sdividend32 eax edx).tdiv d.toInt := by
      rw [BitVec.toInt_sdiv_of_ne_or_ne _ _ hcond, hD, hds]
    have hr : ((edx ++ eax : BitVec 64).srem (d.signExtend 64)).toInt = (sdividend32 eax edx).tmod d.toInt := by
      rw [BitVec.toInt_srem, hD, hds]
    have hrb := tmod_abs (sdividend32 eax edx) d.toInt hd
    have hdb1 := BitVec.toInt_lt (x := d)
    have hdb2 := BitVec.le_toInt d
    generalize (edx ++ eax : BitVec 64).sdiv (d.signExtend 64) = q at hq ⊢
    generalize (edx ++ eax : BitVec 64).srem (d.signExtend 64) = r at hr ⊢
    have hqs : (q.setWidth 32).toInt = ((sdividend32 eax edx).tdiv d.toInt).bmod 4294967296 := by
      rw [BitVec.toInt_setWidth, ← hq, BitVec.toInt_eq_toNat_bmod, Int.bmod_bmod_of_dvd (by decide)]
    have hrs : (r.setWidth 32).toInt = ((sdividend32 eax edx).tmod d.toInt).bmod 4294967296 := by
      rw [BitVec.toInt_setWidth, ← hr, BitVec.toInt_eq_toNat_bmod, Int.bmod_bmod_of_dvd (by decide)]
    have hfit : (q = (q.setWidth 32).signExtend 64) ↔ Fits 31 ((sdividend32 eax edx).tdiv d.toInt) := by
      rw [← BitVec.toInt_inj, BitVec.toInt_signExtend_of_le (by omega), hqs, hq]
      generalize (sdividend32 eax edx).tdiv d.toInt = z
      unfold Fits
      rw [Int.bmod_def]; omega
    by_cases hf : Fits 31 ((sdividend32 eax edx).tdiv d.toInt)
    · simp only [if_neg (show ¬ (q ≠ (q.setWidth 32).signExtend 64) from fun h => h (hfit.mpr hf))]
      refine ⟨by simp [hf, hd], by simp, ?_⟩
      intro a c h
      injection h with h1 h2
      rw [← h1, ← h2, hqs, hrs]
      unfold Fits at hf
      constructor
      · rw [Int.bmod_def]; omega
      · rw [Int.bmod_def]; omega
    · simp only [if_pos (show q ≠ (q.setWidth 32).signExtend 64 from fun h => hf (hfit.mp h))]
      exact ⟨by simp [hf], by simp, by simp⟩

/-- C31, IDIV r/m16, except for the most negative dividend divided by -1 (see C31_idiv16_violation). -/
theorem C31_idiv16_partial (eax edx : BitVec 32) (d : BitVec 16) (hne : ¬ (sdividend16 eax edx = -2 ^ 31 ∧ d.toInt = -1)) :
    (idivw eax edx d = .de ↔ d.toInt = 0 ∨ ¬ Fits 15 ((sdividend16 eax edx).tdiv d.toInt)) ∧ idivw eax edx d ≠ .ub ∧
    ∀ a c, idivw eax edx d = .ok a c →
      (lo16 a).toInt = (sdividend16 eax edx).tdiv d.toInt ∧ (lo16 c).toInt = (sdividend16 eax edx).tmod d.toInt ∧
      hi16 a = hi16 eax ∧ hi16 c = hi16 edx := by
  unfold idivw
  simp only [cat16]
  by_cases h0 : d = 0#16
  · subst h0; simp
  · have hd : d.toInt ≠ 0 := fun h => h0 (BitVec.eq_of_toInt_eq (by simpa using h))
    rw [if_neg h0]
    have hds : (d.signExtend 32).toInt = d.toInt := BitVec.toInt_signExtend_of_le (by omega)
    have hD := sdividend16_eq eax edx
    have hcond : (lo16 edx ++ lo16 eax : BitVec 32) ≠ BitVec.intMin 32 ∨ d.signExtend 32 ≠ -1#32 := by
      by_cases h1 : (lo16 edx ++ lo16 eax : BitVec 32) = BitVec.intMin 32
      · right
        intro h2
        apply hne
        refine ⟨?_, ?_⟩
        · have := (intMin_toInt (by omega) _).mp h1; rw [hD] at this; exact this
        · have := (neg_one_toInt (by omega) _).mp h2; rw [hds] at this; exact this
      · exact Or.inl h1
    have hcd : cdiv (lo16 edx ++ lo16 eax : BitVec 32) (d.signExtend 32) =
        some ((lo16 edx ++ lo16 eax : BitVec 32).sdiv (d.signExtend 32), (lo16 edx ++ lo16 eax : BitVec 32).srem (d.signExtend 32)) := by
      unfold cdiv; rw [if_neg]; rintro ⟨h1, h2⟩; rcases hcond with h | h
      · exact h h1
      · exact h h2
    rw [hcd]
    have hq : ((lo16 edx ++ lo16 eax : BitVec 32).sdiv (d.signExtend 32)).toInt = (sdividend16 eax edx).tdiv d.toInt := by
      rw [BitVec.toInt_sdiv_of_ne_or_ne _ _ hcond, hD, hds]
    have hr : ((lo16 edx ++ lo16 eax : BitVec 32).srem (d.signExtend 32)).toInt = (sdividend16 eax edx).tmod d.toInt := by
      rw [BitVec.toInt_srem, hD, hds]
    have hrb := tmod_abs (sdividend16 eax edx) d.toInt hd
    have hdb1 := BitVec.toInt_lt (x := d)
    have hdb2 := BitVec.le_toInt d
    generalize (lo16 edx ++ lo16 eax : BitVec 32).sdiv (d.signExtend 32) = q at hq ⊢
    generalize (lo16 edx ++ lo16 eax : BitVec 32).srem (d.signExtend 32) = r at hr ⊢
    have hqs : (q.setWidth 16).toInt = ((sdividend16 eax edx).tdiv d.toInt).bmod 65536 := by
      rw [BitVec.toInt_setWidth, ← hq, BitVec.toInt_eq_toNat_bmod, Int.bmod_bmod_of_dvd (by decide)]
    have hrs : (r.setWidth 16).toInt = ((sdividend16 eax edx).tmod d.toInt).bmod 65536 := by
      rw [BitVec.toInt_setWidth, ← hr, BitVec.toInt_eq_toNat_bmod, Int.bmod_bmod_of_dvd (by decide)]
    have hfit : (q = (q.setWidth 16).signExtend 32) ↔ Fits 15 ((sdividend16 eax edx).tdiv d.toInt) := by
      rw [← BitVec.toInt_inj, BitVec.toInt_signExtend_of_le (by omega), hqs, hq]
      generalize (sdividend16 eax edx).tdiv d.toInt = z
      unfold Fits
      rw [Int.bmod_def]; omega
    by_cases hf : Fits 15 ((sdividend16 eax edx).tdiv d.toInt)
    · simp only [if_neg (show ¬ (q ≠ (q.setWidth 16).signExtend 32) from fun h => h (hfit.mpr hf))]
      refine ⟨by simp [hf, hd], by simp, ?_⟩
      intro a c h
      injection h with h1 h2
      rw [← h1, ← h2, (put16 _ _).1, (put16 _ _).1, (put16 _ _).2, (put16 _ _).2]
      unfold lo16
      rw [hqs, hrs]
      unfold Fits at hf
      refine ⟨?_, ?_, rfl, rfl⟩
      · rw [Int.bmod_def]; omega
      · rw [Int.bmod_def]; omega
    · simp only [if_pos (show q ≠ (q.setWidth 16).signExtend 32 from fun h => hf (hfit.mp h))]
      exact ⟨by simp [hf], by simp, by simp⟩

/-- C31, IDIV r/m8: all operands. -/
theorem C31_idiv8 (eax edx : BitVec 32) (d : BitVec 8) :
    (idivb eax edx d = .de ↔ d.toInt = 0 ∨ ¬ Fits 7 ((sdividend8 eax).tdiv d.toInt)) ∧ idivb eax edx d ≠ .ub ∧
    ∀ a c, idivb eax edx d = .ok a c →
      (al a).toInt = (sdividend8 eax).tdiv d.toInt ∧ (ah a).toInt = (sdividend8 eax).tmod d.toInt ∧
      hi16 a = hi16 eax ∧ c = edx := by
  unfold idivb
  simp only [low16]
  by_cases h0 : d = 0#8
  · subst h0; simp
  · have hd : d.toInt ≠ 0 := fun h => h0 (BitVec.eq_of_toInt_eq (by simpa using h))
    rw [if_neg h0]
    have hds : (d.signExtend 32).toInt = d.toInt := BitVec.toInt_signExtend_of_le (by omega)
    have hes : ((lo16 eax).signExtend 32).toInt = sdividend8 eax := BitVec.toInt_signExtend_of_le (by omega)
    have heb1 := BitVec.toInt_lt (x := lo16 eax)
    have heb2 := BitVec.le_toInt (lo16 eax)
    have hcond : (lo16 eax).signExtend 32 ≠ BitVec.intMin 32 ∨ d.signExtend 32 ≠ -1#32 := by
      left
      intro h
      have := (intMin_toInt (by omega) _).mp h
      rw [hes] at this
      unfold sdividend8 at this
      omega
    have hcd : cdiv ((lo16 eax).signExtend 32) (d.signExtend 32) =
        some (((lo16 eax).signExtend 32).sdiv (d.signExtend 32), ((lo16 eax).signExtend 32).srem (d.signExtend 32)) := by
      unfold cdiv; rw [if_neg]; rintro ⟨h1, h2⟩; rcases hcond with h | h
      · exact h h1
      · exact h h2
    rw [hcd]
    have hq : (((lo16 eax).signExtend 32).sdiv (d.signExtend 32)).toInt = (sdividend8 eax).tdiv d.toInt := by
      rw [BitVec.toInt_sdiv_of_ne_or_ne _ _ hcond, hes, hds]
    have hr : (((lo16 eax).signExtend 32).srem (d.signExtend 32)).toInt = (sdividend8 eax).tmod d.toInt := by
      rw [BitVec.toInt_srem, hes, hds]
    have hrb := tmod_abs (sdividend8 eax) d.toInt hd
    have hqb := tdiv_abs (sdividend8 eax) d.toInt
    have hdb1 := BitVec.toInt_lt (x := d)
    have hdb2 := BitVec.le_toInt d
    have hea : (sdividend8 eax).natAbs ≤ 32768 := by unfold sdividend8; omega
    generalize ((lo16 eax).signExtend 32).sdiv (d.signExtend 32) = q32 at hq ⊢
    generalize ((lo16 eax).signExtend 32).srem (d.signExtend 32) = r32 at hr ⊢
    simp only
    have hq16 : (q32.setWidth 16).toInt = ((sdividend8 eax).tdiv d.toInt).bmod 65536 := by
      rw [BitVec.toInt_setWidth, ← hq, BitVec.toInt_eq_toNat_bmod, Int.bmod_bmod_of_dvd (by decide)]
    have hqs : ((q32.setWidth 16).setWidth 8).toInt = ((sdividend8 eax).tdiv d.toInt).bmod 256 := by
      rw [BitVec.toInt_setWidth, ← Int.bmod_bmod_of_dvd (a := (sdividend8 eax).tdiv d.toInt) (show 256 ∣ 65536 by decide), ← hq16,
        BitVec.toInt_eq_toNat_bmod (x := q32.setWidth 16), Int.bmod_bmod_of_dvd (by decide)]
    have hr16 : (r32.setWidth 16).toInt = ((sdividend8 eax).tmod d.toInt).bmod 65536 := by
      rw [BitVec.toInt_setWidth, ← hr, BitVec.toInt_eq_toNat_bmod, Int.bmod_bmod_of_dvd (by decide)]
    have hrs : ((r32.setWidth 16).setWidth 8).toInt = ((sdividend8 eax).tmod d.toInt).bmod 256 := by
      rw [BitVec.toInt_setWidth, ← Int.bmod_bmod_of_dvd (a := (sdividend8 eax).tmod d.toInt) (show 256 ∣ 65536 by decide), ← hr16,
        BitVec.toInt_eq_toNat_bmod (x := r32.setWidth 16), Int.bmod_bmod_of_dvd (by decide)]
    generalize q32.setWidth 16 = q at hq16 hqs ⊢
    generalize r32.setWidth 16 = r at hr16 hrs ⊢
    have hfit : (q = (q.setWidth 8).signExtend 16) ↔ Fits 7 ((sdividend8 eax).tdiv d.toInt) := by
      rw [← BitVec.toInt_inj, BitVec.toInt_signExtend_of_le (by omega), hqs, hq16]
      generalize (sdividend8 eax).tdiv d.toInt = z at hqb ⊢
      unfold Fits
      rw [Int.bmod_def, Int.bmod_def]; omega
    by_cases hf : Fits 7 ((sdividend8 eax).tdiv d.toInt)
    · simp only [if_neg (show ¬ (q ≠ (q.setWidth 8).signExtend 16) from fun h => h (hfit.mpr hf))]
      refine ⟨by simp [hf, hd], by simp, ?_⟩
      intro a c h
      injection h with h1 h2
      obtain ⟨p1, p2, p3⟩ := put8 eax q r
      rw [← h1, ← h2, p1, p2, p3, hqs, hrs]
      unfold Fits at hf
      refine ⟨?_, ?_, rfl, rfl⟩
      · rw [Int.bmod_def]; omega
      · rw [Int.bmod_def]; omega
    · simp only [if_pos (show q ≠ (q.setWidth 8).signExtend 16 from fun h => hf (hfit.mp h))]
      exact ⟨by simp [hf], by simp, by simp⟩

/-- C31, violation: IDIV of the most negative 64 bit number by -1 must raise #DE; the helper divides in
64 bit integers, which is undefined (a crash of the host on x86). -/
theorem C31_idiv32_violation :
    idivd 0#32 0x80000000#32 0xFFFFFFFF#32 = .ub ∧ ¬ Fits 31 ((sdividend32 0#32 0x80000000#32).tdiv (0xFFFFFFFF#32).toInt) := by
  refine ⟨by decide +kernel, ?_⟩
  unfold Fits sdividend32; decide

/-- C31, violation: the same for 16 bit operands. -/
theorem C31_idiv16_violation :
    idivw 0#32 0x8000#32 0xFFFF#16 = .ub ∧ ¬ Fits 15 ((sdividend16 0#32 0x8000#32).tdiv (0xFFFF#16).toInt) := by
  refine ⟨by decide +kernel, ?_⟩
  unfold Fits sdividend16; decide

-- Concrete cases: both outcomes occur.
example : divd 7#32 1#32 2#32 = .ok 0x80000003#32 1#32 := by decide +kernel
example : idivd 0xFFFFFFF9#32 0xFFFFFFFF#32 2#32 = .ok 0xFFFFFFFD#32 0xFFFFFFFF#32 := by decide +kernel
example : idivb 0xABCD8000#32 5#32 0xFF#8 = .de := by decide +kernel
example : idivb 0xABCDFFF9#32 5#32 2#8 = .ok 0xABCDFFFD#32 5#32 := by decide +kernel
example : ¬ (sdividend32 0xFFFFFFF9#32 0xFFFFFFFF#32 = -2 ^ 63 ∧ (2#32).toInt = -1) := by decide +kernel

end Verif.Div
