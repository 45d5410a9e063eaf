import Verif.Spec.Desc
import Verif.Spec.Accessed
import Verif.Lemmas.Bits
import Verif.Spec.Mode
import Verif.Lemmas.ModeRaise
/- Descriptor fields and the steps of a segment load. -/
namespace Verif.Seg
open Guest (load store)

theorem bind_ok {α β : Type} {m : M α} {f : α → M β} {s s' : Cpu} {b : β} :
    (m >>= f) s = .ok b s' ↔ ∃ a s1, m s = .ok a s1 ∧ f a s1 = .ok b s' := by
  show (match m s with | .ok a s' => f a s' | .stop e s' => .stop e s') = _ ↔ _
  cases m s with
  | ok a s1 =>
    constructor
    · intro h; exact ⟨a, s1, rfl, h⟩
    · rintro ⟨a', s1', h1, h2⟩; cases h1; exact h2
  | stop e s1 =>
    constructor
    · intro h; cases h
    · rintro ⟨a', s1', h1, h2⟩; cases h1

theorem bind_stop {α β : Type} {m : M α} {f : α → M β} {s s' : Cpu} {e : Stop} :
    (m >>= f) s = .stop e s' ↔ m s = .stop e s' ∨ ∃ a s1, m s = .ok a s1 ∧ f a s1 = .stop e s' := by
  show (match m s with | .ok a s' => f a s' | .stop e s' => .stop e s') = _ ↔ _
  cases m s with
  | ok a s1 =>
    constructor
    · intro h; exact .inr ⟨a, s1, rfl, h⟩
    · rintro (h | ⟨a', s1', h1, h2⟩)
      · cases h
      · cases h1; exact h2
  | stop e' s1 =>
    constructor
    · intro h; cases h; exact .inl rfl
    · rintro (h | ⟨a', s1', h1, h2⟩)
      · cases h; rfl
      · cases h1

theorem check_ok {c : Bool} {e : Stop} {s s' : Cpu} {u : Unit} :
    check c e s = .ok u s' ↔ c = false ∧ s' = s := by
  unfold check; cases c <;> simp [eq_comm]
theorem check_stop {c : Bool} {e e' : Stop} {s s' : Cpu} :
    check c e s = .stop e' s' ↔ c = true ∧ e' = e ∧ s' = s := by
  unfold check
  cases c with
  | false => simp
  | true =>
    simp only [if_true, Res.stop.injEq, true_and]
    constructor
    · rintro ⟨a, b⟩; exact ⟨a.symm, b.symm⟩
    · rintro ⟨a, b⟩; exact ⟨a.symm, b.symm⟩
theorem getR_ok {s s' : Cpu} {r : Regs} : getR s = .ok r s' ↔ r = s.r ∧ s' = s := by
  unfold getR
  constructor
  · intro h; cases h; exact ⟨rfl, rfl⟩
  · rintro ⟨rfl, rfl⟩; rfl
theorem modR_ok {s s' : Cpu} {f : Regs → Regs} {u : Unit} : modR f s = .ok u s' ↔ s' = { s with r := f s.r } := by
  unfold modR
  constructor
  · intro h; cases h; rfl
  · rintro rfl; rfl

theorem descBase_eq (d : BitVec 64) : descBase d = Spec.base d := by
  unfold descBase Spec.base
  apply BitVec.eq_of_getLsbD_eq; intro i hi
  have m1 : ∀ i : Fin 64, (0xFFFF0000#64 : BitVec 64).getLsbD i.val = decide (16 ≤ i.val ∧ i.val < 32) := by decide
  have m2 : ∀ i : Fin 64, (0xFF00000000#64 : BitVec 64).getLsbD i.val = decide (32 ≤ i.val ∧ i.val < 40) := by decide
  have m3 : ∀ i : Fin 64, (0xFF00000000000000#64 : BitVec 64).getLsbD i.val = decide (56 ≤ i.val) := by decide
  simp only [BitVec.getLsbD_setWidth, BitVec.getLsbD_or, BitVec.getLsbD_ushiftRight, BitVec.getLsbD_and,
    BitVec.getLsbD_append, BitVec.getLsbD_extractLsb', hi, decide_true, Bool.true_and]
  rw [m1 ⟨16 + i, by omega⟩, m2 ⟨16 + i, by omega⟩]
  have h3 := m3 ⟨32 + i, by omega⟩
  simp only at h3
  rw [h3]
  by_cases h24 : i < 24
  · have h56 : ¬ 56 ≤ 32 + i := by omega
    by_cases h16 : i < 16
    · have : ¬ (32 ≤ 16 + i) := by omega
      simp [h24, h56, this]; omega
    · have : (32 ≤ 16 + i) := by omega
      have h2 : 16 + i < 40 := by omega
      have h3 : ¬ 16 + i < 32 := by omega
      simp [h24, h56, this, h2, h3]
  · have h1 : ¬ 16 + i < 32 := by omega
    have h2 : ¬ 16 + i < 40 := by omega
    have h56 : 56 ≤ 32 + i := by omega
    have h4 : i - 24 < 8 := by omega
    have h5 : 56 + (i - 24) = 32 + i := by omega
    simp [h24, h1, h2, h56, h4, h5]

theorem descFlags_eq (d : BitVec 64) : descFlags d = Spec.rights d := by
  unfold descFlags Spec.rights
  apply BitVec.eq_of_getLsbD_eq; intro i hi
  have m1 : ∀ i : Fin 64, (0xFFFFFFFF00000000#64 : BitVec 64).getLsbD i.val = decide (32 ≤ i.val) := by decide
  simp only [BitVec.getLsbD_setWidth, BitVec.getLsbD_ushiftRight, BitVec.getLsbD_and,
    BitVec.getLsbD_extractLsb', hi, decide_true, Bool.true_and]
  rw [m1 ⟨32 + i, by omega⟩]
  simp

theorem rawLimit_eq (d : BitVec 64) :
    (((d &&& 0xFFFF#64) ||| ((d &&& 0xF000000000000#64) >>> 32)).setWidth 32 : BitVec 32) =
      (Spec.rawLimit d).setWidth 32 := by
  unfold Spec.rawLimit
  apply BitVec.eq_of_getLsbD_eq; intro i hi
  have m1 : ∀ i : Fin 64, (0xFFFF#64 : BitVec 64).getLsbD i.val = decide (i.val < 16) := by decide
  have m2 : ∀ i : Fin 64, (0xF000000000000#64 : BitVec 64).getLsbD i.val = decide (48 ≤ i.val ∧ i.val < 52) := by decide
  simp only [BitVec.getLsbD_setWidth, BitVec.getLsbD_or, BitVec.getLsbD_ushiftRight, BitVec.getLsbD_and,
    BitVec.getLsbD_append, BitVec.getLsbD_extractLsb', hi, decide_true, Bool.true_and]
  rw [m1 ⟨i, by omega⟩, m2 ⟨32 + i, by omega⟩]
  by_cases h16 : i < 16
  · have : ¬ 48 ≤ 32 + i := by omega
    simp [h16, this]
  · by_cases h20 : i < 20
    · have h1 : 48 ≤ 32 + i := by omega
      have h2 : 32 + i < 52 := by omega
      have h3 : 48 + (i - 16) = 32 + i := by omega
      have h4 : i - 16 < 4 := by omega
      simp [h16, h1, h2, h3, h4]
    · have h2 : ¬ 32 + i < 52 := by omega
      have h4 : ¬ i - 16 < 4 := by omega
      simp [h16, h2, h4]

theorem bit64 (d k : BitVec 64) (i : Nat) (hi : i < 64) (hk : k = BitVec.twoPow 64 i) :
    (d &&& k ≠ 0#64) ↔ d[i] = true := by
  subst hk
  rw [BitVec.and_twoPow, BitVec.getLsbD_eq_getElem hi]
  cases d[i]
  · simp
  · simp
    intro h
    have := congrArg (fun v : BitVec 64 => v[i]) h
    simp at this

theorem bit64b (d k : BitVec 64) (i : Nat) (hi : i < 64) (hk : k = BitVec.twoPow 64 i) :
    (d &&& k != 0#64) = d[i] := by
  have := bit64 d k i hi hk
  cases h : d[i]
  · rw [h] at this; simp at this; simp [this]
  · rw [h] at this; simp at this; simp [this]

theorem descLimit_eq (d : BitVec 64) : (descLimit d).toNat = Spec.limit d := by
  unfold descLimit Spec.limit
  rw [rawLimit_eq]
  have hl := (Spec.rawLimit d).isLt
  simp only [bit64 d 0x80000000000000#64 55 (by omega) rfl]
  split
  · have h1 : (BitVec.setWidth 32 (Spec.rawLimit d) <<< 12).toNat = (Spec.rawLimit d).toNat * 4096 := by
      rw [BitVec.toNat_shiftLeft, BitVec.toNat_setWidth, Nat.mod_eq_of_lt (by omega), Nat.shiftLeft_eq]
      omega
    rw [BitVec.toNat_or, h1]
    have := Nat.shiftLeft_add_eq_or_of_lt (b := 4095) (i := 12) (by decide) (Spec.rawLimit d).toNat
    rw [Nat.shiftLeft_eq] at this
    rw [show (0xFFF#32 : BitVec 32).toNat = 4095 from rfl]
    exact this.symm
  · rw [BitVec.toNat_setWidth, Nat.mod_eq_of_lt (by omega)]

theorem dS_eq (d : BitVec 64) : dS d = Spec.isSeg d := bit64b d _ 44 (by omega) rfl
theorem dCode_eq (d : BitVec 64) : dCode d = Spec.isCode d := bit64b d _ 43 (by omega) rfl
theorem dConf_eq (d : BitVec 64) : dConf d = Spec.conforming d := bit64b d _ 42 (by omega) rfl
theorem dRW_eq (d : BitVec 64) : dRW d = Spec.rw d := bit64b d _ 41 (by omega) rfl
theorem dP_eq (d : BitVec 64) : dP d = Spec.present d := bit64b d _ 47 (by omega) rfl

theorem dDpl_eq (d : BitVec 64) : dDpl d = (Spec.dpl d).setWidth 64 := by
  unfold dDpl Spec.dpl
  apply BitVec.eq_of_getLsbD_eq; intro i hi
  simp only [BitVec.getLsbD_setWidth, BitVec.getLsbD_ushiftRight, BitVec.getLsbD_and,
    BitVec.getLsbD_extractLsb', hi, decide_true, Bool.true_and]
  by_cases h : i < 2
  · have m1 : ∀ i : Fin 2, (0x600000000000#64 : BitVec 64).getLsbD (45 + i.val) = true := by decide
    rw [m1 ⟨i, h⟩]; simp [h]
  · have : (0x600000000000 : Nat).testBit (45 + i) = false :=
      Nat.testBit_lt_two_pow (Nat.lt_of_lt_of_le (by decide : 0x600000000000 < 2 ^ 47)
        (Nat.pow_le_pow_right (by omega) (by omega)))
    simp [h, BitVec.getLsbD_ofNat, this]

theorem low2 (w : Nat) (x : BitVec w) (hw : 2 ≤ w) :
    ((x &&& BitVec.ofNat w 3).setWidth 64 : BitVec 64) = (x.setWidth 2 : BitVec 2).setWidth 64 := by
  apply BitVec.eq_of_getLsbD_eq; intro i hi
  simp only [BitVec.getLsbD_setWidth, BitVec.getLsbD_and, hi, decide_true, Bool.true_and, BitVec.getLsbD_ofNat]
  by_cases h : i < 2
  · have m1 : ∀ i : Fin 2, (3 : Nat).testBit i.val = true := by decide
    rw [m1 ⟨i, h⟩]; simp [h, show i < w by omega]
  · have : (3 : Nat).testBit i = false :=
      Nat.testBit_lt_two_pow (Nat.lt_of_lt_of_le (by decide : 3 < 2 ^ 2) (Nat.pow_le_pow_right (by omega) (by omega)))
    simp [h, this]

theorem rpl_eq (sel : BitVec 16) : rpl sel = (Spec.rpl sel).setWidth 64 := low2 16 sel (by omega)

theorem cpl_eq (r : Regs) : cpl r = (r.hflags.setWidth 2 : BitVec 2).setWidth 64 := low2 32 r.hflags (by omega)

theorem cpl_level {r : Regs} (h : Spec.AgreeCore r) : cpl r = (Spec.level r).setWidth 64 := by
  rw [cpl_eq, h.level]

theorem lt2 (x y : BitVec 2) : (x.setWidth 64 : BitVec 64) < y.setWidth 64 ↔ x < y := by
  rw [BitVec.lt_def, BitVec.lt_def]; simp only [BitVec.toNat_setWidth]
  have := x.isLt; have := y.isLt
  rw [Nat.mod_eq_of_lt (by omega), Nat.mod_eq_of_lt (by omega)]
theorem eq2 (x y : BitVec 2) : (x.setWidth 64 : BitVec 64) = y.setWidth 64 ↔ x = y := by
  constructor
  · intro h
    have := congrArg BitVec.toNat h
    simp only [BitVec.toNat_setWidth] at this
    have hx := x.isLt; have hy := y.isLt
    rw [Nat.mod_eq_of_lt (by omega), Nat.mod_eq_of_lt (by omega)] at this
    exact BitVec.eq_of_toNat_eq this
  · intro h; rw [h]

theorem isNull_iff (sel : BitVec 16) : isNull sel = true ↔ Spec.nullSel sel := by
  unfold isNull Spec.nullSel
  rw [beq_iff_eq]
  constructor
  · intro h
    have := congrArg BitVec.toNat h
    rw [BitVec.toNat_ushiftRight, Nat.shiftRight_eq_div_pow] at this
    have e : (0#16 : BitVec 16).toNat = 0 := rfl
    omega
  · intro h
    apply BitVec.eq_of_toNat_eq
    rw [BitVec.toNat_ushiftRight, Nat.shiftRight_eq_div_pow]
    have e : (0#16 : BitVec 16).toNat = 0 := rfl
    omega

theorem selErr_eq (sel : BitVec 16) : selErr sel = Spec.errOf sel := by
  unfold selErr Spec.errOf
  apply BitVec.eq_of_toNat_eq
  rw [BitVec.toNat_ofNat, BitVec.toNat_and]
  have h := sel.isLt
  have e : (0xFFFC#16 : BitVec 16).toNat = 2 ^ 16 - 4 := rfl
  rw [e]
  have : sel.toNat &&& (2 ^ 16 - 4) = sel.toNat / 4 * 4 := by
    apply Nat.eq_of_testBit_eq; intro i
    rw [Nat.testBit_and]
    have hm : sel.toNat / 4 * 4 = 2 ^ 2 * (sel.toNat / 2 ^ 2) + 0 := by omega
    rw [hm, Nat.testBit_two_pow_mul_add _ (by omega)]
    by_cases h2 : i < 2
    · have : ∀ i : Fin 2, (2 ^ 16 - 4 : Nat).testBit i.val = false := by decide
      rw [this ⟨i, h2⟩]; simp [h2]
    · by_cases h16 : i < 16
      · have : ∀ i : Fin 16, ¬ i.val < 2 → (2 ^ 16 - 4 : Nat).testBit i.val = true := by decide
        rw [this ⟨i, h16⟩ h2, if_neg h2, Nat.testBit_div_two_pow, Bool.and_true]
        congr 1; omega
      · rw [if_neg h2, Nat.testBit_div_two_pow,
          Nat.testBit_lt_two_pow (Nat.lt_of_lt_of_le h (Nat.pow_le_pow_right (by omega) (by omega)))]
        rw [Nat.testBit_lt_two_pow (Nat.lt_of_lt_of_le h (Nat.pow_le_pow_right (by omega) (by omega)))]
        simp
  rw [this, Nat.mod_eq_of_lt (by omega)]

theorem idx_eq (sel : BitVec 16) :
    ((sel >>> 3).setWidth 32 : BitVec 32) * 8#32 = BitVec.ofNat 32 (sel.toNat / 8 * 8) := by
  apply BitVec.eq_of_toNat_eq
  have h := sel.isLt
  rw [BitVec.toNat_mul, BitVec.toNat_setWidth, BitVec.toNat_ushiftRight, Nat.shiftRight_eq_div_pow, BitVec.toNat_ofNat, BitVec.toNat_ofNat]
  omega

theorem ti_eq (sel : BitVec 16) : (sel &&& 4#16 != 0#16) = sel[2] := by
  have : (4#16 : BitVec 16) = BitVec.twoPow 16 2 := rfl
  rw [this, BitVec.and_twoPow, BitVec.getLsbD_eq_getElem (by omega)]
  cases sel[2] <;> decide

/-- The test of read_seg_desc_helper, helpers.cpp 127. -/
def outside (r : Regs) (sel : BitVec 16) : Prop :=
  Spec.tableBase r sel + Spec.tableLimit r sel < Spec.descAddr r sel + 7#32

instance (r : Regs) (sel : BitVec 16) : Decidable (outside r sel) := inferInstanceAs (Decidable (_ < _))

theorem readTail (acc : Acc) (c : Bool) (e : Stop) (a : BitVec 32) (s : Cpu) :
    ((do check c e; let v ← rd acc a 8 2; pure (a, BitVec.ofNat 64 v)) : M (BitVec 32 × BitVec 64)) s =
      if c = true then .stop e s else if acc s a 8 false 2 = true then .ok (a, BitVec.ofNat 64 (load s.mem a 8)) s
      else .stop .fault s := by
  cases c with
  | true => rfl
  | false =>
    simp only [bind, check, rd, pure, Bool.false_eq_true, if_false]
    cases acc s a 8 false 2 <;> rfl

theorem readDesc_eq (acc : Acc) (sel : BitVec 16) (s : Cpu) :
    readDesc acc false sel s =
      if outside s.r sel then .stop (.exc 13 (Spec.errOf sel)) s
      else if acc s (Spec.descAddr s.r sel) 8 false 2 then .ok (Spec.descAddr s.r sel, Spec.descAt s sel) s
      else .stop .fault s := by
  have ha : (if sel[2] = true then s.r.ldtr.base else s.r.gdtBase) + ((sel >>> 3).setWidth 32) * 8#32 = Spec.descAddr s.r sel := by
    unfold Spec.descAddr Spec.tableBase; rw [idx_eq]
  have e : readDesc acc false sel s = (if (decide ((if (sel &&& 4#16 != 0#16) = true then s.r.ldtr.base else s.r.gdtBase) +
      (if (sel &&& 4#16 != 0#16) = true then s.r.ldtr.limit else s.r.gdtLimit) <
      (if (sel &&& 4#16 != 0#16) = true then s.r.ldtr.base else s.r.gdtBase) + ((sel >>> 3).setWidth 32) * 8#32 + 7#32)) = true then
      .stop (.exc GP (selErr sel)) s
    else
      if acc s ((if (sel &&& 4#16 != 0#16) = true then s.r.ldtr.base else s.r.gdtBase) + ((sel >>> 3).setWidth 32) * 8#32) 8 false 2 = true then
        .ok ((if (sel &&& 4#16 != 0#16) = true then s.r.ldtr.base else s.r.gdtBase) + ((sel >>> 3).setWidth 32) * 8#32,
          BitVec.ofNat 64 (load s.mem ((if (sel &&& 4#16 != 0#16) = true then s.r.ldtr.base else s.r.gdtBase) + ((sel >>> 3).setWidth 32) * 8#32) 8)) s
      else .stop .fault s) := by
    exact readTail ..
  rw [e]
  simp only [ti_eq, ha, selErr_eq]
  simp only [decide_eq_true_eq]
  rfl

theorem outside_iff (r : Regs) (sel : BitVec 16) (hf : Spec.TableFits r sel) :
    outside r sel ↔ ¬ Spec.InTable r sel := by
  obtain ⟨h1, h2⟩ := hf
  have hs := sel.isLt
  unfold outside Spec.InTable Spec.descAddr
  rw [BitVec.lt_def]
  simp only [BitVec.toNat_add, BitVec.toNat_ofNat]
  rw [Nat.mod_eq_of_lt h2, Nat.mod_eq_of_lt (a := sel.toNat / 8 * 8) (by omega)]
  rw [Nat.mod_eq_of_lt (a := _ + sel.toNat / 8 * 8) (by omega)]
  rw [Nat.mod_eq_of_lt (a := 7) (by omega), Nat.mod_eq_of_lt (by omega)]
  omega

end Verif.Seg

namespace Verif.Seg
open Guest (load store)

theorem bitShift (d k c : BitVec 64) (i : Nat) (hi : i < 64) (n : Nat) (hk : k = BitVec.twoPow 64 i)
    (hc : BitVec.twoPow 64 i >>> n = c) : (d &&& k) >>> n = if d[i] then c else 0#64 := by
  subst hk
  rw [BitVec.and_twoPow, BitVec.getLsbD_eq_getElem hi]
  cases d[i]
  · simp
  · simp [hc]

theorem dplShift (d : BitVec 64) : (d &&& 0x600000000000#64) >>> 42 = ((Spec.dpl d).setWidth 64 : BitVec 64) <<< 3 := by
  rw [← dDpl_eq]
  unfold dDpl
  apply BitVec.eq_of_getLsbD_eq; intro i hi
  simp only [BitVec.getLsbD_shiftLeft, BitVec.getLsbD_ushiftRight, BitVec.getLsbD_and, hi, decide_true, Bool.true_and]
  by_cases h : i < 3
  · have m1 : ∀ i : Fin 3, (0x600000000000#64 : BitVec 64).getLsbD (42 + i.val) = false := by decide
    rw [m1 ⟨i, h⟩]; simp [h]
  · have : 45 + (i - 3) = 42 + i := by omega
    simp [h, this]

theorem ssTable : ∀ (a b c : Bool) (x y l : BitVec 2),
    ((((if a then 1#64 else 0#64) ||| (if b then 2#64 else 0#64) ||| (if c then 4#64 else 0#64) |||
      ((x.setWidth 64 : BitVec 64) <<< 3) ||| ((y.setWidth 64 : BitVec 64) <<< 5)) ^^^
      (5#64 ||| ((l.setWidth 64 : BitVec 64) <<< 3) ||| ((l.setWidth 64 : BitVec 64) <<< 5))) != 0#64) =
    !(a && !b && c && x == l && y == l) := by decide +kernel

theorem ssWord (d : BitVec 64) (sel : BitVec 16) (l : BitVec 2) :
    (((((d &&& 0x100000000000#64) >>> 44) ||| ((d &&& 0x80000000000#64) >>> 42) |||
    ((d &&& 0x20000000000#64) >>> 39) ||| ((d &&& 0x600000000000#64) >>> 42) ||| (rpl sel <<< 5)) ^^^
      (5#64 ||| ((l.setWidth 64 : BitVec 64) <<< 3) ||| ((l.setWidth 64 : BitVec 64) <<< 5))) != 0#64) = false ↔
    Spec.StackSeg sel d l := by
  rw [bitShift d 0x100000000000#64 1#64 44 (by omega) 44 rfl rfl, bitShift d 0x80000000000#64 2#64 43 (by omega) 42 rfl rfl,
    bitShift d 0x20000000000#64 4#64 41 (by omega) 39 rfl rfl, dplShift, rpl_eq, ssTable]
  unfold Spec.StackSeg Spec.isSeg Spec.isCode Spec.rw
  cases d[44] <;> cases d[43] <;> cases d[41] <;> simp


/-! One step of a helper at a time. -/

theorem bind_check {β : Type} (c : Bool) (e : Stop) (f : Unit → M β) (s : Cpu) :
    (check c e >>= f) s = if c = true then .stop e s else f () s := by
  simp only [bind, check]; cases c <;> rfl
theorem bind_getR {β : Type} (f : Regs → M β) (s : Cpu) : (getR >>= f) s = f s.r s := rfl
theorem bind_modR {β : Type} (g : Regs → Regs) (f : Unit → M β) (s : Cpu) :
    (modR g >>= f) s = f () { s with r := g s.r } := rfl
theorem bind_pure {α β : Type} (a : α) (f : α → M β) (s : Cpu) : ((pure a : M α) >>= f) s = f a s := rfl
theorem bind_of_ok {α β : Type} {m : M α} {f : α → M β} {s s' : Cpu} {a : α} (h : m s = .ok a s') :
    (m >>= f) s = f a s' := by
  show (match m s with | .ok a s' => f a s' | .stop e s' => .stop e s') = _
  rw [h]
theorem bind_of_stop {α β : Type} {m : M α} {f : α → M β} {s s' : Cpu} {e : Stop} (h : m s = .stop e s') :
    (m >>= f) s = .stop e s' := by
  show (match m s with | .ok a s' => f a s' | .stop e s' => .stop e s') = _
  rw [h]
theorem bind_readDesc {β : Type} (acc : Acc) (sel : BitVec 16) (f : BitVec 32 × BitVec 64 → M β) (s : Cpu) :
    (readDesc acc false sel >>= f) s =
      if outside s.r sel then .stop (.exc 13 (Spec.errOf sel)) s
      else if acc s (Spec.descAddr s.r sel) 8 false 2 = true then f (Spec.descAddr s.r sel, Spec.descAt s sel) s
      else .stop .fault s := by
  have h := readDesc_eq acc sel s
  by_cases h1 : outside s.r sel
  · rw [if_pos h1] at h ⊢; exact bind_of_stop h
  · rw [if_neg h1] at h ⊢
    by_cases h2 : acc s (Spec.descAddr s.r sel) 8 false 2 = true
    · rw [if_pos h2] at h ⊢; exact bind_of_ok h
    · rw [if_neg h2] at h ⊢; exact bind_of_stop h

instance (sel : BitVec 16) (d : BitVec 64) (l : BitVec 2) : Decidable (Spec.StackSeg sel d l) := by
  unfold Spec.StackSeg; infer_instance
instance (sel : BitVec 16) : Decidable (Spec.nullSel sel) := by unfold Spec.nullSel; infer_instance

theorem if_bool {α : Type} (b : Bool) (p : Prop) [Decidable p] (x y : α) (h : b = false ↔ p) :
    (if b = true then x else y) = if p then y else x := by
  cases b
  · rw [if_neg (by simp), if_pos (h.1 rfl)]
  · rw [if_pos rfl, if_neg (fun hp => by have := h.2 hp; cases this)]

theorem if_bool' {α : Type} (b : Bool) (p : Prop) [Decidable p] (x y : α) (h : b = true ↔ p) :
    (if b = true then x else y) = if p then x else y := by
  cases b
  · rw [if_neg (by simp), if_neg (fun hp => by have := h.2 hp; cases this)]
  · rw [if_pos rfl, if_pos (h.1 rfl)]

theorem not_eq_false' {b : Bool} : (!b) = false ↔ b = true := by cases b <;> simp

/-- checkSs after the descriptor was read. -/
def ssTail (sel : BitVec 16) (c : Option (BitVec 64)) (a : BitVec 32) (d : BitVec 64) : M (BitVec 32 × BitVec 64) := do
  let r ← getR
  let lvl := c.getD (cpl r)
  let v := ((d &&& 0x100000000000#64) >>> 44) ||| ((d &&& 0x80000000000#64) >>> 42) |||
    ((d &&& 0x20000000000#64) >>> 39) ||| ((d &&& 0x600000000000#64) >>> 42) ||| (rpl sel <<< 5)
  check (v ^^^ (5#64 ||| (lvl <<< 3) ||| (lvl <<< 5)) != 0#64) (.exc GP (selErr sel))
  check (!dP d) (.exc SSx (selErr sel))
  pure (a, d)

theorem ssTail_eq (sel : BitVec 16) (l : BitVec 2) (s : Cpu) (c : Option (BitVec 64)) (a : BitVec 32) (d : BitVec 64)
    (hl : c.getD (cpl s.r) = l.setWidth 64) :
    ssTail sel c a d s =
        if Spec.StackSeg sel d l then
          if Spec.present d = true then .ok (a, d) s
          else .stop (.exc 12 (Spec.errOf sel)) s
        else .stop (.exc 13 (Spec.errOf sel)) s := by
  unfold ssTail
  rw [bind_getR, bind_check, bind_check, hl, selErr_eq, if_bool _ _ _ _ (ssWord _ _ _), if_bool _ _ _ _ not_eq_false', dP_eq]
  rfl

theorem checkSs_tail (acc : Acc) (sel : BitVec 16) (c : Option (BitVec 64)) :
    checkSs acc sel c = (check (isNull sel) (.exc GP 0#16) >>= fun _ => readDesc acc false sel >>= fun p => ssTail sel c p.1 p.2) := rfl

theorem checkSs_eq (acc : Acc) (sel : BitVec 16) (l : BitVec 2) (s : Cpu) {d : BitVec 64} (hd : Spec.descAt s sel = d) (c : Option (BitVec 64))
    (hl : c.getD (cpl s.r) = l.setWidth 64) :
    checkSs acc sel c s =
      if Spec.nullSel sel then .stop (.exc 13 0#16) s
      else if outside s.r sel then .stop (.exc 13 (Spec.errOf sel)) s
      else if acc s (Spec.descAddr s.r sel) 8 false 2 = true then
        if Spec.StackSeg sel (d) l then
          if Spec.present (d) = true then .ok (Spec.descAddr s.r sel, d) s
          else .stop (.exc 12 (Spec.errOf sel)) s
        else .stop (.exc 13 (Spec.errOf sel)) s
      else .stop .fault s := by
  rw [checkSs_tail, bind_check, bind_readDesc, hd]
  simp only [ssTail_eq _ _ _ _ _ _ hl]
  rw [if_bool' _ _ _ _ (isNull_iff sel)]

theorem dcRd : ∀ a b : Bool, (((if a then 1#64 else 0#64) ||| (if b then 2#64 else 0#64)) == 1#64) = (a && !b) := by
  decide

/-- The test check_seg_desc_priv_helper makes on the privilege levels. -/
def Spec.weakPriv (sel : BitVec 16) (d : BitVec 64) (l : BitVec 2) : Prop :=
  (Spec.isCode d = true ∧ Spec.conforming d = true) ∨ Spec.rpl sel ≤ Spec.dpl d ∨ l ≤ Spec.dpl d

theorem le2 (x y : BitVec 2) : x ≤ y ↔ ¬ y < x := by
  rw [BitVec.le_def, BitVec.lt_def]; omega

theorem privTable (sel : BitVec 16) (d : BitVec 64) (l : BitVec 2) :
    (((((d &&& 0x80000000000#64) >>> 43 == 0#64) || !dConf d) && (decide (dDpl d < rpl sel) && decide (dDpl d < l.setWidth 64))) = false) ↔
    Spec.weakPriv sel d l := by
  rw [bitShift d 0x80000000000#64 1#64 43 (by omega) 43 rfl rfl, dConf_eq, dDpl_eq, rpl_eq]
  simp only [lt2]
  unfold Spec.weakPriv Spec.isCode
  simp only [le2]
  cases d[43] <;> cases Spec.conforming d <;> simp
  all_goals
    constructor
    · intro h
      by_cases h' : Spec.dpl d < Spec.rpl sel
      · exact .inr (BitVec.not_lt.1 (BitVec.not_lt.2 (h h')))
      · exact .inl (BitVec.not_lt.1 h')
    · rintro (h | h) h'
      · exact absurd h' (BitVec.not_lt.2 h)
      · exact h


instance (sel : BitVec 16) (d : BitVec 64) (l : BitVec 2) : Decidable (Spec.weakPriv sel d l) := by
  unfold Spec.weakPriv; infer_instance

/-- checkSeg after the descriptor was read. -/
def segTail (sel : BitVec 16) (a : BitVec 32) (d : BitVec 64) : M (BitVec 32 × BitVec 64) := do
  let r ← getR
  check (!dS d) (.exc GP (selErr sel))
  let dc := (d &&& 0x80000000000#64) >>> 43
  let rd' := (d &&& 0x20000000000#64) >>> 40
  check (dc ||| rd' == 1#64) (.exc GP (selErr sel))
  check ((dc == 0#64 || !dConf d) && (decide (dDpl d < rpl sel) && decide (dDpl d < cpl r)))
    (.exc GP (selErr sel))
  check (!dP d) (.exc NP (selErr sel))
  pure (a, d)

theorem segTail_eq (sel : BitVec 16) (l : BitVec 2) (s : Cpu) (a : BitVec 32) (d : BitVec 64)
    (hl : cpl s.r = l.setWidth 64) :
    segTail sel a d s =
        if Spec.isSeg d = true then
          if Spec.isCode d = true ∧ Spec.rw d = false then
            .stop (.exc 13 (Spec.errOf sel)) s
          else if Spec.weakPriv sel d l then
            if Spec.present d = true then .ok (a, d) s
            else .stop (.exc 11 (Spec.errOf sel)) s
          else .stop (.exc 13 (Spec.errOf sel)) s
        else .stop (.exc 13 (Spec.errOf sel)) s := by
  unfold segTail
  rw [bind_getR, bind_check, bind_check, bind_check, bind_check, hl, selErr_eq]
  have hp := privTable sel d l
  rw [bitShift _ 0x80000000000#64 1#64 43 (by omega) 43 rfl rfl] at hp ⊢
  rw [bitShift _ 0x20000000000#64 2#64 41 (by omega) 40 rfl rfl, dcRd]
  have hc : (d[43] && !d[41]) = true ↔ (Spec.isCode d = true ∧ Spec.rw d = false) := by
    unfold Spec.isCode Spec.rw; simp
  rw [if_bool _ _ _ _ not_eq_false', if_bool' _ _ _ _ hc, if_bool _ _ _ _ hp, if_bool _ _ _ _ not_eq_false']
  rw [dP_eq, dS_eq]; rfl

theorem checkSeg_tail (acc : Acc) (sel : BitVec 16) :
    checkSeg acc sel = (readDesc acc false sel >>= fun p => segTail sel p.1 p.2) := rfl

theorem checkSeg_eq (acc : Acc) (sel : BitVec 16) (l : BitVec 2) (s : Cpu) {d : BitVec 64} (hd : Spec.descAt s sel = d)
    (hl : cpl s.r = l.setWidth 64) :
    checkSeg acc sel s =
      if outside s.r sel then .stop (.exc 13 (Spec.errOf sel)) s
      else if acc s (Spec.descAddr s.r sel) 8 false 2 = true then
        if Spec.isSeg (d) = true then
          if Spec.isCode (d) = true ∧ Spec.rw (d) = false then
            .stop (.exc 13 (Spec.errOf sel)) s
          else if Spec.weakPriv sel (d) l then
            if Spec.present (d) = true then .ok (Spec.descAddr s.r sel, d) s
            else .stop (.exc 11 (Spec.errOf sel)) s
          else .stop (.exc 13 (Spec.errOf sel)) s
        else .stop (.exc 13 (Spec.errOf sel)) s
      else .stop .fault s := by
  rw [checkSeg_tail, bind_readDesc, hd]
  simp only [segTail_eq _ _ _ _ _ hl]

theorem setAccessed_ok {acc : Acc} {d : BitVec 64} {a : BitVec 32} {s s' : Cpu} {u : Unit}
    (h : setAccessed acc d a s = .ok u s') : s'.r = s.r ∧
    (s'.mem = s.mem ∨ s'.mem = store s.mem a 8 (d ||| 0x10000000000#64).toNat) := by
  unfold setAccessed at h
  split at h
  · unfold wr at h
    split at h
    · cases h; exact ⟨rfl, .inr rfl⟩
    · cases h
  · cases h; exact ⟨rfl, .inl rfl⟩

theorem setAccessed_mem {acc : Acc} {d : BitVec 64} {a : BitVec 32} {s s' : Cpu} {u : Unit}
    (h : setAccessed acc d a s = .ok u s') : s'.mem = Spec.mark s.mem a d := by
  have key : (((d &&& 0x100000000000#64) >>> 44) ||| ((d &&& 0x10000000000#64) >>> 39) = 1#64) ↔
      (Spec.isSeg d = true ∧ Spec.accessed d = false) := by
    unfold Spec.isSeg Spec.accessed
    constructor
    · intro h
      have b0 := congrArg (fun x : BitVec 64 => x.getLsbD 0) h
      have b1 := congrArg (fun x : BitVec 64 => x.getLsbD 1) h
      simp [BitVec.getLsbD_eq_getElem] at b0 b1
      exact ⟨b0, b1⟩
    · rintro ⟨h1, h2⟩
      bits64
      · exact h1
      · exact h2
  unfold setAccessed at h
  unfold Spec.mark
  split at h
  · rename_i hc
    rw [if_pos (key.1 hc)]
    unfold wr at h
    split at h
    · cases h; rfl
    · cases h
  · rename_i hc
    rw [if_neg (fun hx => hc (key.2 hx))]
    cases h; rfl

theorem setAccessed_stop {acc : Acc} {d : BitVec 64} {a : BitVec 32} {s s' : Cpu} {e : Stop}
    (h : setAccessed acc d a s = .stop e s') : s' = s ∧ e = .fault := by
  unfold setAccessed at h
  split at h
  · unfold wr at h
    split at h
    · cases h
    · cases h; exact ⟨rfl, rfl⟩
  · cases h

end Verif.Seg
