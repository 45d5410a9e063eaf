import Verif.Model.Shift
import Verif.Spec.Shift
import Verif.Props.Flags
/-
C59: shifts and rotates.
-/
namespace Verif.Flags
open Spec

/-! The host loops in closed form. -/

theorem hostShl_val {n : Nat} (k : Nat) (x : BitVec n) (c : Bool) : (hostShl k x c).1 = x <<< k := by
  induction k generalizing x c with
  | zero => simp [hostShl]
  | succ k ih => rw [hostShl, ih, ← BitVec.shiftLeft_add, Nat.add_comm]

theorem hostShl_cf {n : Nat} (k : Nat) (x : BitVec n) (c : Bool) (hk : 0 < k) (hn : k ≤ n) :
    (hostShl k x c).2 = x.getLsbD (n - k) := by
  induction k generalizing x c with
  | zero => omega
  | succ k ih =>
    rw [hostShl]
    cases k with
    | zero => simp [hostShl, BitVec.msb_eq_getLsbD_last]
    | succ k =>
      rw [ih _ _ (by omega) (by omega), BitVec.getLsbD_shiftLeft]
      have h1 : ¬ (n - (k + 1) < 1) := by omega
      have h2 : n - (k + 1) < n := by omega
      have h3 : n - (k + 1) - 1 = n - (k + 1 + 1) := by omega
      simp only [h1, h2, h3, decide_true, decide_false, Bool.true_and, Bool.not_false]

theorem hostShr_val {n : Nat} (k : Nat) (x : BitVec n) (c : Bool) : (hostShr k x c).1 = x >>> k := by
  induction k generalizing x c with
  | zero => simp [hostShr]
  | succ k ih => rw [hostShr, ih, ← BitVec.shiftRight_add, Nat.add_comm]

theorem hostShr_cf {n : Nat} (k : Nat) (x : BitVec n) (c : Bool) (hk : 0 < k) :
    (hostShr k x c).2 = x.getLsbD (k - 1) := by
  induction k generalizing x c with
  | zero => omega
  | succ k ih =>
    rw [hostShr]
    cases k with
    | zero => simp [hostShr]
    | succ k =>
      rw [ih _ _ (by omega), BitVec.getLsbD_ushiftRight]
      congr 1; omega

theorem sshiftRight_one_add {n : Nat} (x : BitVec n) (k : Nat) :
    (x.sshiftRight 1).sshiftRight k = x.sshiftRight (k + 1) := by
  rw [Nat.add_comm k 1, BitVec.sshiftRight_add]

theorem hostSar_val {n : Nat} (k : Nat) (x : BitVec n) (c : Bool) :
    (hostSar k x c).1 = x.sshiftRight k := by
  induction k generalizing x c with
  | zero => simp [hostSar]
  | succ k ih => rw [hostSar, ih, sshiftRight_one_add]

theorem hostSar_cf {n : Nat} (k : Nat) (x : BitVec n) (c : Bool) (hk : 0 < k) :
    (hostSar k x c).2 = (x.sshiftRight (k - 1)).getLsbD 0 := by
  induction k generalizing x c with
  | zero => omega
  | succ k ih =>
    rw [hostSar]
    cases k with
    | zero => simp [hostSar]
    | succ k => rw [ih _ _ (by omega), sshiftRight_one_add]; rfl

theorem ofBool_bit {n : Nat} (b : Bool) (i : Nat) (hn : 0 < n) :
    ((BitVec.ofBool b).setWidth n).getLsbD i = (decide (i = 0) && b) := by
  rw [BitVec.getLsbD_setWidth, BitVec.getLsbD_ofBool]
  by_cases h : i = 0 <;> simp [h, hn]

theorem rol1_bit {n : Nat} (x : BitVec n) (i : Nat) (hi : i < n) :
    ((x <<< 1) ||| (BitVec.ofBool x.msb).setWidth n).getLsbD ((i + 1) % n) = x.getLsbD i := by
  rw [BitVec.getLsbD_or, ofBool_bit _ _ (by omega), BitVec.getLsbD_shiftLeft]
  by_cases h : i + 1 = n
  · subst h; simp [BitVec.msb_eq_getLsbD_last]
  · rw [Nat.mod_eq_of_lt (by omega)]
    have h2 : i + 1 < n := by omega
    simp [h2]

theorem hostRol_bit {n : Nat} (k : Nat) (x : BitVec n) : RotL x k (hostRol k x) := by
  induction k generalizing x with
  | zero => intro i hi; simp [hostRol, Nat.mod_eq_of_lt hi]
  | succ k ih =>
    intro i hi
    have := ih ((x <<< 1) ||| (BitVec.ofBool x.msb).setWidth n) ((i + 1) % n) (Nat.mod_lt _ (by omega))
    rw [rol1_bit x i hi, Nat.mod_add_mod] at this
    rw [hostRol, ← this]
    congr 2; omega

theorem ror1_bit {n : Nat} (x : BitVec n) (i : Nat) (hi : i < n) :
    ((x >>> 1) ||| (BitVec.ofBool (x.getLsbD 0)).setWidth n <<< (n - 1)).getLsbD i =
      x.getLsbD ((i + 1) % n) := by
  rw [BitVec.getLsbD_or, BitVec.getLsbD_shiftLeft, ofBool_bit _ _ (by omega), BitVec.getLsbD_ushiftRight]
  by_cases h : i + 1 = n
  · subst h; simp [Nat.add_comm 1 i]
  · rw [Nat.mod_eq_of_lt (by omega)]
    have h2 : i < n - 1 := by omega
    simp [h2, Nat.add_comm]

theorem hostRor_bit {n : Nat} (k : Nat) (x : BitVec n) : RotR x k (hostRor k x) := by
  induction k generalizing x with
  | zero => intro i hi; simp [hostRor, Nat.mod_eq_of_lt hi]
  | succ k ih =>
    intro i hi
    rw [hostRor, ih _ i hi, ror1_bit x _ (Nat.mod_lt _ (by omega)), Nat.mod_add_mod]
    congr 2

theorem cons_bit {n : Nat} (c : Bool) (x : BitVec n) (i : Nat) (_ : i ≤ n) :
    (BitVec.cons c x).getLsbD i = if i = n then c else x.getLsbD i := by
  rw [BitVec.getLsbD_cons]

theorem rcl1_bit {n : Nat} (x : BitVec n) (hn : 0 < n) (c : Bool) :
    RotL (BitVec.cons c x) 1
      (BitVec.cons x.msb ((x <<< 1) ||| (BitVec.ofBool c).setWidth n)) := by
  intro i hi
  rw [cons_bit _ _ i (by omega)]
  by_cases h : i = n
  · subst h
    rw [Nat.mod_self, cons_bit _ _ 0 (by omega)]
    simp [hn, Nat.ne_of_lt hn]
  · rw [Nat.mod_eq_of_lt (by omega), cons_bit _ _ _ (by omega), if_neg h]
    by_cases h2 : i + 1 = n
    · rw [if_pos h2, BitVec.msb_eq_getLsbD_last]; congr 1; omega
    · rw [if_neg h2, BitVec.getLsbD_or, ofBool_bit _ _ hn, BitVec.getLsbD_shiftLeft]
      have h3 : i + 1 < n := by omega
      simp [h3]

theorem rotL_trans {m : Nat} {x y z : BitVec m} {a b : Nat} (h1 : RotL x a y) (h2 : RotL y b z) :
    RotL x (a + b) z := by
  intro i hi
  rw [← h1 i hi, ← h2 _ (Nat.mod_lt _ (by omega)), Nat.mod_add_mod, Nat.add_assoc]

theorem hostRcl_bit {n : Nat} (k : Nat) (x : BitVec n) (hn : 0 < n) (c : Bool) :
    RotL (BitVec.cons c x) k (BitVec.cons (hostRcl k x c).2 (hostRcl k x c).1) := by
  induction k generalizing x c with
  | zero => intro i hi; simp [hostRcl, Nat.mod_eq_of_lt hi]
  | succ k ih =>
    rw [hostRcl, Nat.add_comm k 1]
    exact rotL_trans (rcl1_bit x hn c) (ih _ _)

theorem rcr1_bit {n : Nat} (x : BitVec n) (hn : 0 < n) (c : Bool) :
    RotR (BitVec.cons c x) 1
      (BitVec.cons (x.getLsbD 0) ((x >>> 1) ||| (BitVec.ofBool c).setWidth n <<< (n - 1))) := by
  intro i hi
  rw [cons_bit _ _ i (by omega)]
  by_cases h : i = n
  · subst h
    rw [Nat.mod_self, cons_bit _ _ 0 (by omega), if_pos rfl, if_neg (by omega)]
  · rw [Nat.mod_eq_of_lt (by omega), cons_bit _ _ _ (by omega), if_neg h, BitVec.getLsbD_or,
      BitVec.getLsbD_shiftLeft, ofBool_bit _ _ hn, BitVec.getLsbD_ushiftRight]
    by_cases h2 : i + 1 = n
    · subst h2; simp [Nat.add_comm 1 i]
    · have h3 : i < n - 1 := by omega
      simp [h2, h3, Nat.add_comm]

theorem rotR_trans {m : Nat} {x y z : BitVec m} {a b : Nat} (h1 : RotR x a y) (h2 : RotR y b z) :
    RotR x (a + b) z := by
  intro i hi
  rw [h2 i hi, h1 _ (Nat.mod_lt _ (by omega)), Nat.mod_add_mod]
  congr 2; omega

theorem hostRcr_bit {n : Nat} (k : Nat) (x : BitVec n) (hn : 0 < n) (c : Bool) :
    RotR (BitVec.cons c x) k (BitVec.cons (hostRcr k x c).2 (hostRcr k x c).1) := by
  induction k generalizing x c with
  | zero => intro i hi; simp [hostRcr, Nat.mod_eq_of_lt hi]
  | succ k ih =>
    rw [hostRcr, Nat.add_comm k 1]
    exact rotR_trans (rcr1_bit x hn c) (ih _ _)

theorem rotL_mod {m : Nat} {x r : BitVec m} {k : Nat} (h : RotL x (k % m) r) : RotL x k r := by
  intro i hi
  rw [← h i hi]; congr 1; rw [Nat.add_mod_mod]

theorem rotR_mod {m : Nat} {x r : BitVec m} {k : Nat} (h : RotR x (k % m) r) : RotR x k r := by
  intro i hi
  rw [h i hi]; congr 1; rw [Nat.add_mod_mod]

/-! The flag words. -/

theorem shiftAux_bits (cf of : Bool) :
    (shiftAux cf of).getLsbD 31 = cf ∧ (shiftAux cf of).getLsbD 30 = (of ^^ cf) ∧
    (∀ i, i < 30 → (shiftAux cf of).getLsbD i = false) := by
  cases cf <;> cases of <;>
    exact ⟨by decide, by decide, fun i hi => by
      unfold shiftAux; rw [BitVec.getLsbD_shiftLeft]; simp [hi]⟩

theorem flags_shift {n : Nat} (hn : Width n) {s : St} (h : Clean s) (r : BitVec n) (cf of : Bool) :
    flags (setFlags s r (shiftAux cf of)) =
      { cf := cf, pf := parityEven r, af := false, zf := decide (r = 0#n), sf := r.msb, of := of } := by
  have hc : Clean (setFlags s r (shiftAux cf of)) := h
  obtain ⟨h31, h30, hlow⟩ := shiftAux_bits cf of
  have hp : parIdx (setFlags s r (shiftAux cf of)) = r.setWidth 8 := by
    unfold parIdx setFlags
    have hz : ((shiftAux cf of) >>> 8).setWidth 8 = 0#8 := by
      apply BitVec.eq_of_getLsbD_eq
      intro i hi
      rw [BitVec.getLsbD_setWidth, BitVec.getLsbD_ushiftRight, hlow _ (by omega)]
      simp
    rw [BitVec.setWidth_xor, hz, sext_low hn, BitVec.xor_zero]
  rw [flags_eq hc, hp]
  have e31 : (setFlags s r (shiftAux cf of)).aux.getLsbD 31 = cf := h31
  have e30 : (setFlags s r (shiftAux cf of)).aux.getLsbD 30 = (of ^^ cf) := h30
  have e3 : (setFlags s r (shiftAux cf of)).aux.getLsbD 3 = false := hlow 3 (by omega)
  have e0 : (setFlags s r (shiftAux cf of)).aux.getLsbD 0 = false := hlow 0 (by omega)
  have ez : ((setFlags s r (shiftAux cf of)).res = 0#32) ↔ r = 0#n := sext_zero hn r
  have es : (setFlags s r (shiftAux cf of)).res.getLsbD 31 = r.msb := sext_31 hn r
  simp only [e31, e30, e3, e0, ez, es, parityEven_low, Bool.xor_false]
  cases cf <;> cases of <;> rfl

theorem flags_rot {s : St} (h : Clean s) (cf of : Bool) :
    flags { s with aux := (s.aux &&& 0x3FFFFFFF#32) ||| shiftAux cf of } =
      { flags s with cf := cf, of := of } := by
  have hc : Clean { s with aux := (s.aux &&& 0x3FFFFFFF#32) ||| shiftAux cf of } := h
  obtain ⟨h31, h30, hlow⟩ := shiftAux_bits cf of
  have hm : ∀ i, i < 30 → ((s.aux &&& 0x3FFFFFFF#32) ||| shiftAux cf of).getLsbD i = s.aux.getLsbD i := by
    intro i hi
    rw [BitVec.getLsbD_or, hlow i hi, BitVec.getLsbD_and, Bool.or_false]
    have : (0x3FFFFFFF#32).getLsbD i = true := by
      rw [BitVec.getLsbD_ofNat]
      have : (0x3FFFFFFF : Nat) = 2 ^ 30 - 1 := by decide
      rw [this, Nat.testBit_two_pow_sub_one]; simp [hi]; omega
    rw [this, Bool.and_true]
  have hp : parIdx { s with aux := (s.aux &&& 0x3FFFFFFF#32) ||| shiftAux cf of } = parIdx s := by
    unfold parIdx
    apply BitVec.eq_of_getLsbD_eq
    intro i hi
    rw [BitVec.getLsbD_setWidth, BitVec.getLsbD_setWidth, BitVec.getLsbD_xor, BitVec.getLsbD_xor,
      BitVec.getLsbD_ushiftRight, BitVec.getLsbD_ushiftRight, hm _ (by omega)]
  rw [flags_eq hc, flags_eq h, hp]
  have e31 : ((s.aux &&& 0x3FFFFFFF#32) ||| shiftAux cf of).getLsbD 31 = cf := by
    rw [BitVec.getLsbD_or, h31, BitVec.getLsbD_and]; simp
  have e30 : ((s.aux &&& 0x3FFFFFFF#32) ||| shiftAux cf of).getLsbD 30 = (of ^^ cf) := by
    rw [BitVec.getLsbD_or, h30, BitVec.getLsbD_and]; simp
  simp only [e31, e30, hm 3 (by omega), hm 0 (by omega)]
  cases cf <;> cases of <;> rfl

/-! The property. -/

/-- The flags every shift leaves: the given carry, SF, ZF and PF of the result; OF as given. -/
def ShiftFlags {n : Nat} (f : Spec.Flags) (r : BitVec n) : Prop :=
  f.zf = decide (r = 0#n) ∧ f.sf = r.msb ∧ f.pf = parityEven r

theorem shCount_lt (c : BitVec 8) : shCount c < 32 := by
  unfold shCount
  rw [BitVec.toNat_and]
  exact Nat.lt_of_le_of_lt Nat.and_le_right (by decide)

theorem shCount_eq (c : BitVec 8) : shCount c = c.toNat % 32 := by
  unfold shCount
  rw [BitVec.toNat_and]
  exact Nat.and_two_pow_sub_one_eq_mod _ 5

/-- C59: only the low five bits of the count matter, and a count of zero modulo 32 changes neither
the destination nor any flag. -/
theorem C59_zero_count {n : Nat} (s : St) (x y : BitVec n) (count : BitVec 8) (u : Undef n)
    (h : count.toNat % 32 = 0) (op : ShOp) (rop : RotOp) (left : Bool) :
    shiftOp op s x count u = (x, s) ∧ rotateOp rop s x count u = (x, s) ∧
    dshiftOp left s x y count u = (x, s) := by
  have : shCount count = 0 := by rw [shCount_eq]; exact h
  exact ⟨if_pos this, if_pos this, if_pos this⟩

theorem shiftOp_eq {n : Nat} (op : ShOp) (s : St) (x : BitVec n) (count : BitVec 8) (u : Undef n)
    (h : count.toNat % 32 ≠ 0) :
    shiftOp op s x count u = ((hostShift op x (count.toNat % 32) u).1,
      setFlags s (hostShift op x (count.toNat % 32) u).1
        (shiftAux (hostShift op x (count.toNat % 32) u).2.1 (hostShift op x (count.toNat % 32) u).2.2)) := by
  unfold shiftOp
  rw [shCount_eq]
  exact if_neg h

/-- C59, SHL: multiplication by 2^k; CF is the last bit shifted out (defined for counts below the
operand size), OF for a count of one is the change of sign. -/
theorem C59_shl {n : Nat} (hn : Width n) (s : St) (h : Clean s) (x : BitVec n) (count : BitVec 8)
    (u : Undef n) (hk : count.toNat % 32 ≠ 0) :
    let k := count.toNat % 32
    let t := shiftOp .shl s x count u
    Shl x k t.1 ∧ ShiftFlags (flags t.2) t.1 ∧ (k < n → (flags t.2).cf = x.getLsbD (n - k)) ∧
    (k = 1 → (flags t.2).of = (x.msb != t.1.msb)) ∧ t.2.eflags = s.eflags := by
  intro k t
  have e : t = _ := shiftOp_eq .shl s x count u hk
  have hpos : 0 < k := Nat.pos_of_ne_zero hk
  rw [e]
  simp only [flags_shift hn h]
  have hv : (hostShift .shl x (count.toNat % 32) u).1 = x <<< k := hostShl_val _ _ _
  refine ⟨?_, ⟨rfl, rfl, rfl⟩, fun hlt => ?_, fun h1 => ?_, rfl⟩
  · unfold Shl; rw [hv, BitVec.toNat_shiftLeft, Nat.shiftLeft_eq]
  · show (if k < n then _ else _) = _
    rw [if_pos hlt]
    exact hostShl_cf k x false hpos (by omega)
  · show (if k = 1 then _ else _) = _
    rw [if_pos h1]
    have hc : (hostShl k x false).2 = x.msb := by
      rw [hostShl_cf k x false hpos (by rcases hn with h | h | h <;> omega), h1,
        BitVec.msb_eq_getLsbD_last]
    rw [show (hostShl (count.toNat % 32) x false).2 = x.msb from hc,
      show (hostShift .shl x (count.toNat % 32) u).1 = (hostShl k x false).1 from rfl]
    cases (hostShl k x false).1.msb <;> cases x.msb <;> rfl

/-- C59, SHR: unsigned division by 2^k. -/
theorem C59_shr {n : Nat} (hn : Width n) (s : St) (h : Clean s) (x : BitVec n) (count : BitVec 8)
    (u : Undef n) (hk : count.toNat % 32 ≠ 0) :
    let k := count.toNat % 32
    let t := shiftOp .shr s x count u
    Shr x k t.1 ∧ ShiftFlags (flags t.2) t.1 ∧ (k < n → (flags t.2).cf = x.getLsbD (k - 1)) ∧
    (k = 1 → (flags t.2).of = (x.msb != t.1.msb)) ∧ t.2.eflags = s.eflags := by
  intro k t
  have e : t = _ := shiftOp_eq .shr s x count u hk
  have hpos : 0 < k := Nat.pos_of_ne_zero hk
  rw [e]
  simp only [flags_shift hn h]
  have hv : (hostShift .shr x (count.toNat % 32) u).1 = x >>> k := hostShr_val _ _ _
  refine ⟨?_, ⟨rfl, rfl, rfl⟩, fun hlt => ?_, fun h1 => ?_, rfl⟩
  · unfold Shr; rw [hv, BitVec.toNat_ushiftRight, Nat.shiftRight_eq_div_pow]
  · show (if k < n then _ else _) = _
    rw [if_pos hlt]
    exact hostShr_cf k x false hpos
  · show (if k = 1 then _ else _) = _
    rw [if_pos h1, hv, h1]
    have : (x >>> 1).msb = false := by
      rw [BitVec.msb_eq_getLsbD_last, BitVec.getLsbD_ushiftRight]
      exact BitVec.getLsbD_of_ge _ _ (by rcases hn with h | h | h <;> omega)
    rw [this]; cases x.msb <;> rfl

/-- C59, SAR: signed division by 2^k, rounding down. -/
theorem C59_sar {n : Nat} (hn : Width n) (s : St) (h : Clean s) (x : BitVec n) (count : BitVec 8)
    (u : Undef n) (hk : count.toNat % 32 ≠ 0) :
    let k := count.toNat % 32
    let t := shiftOp .sar s x count u
    Sar x k t.1 ∧ ShiftFlags (flags t.2) t.1 ∧
    (flags t.2).cf = decide (x.toInt / 2 ^ (k - 1) % 2 = 1) ∧
    (k = 1 → (flags t.2).of = false) ∧ t.2.eflags = s.eflags := by
  intro k t
  have e : t = _ := shiftOp_eq .sar s x count u hk
  have hpos : 0 < k := Nat.pos_of_ne_zero hk
  rw [e]
  simp only [flags_shift hn h]
  have hv : (hostShift .sar x (count.toNat % 32) u).1 = x.sshiftRight k := hostSar_val _ _ _
  have hdiv : ∀ j, (x.sshiftRight j).toInt = x.toInt / 2 ^ j := by
    intro j
    rw [BitVec.toInt_sshiftRight, Int.shiftRight_eq_div_pow]; push_cast; rfl
  refine ⟨?_, ⟨rfl, rfl, rfl⟩, ?_, fun h1 => ?_, rfl⟩
  · unfold Sar; rw [hv, hdiv]
  · show (hostSar k x false).2 = _
    rw [hostSar_cf k x false hpos, ← hdiv]
    generalize x.sshiftRight (k - 1) = y
    have hp : (2 : Int) ^ n % 2 = 0 := by rcases hn with h | h | h <;> subst h <;> decide
    rw [BitVec.toInt_eq_toNat_cond]
    have hb : y.getLsbD 0 = decide (y.toNat % 2 = 1) := by
      rw [← BitVec.testBit_toNat, Nat.testBit_zero]
    rw [hb, decide_eq_decide]
    have hpn : ((2 ^ n : Nat) : Int) = (2 : Int) ^ n := by push_cast; rfl
    split <;> omega
  · show (if k = 1 then _ else _) = _
    rw [if_pos h1]

/-- C59, rotates in general: RCL and RCR rotate the carry and the operand as one number of n + 1
bits, ROL and ROR rotate the operand; only CF and OF change. -/
theorem rotateOp_eq {n : Nat} (op : RotOp) (s : St) (h : Clean s) (x : BitVec n) (count : BitVec 8)
    (u : Undef n) (hk : count.toNat % 32 ≠ 0) :
    (rotateOp op s x count u).1 = (hostRotate op x (flags s).cf (count.toNat % 32) u).1 ∧
    flags (rotateOp op s x count u).2 =
      { flags s with
        cf := (hostRotate op x (flags s).cf (count.toNat % 32) u).2.1
        of := (hostRotate op x (flags s).cf (count.toNat % 32) u).2.2 } ∧
    (rotateOp op s x count u).2.eflags = s.eflags := by
  have hcf : (ldCf s != 0#32) = (flags s).cf := by
    rw [ldCf_bits, flags_eq h]
    cases s.aux.getLsbD 31 <;> rfl
  have e : rotateOp op s x count u = ((hostRotate op x (flags s).cf (count.toNat % 32) u).1,
      St.mk s.eflags s.res ((s.aux &&& 0x3FFFFFFF#32) |||
        shiftAux (hostRotate op x (flags s).cf (count.toNat % 32) u).2.1
          (hostRotate op x (flags s).cf (count.toNat % 32) u).2.2)) := by
    unfold rotateOp
    rw [shCount_eq, hcf]
    exact if_neg hk
  rw [e]
  exact ⟨rfl, flags_rot h _ _, rfl⟩

/-- C59, RCL. -/
theorem C59_rcl {n : Nat} (hn : Width n) (s : St) (h : Clean s) (x : BitVec n) (count : BitVec 8)
    (u : Undef n) (hk : count.toNat % 32 ≠ 0) :
    let k := count.toNat % 32
    let t := rotateOp .rcl s x count u
    RotL (BitVec.cons (flags s).cf x) k (BitVec.cons (flags t.2).cf t.1) ∧
    (∃ o, flags t.2 = { flags s with cf := (flags t.2).cf, of := o } ∧
      (k = 1 → o = (t.1.msb ^^ (flags t.2).cf))) ∧ t.2.eflags = s.eflags := by
  intro k t
  obtain ⟨e1, e2, e3⟩ := rotateOp_eq .rcl s h x count u hk
  rw [show t.1 = _ from e1, show flags t.2 = _ from e2]
  refine ⟨rotL_mod ?_, ⟨_, rfl, fun h1 => ?_⟩, e3⟩
  · exact hostRcl_bit (k % (n + 1)) x (by rcases hn with h | h | h <;> omega) _
  · show (if k = 1 then _ else _) = _
    rw [if_pos h1]; rfl

/-- C59, RCR. -/
theorem C59_rcr {n : Nat} (hn : Width n) (s : St) (h : Clean s) (x : BitVec n) (count : BitVec 8)
    (u : Undef n) (hk : count.toNat % 32 ≠ 0) :
    let k := count.toNat % 32
    let t := rotateOp .rcr s x count u
    RotR (BitVec.cons (flags s).cf x) k (BitVec.cons (flags t.2).cf t.1) ∧
    (∃ o, flags t.2 = { flags s with cf := (flags t.2).cf, of := o } ∧
      (k = 1 → o = (x.msb ^^ (flags s).cf))) ∧ t.2.eflags = s.eflags := by
  intro k t
  obtain ⟨e1, e2, e3⟩ := rotateOp_eq .rcr s h x count u hk
  rw [show t.1 = _ from e1, show flags t.2 = _ from e2]
  refine ⟨rotR_mod ?_, ⟨_, rfl, fun h1 => ?_⟩, e3⟩
  · exact hostRcr_bit (k % (n + 1)) x (by rcases hn with h | h | h <;> omega) _
  · show (if k = 1 then _ else _) = _
    rw [if_pos h1]

/-- C59, ROL. -/
theorem C59_rol {n : Nat} (s : St) (h : Clean s) (x : BitVec n) (count : BitVec 8)
    (u : Undef n) (hk : count.toNat % 32 ≠ 0) :
    let k := count.toNat % 32
    let t := rotateOp .rol s x count u
    RotL x k t.1 ∧
    (∃ o, flags t.2 = { flags s with cf := t.1.getLsbD 0, of := o } ∧
      (k = 1 → o = (t.1.msb ^^ t.1.getLsbD 0))) ∧ t.2.eflags = s.eflags := by
  intro k t
  obtain ⟨e1, e2, e3⟩ := rotateOp_eq .rol s h x count u hk
  rw [show t.1 = _ from e1, show flags t.2 = _ from e2]
  refine ⟨rotL_mod (hostRol_bit (k % n) x), ⟨_, rfl, fun h1 => ?_⟩, e3⟩
  show (if k = 1 then _ else _) = _
  rw [if_pos h1]; rfl

/-- C59, ROR. -/
theorem C59_ror {n : Nat} (s : St) (h : Clean s) (x : BitVec n) (count : BitVec 8)
    (u : Undef n) (hk : count.toNat % 32 ≠ 0) :
    let k := count.toNat % 32
    let t := rotateOp .ror s x count u
    RotR x k t.1 ∧
    (∃ o, flags t.2 = { flags s with cf := t.1.msb, of := o } ∧
      (k = 1 → o = (t.1.msb ^^ t.1.getLsbD (n - 2)))) ∧ t.2.eflags = s.eflags := by
  intro k t
  obtain ⟨e1, e2, e3⟩ := rotateOp_eq .ror s h x count u hk
  rw [show t.1 = _ from e1, show flags t.2 = _ from e2]
  refine ⟨rotR_mod (hostRor_bit (k % n) x), ⟨_, rfl, fun h1 => ?_⟩, e3⟩
  show (if k = 1 then _ else _) = _
  rw [if_pos h1]; rfl

/-- Rotating by `k` and back is the identity (so ROL and ROR of the same count undo each other). -/
theorem C59_rol_ror {n : Nat} (s s' : St) (h : Clean s) (h' : Clean s') (x : BitVec n)
    (count : BitVec 8) (u u' : Undef n) (hk : count.toNat % 32 ≠ 0) :
    (rotateOp .ror s' (rotateOp .rol s x count u).1 count u').1 = x := by
  have h1 := (C59_rol s h x count u hk).1
  have h2 := (C59_ror s' h' (rotateOp .rol s x count u).1 count u' hk).1
  apply BitVec.eq_of_getLsbD_eq
  intro i hi
  rw [h2 i hi]; exact h1 i hi

/-- C59, SHLD and SHRD: the halves of the concatenation; for counts up to the operand size. -/
theorem C59_double {n : Nat} (hn : Width n) (s : St) (h : Clean s) (dst src : BitVec n) (count : BitVec 8)
    (u : Undef n) (hk : count.toNat % 32 ≠ 0) (hle : count.toNat % 32 ≤ n) (left : Bool) :
    let k := count.toNat % 32
    let t := dshiftOp left s dst src count u
    (if left then Shld dst src k t.1 else Shrd dst src k t.1) ∧ ShiftFlags (flags t.2) t.1 ∧
    (flags t.2).cf = dst.getLsbD (if left then n - k else k - 1) ∧
    (k = 1 → (flags t.2).of = (dst.msb != t.1.msb)) ∧ t.2.eflags = s.eflags := by
  intro k t
  have hpos : 0 < k := Nat.pos_of_ne_zero hk
  have hnlt : ¬ n < k := by omega
  cases left with
  | true =>
    have e : t = ((hostShld dst src k u).1, setFlags s (hostShld dst src k u).1
        (shiftAux (hostShld dst src k u).2.1 (hostShld dst src k u).2.2)) := by
      show dshiftOp true s dst src count u = _
      unfold dshiftOp
      rw [shCount_eq]
      exact if_neg hk
    have eh : hostShld dst src k u = _ := if_neg hnlt
    rw [e]
    simp only [flags_shift hn h]
    refine ⟨?_, ⟨rfl, rfl, rfl⟩, ?_, fun h1 => ?_, rfl⟩
    · intro i hi
      rw [eh]
      show (dst <<< k ||| src >>> (n - k)).getLsbD i = _
      rw [BitVec.getLsbD_or, BitVec.getLsbD_shiftLeft, BitVec.getLsbD_ushiftRight]
      unfold catBit
      by_cases hik : i < k
      · rw [if_pos (by omega)]
        have : n - k + i = n + i - k := by omega
        simp [hik, this]
      · rw [if_neg (by omega)]
        have h2 : n + i - k - n = i - k := by omega
        have h3 : src.getLsbD (n - k + i) = false := BitVec.getLsbD_of_ge _ _ (by omega)
        rw [h2, h3]; simp [hik, hi]
    · rw [eh]; rfl
    · rw [eh]
      show (if k = 1 then _ else _) = _
      rw [if_pos h1]
      show _ = (dst.msb != (dst <<< k ||| src >>> (n - k)).msb)
      cases (dst <<< k ||| src >>> (n - k)).msb <;> cases dst.msb <;> rfl
  | false =>
    have e : t = ((hostShrd dst src k u).1, setFlags s (hostShrd dst src k u).1
        (shiftAux (hostShrd dst src k u).2.1 (hostShrd dst src k u).2.2)) := by
      show dshiftOp false s dst src count u = _
      unfold dshiftOp
      rw [shCount_eq]
      exact if_neg hk
    have eh : hostShrd dst src k u = _ := if_neg hnlt
    rw [e]
    simp only [flags_shift hn h]
    refine ⟨?_, ⟨rfl, rfl, rfl⟩, ?_, fun h1 => ?_, rfl⟩
    · intro i hi
      rw [eh]
      show (dst >>> k ||| src <<< (n - k)).getLsbD i = _
      rw [BitVec.getLsbD_or, BitVec.getLsbD_shiftLeft, BitVec.getLsbD_ushiftRight]
      unfold catBit
      by_cases hik : i + k < n
      · rw [if_pos hik]
        have h2 : i < n - k := by omega
        simp [h2, Nat.add_comm]
      · rw [if_neg hik]
        have h2 : ¬ i < n - k := by omega
        have h3 : dst.getLsbD (k + i) = false := BitVec.getLsbD_of_ge _ _ (by omega)
        have h4 : i - (n - k) = i + k - n := by omega
        rw [h3, h4]; simp [h2, hi]
    · rw [eh]; rfl
    · rw [eh]
      show (if k = 1 then _ else _) = _
      rw [if_pos h1]
      show _ = (dst.msb != (dst >>> k ||| src <<< (n - k)).msb)
      cases (dst >>> k ||| src <<< (n - k)).msb <;> cases dst.msb <;> rfl

-- Non-trivial cases.
def u0 : Undef 8 := ⟨true, true, 0xAA#8⟩
def sEx : St := ⟨2#32, 0x100#32, 0x80000000#32⟩
example : Clean sEx := by unfold Clean; decide
example : (shiftOp .shl sEx 0x81#8 33#8 u0).1 = 2#8 ∧ (flags (shiftOp .shl sEx 0x81#8 33#8 u0).2).cf = true := by
  decide +kernel
example : (rotateOp .rcl sEx 0x40#8 2#8 u0).1 = 0x02#8 ∧ (flags (rotateOp .rcl sEx 0x40#8 2#8 u0).2).cf = true := by
  decide +kernel
example : (shiftOp .sar sEx 0x81#8 3#8 u0).1 = 0xF0#8 := by decide +kernel

end Verif.Flags
