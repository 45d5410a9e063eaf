import Verif.Model.Flags
import Verif.Spec.Flags
import Verif.Lemmas.Bits
/-
Lemmas about the lazy flag words.
-/
namespace Verif.Flags
open Spec

/-- The bits of EFLAGS that hold arithmetic flags are zero in the stored word. -/
def Clean (s : St) : Prop := s.eflags &&& 0x8D5#32 = 0#32

/-- The flags a reader of EFLAGS sees. -/
def flags (s : St) : Spec.Flags := ofEflags (readEflags s)

theorem clean_bit {s : St} (h : Clean s) (i : Nat) (hi : i = 0 ∨ i = 2 ∨ i = 4 ∨ i = 6 ∨ i = 7 ∨ i = 11) :
    s.eflags.getLsbD i = false := by
  have := congrArg (fun v : BitVec 32 => v.getLsbD i) h
  rcases hi with h | h | h | h | h | h <;> subst h <;> simpa using this

theorem clean_iff {s : St} : Clean s ↔ (s.eflags.getLsbD 0 = false ∧ s.eflags.getLsbD 2 = false ∧
    s.eflags.getLsbD 4 = false ∧ s.eflags.getLsbD 6 = false ∧ s.eflags.getLsbD 7 = false ∧
    s.eflags.getLsbD 11 = false) := by
  constructor
  · intro h
    exact ⟨clean_bit h 0 (by simp), clean_bit h 2 (by simp), clean_bit h 4 (by simp),
      clean_bit h 6 (by simp), clean_bit h 7 (by simp), clean_bit h 11 (by simp)⟩
  · rintro ⟨h0, h2, h4, h6, h7, h11⟩
    unfold Clean
    bits32 <;> simp_all

/-- Odd parity of a byte. -/
def oddByte (i : BitVec 8) : Bool :=
  i.getLsbD 0 ^^ i.getLsbD 1 ^^ i.getLsbD 2 ^^ i.getLsbD 3 ^^
  i.getLsbD 4 ^^ i.getLsbD 5 ^^ i.getLsbD 6 ^^ i.getLsbD 7

theorem parity_all : ∀ i : BitVec 8, parity i = if oddByte i then 1#32 else 0#32 := by
  decide +kernel

theorem parityEven_all : ∀ i : BitVec 8, parityEven i = !oddByte i := by
  decide +kernel

theorem parityEven_low {n : Nat} (r : BitVec n) : parityEven r = !oddByte (r.setWidth 8) := by
  rw [← parityEven_all]
  unfold parityEven
  congr 2
  refine congrArg List.length (List.filter_congr ?_)
  intro i hi
  have := List.mem_range.mp hi
  simp [this]

theorem parity_bit0 (i : BitVec 8) : (parity i).getLsbD 0 = oddByte i := by
  rw [parity_all]; cases oddByte i <;> simp

theorem parity_bitn (i : BitVec 8) (j : Nat) (hj : 0 < j) : (parity i).getLsbD j = false := by
  rw [parity_all]; cases oddByte i <;> simp <;> omega

/-- What a reader of EFLAGS sees, flag by flag. -/
theorem flags_eq {s : St} (h : Clean s) : flags s =
    { cf := s.aux.getLsbD 31, pf := !oddByte (parIdx s), af := s.aux.getLsbD 3,
      zf := decide (s.res = 0#32), sf := s.res.getLsbD 31 ^^ s.aux.getLsbD 0,
      of := s.aux.getLsbD 31 ^^ s.aux.getLsbD 30 } := by
  obtain ⟨h0, h2, h4, h6, h7, h11⟩ := clean_iff.mp h
  unfold flags ofEflags readEflags arithFlags
  rw [parity_all]
  simp at h0 h2 h4 h6 h7 h11
  cases oddByte (parIdx s) <;> by_cases hr : s.res = 0#32 <;>
    simp [hr, h0, h2, h4, h6, h7, h11, Bool.xor_comm]

/-! ### Carry vectors -/

/-- Bit `i` of the carry vector is the carry out of bit `i`. -/
theorem sumVec_carry {n : Nat} (a b : BitVec n) (c : Bool) (i : Nat) (hi : i < n) :
    (sumVec a b (a + b + (BitVec.ofBool c).setWidth n)).getLsbD i = BitVec.carry (i + 1) a b c := by
  have hs : (a + b + (BitVec.ofBool c).setWidth n).getLsbD i =
      (a.getLsbD i ^^ (b.getLsbD i ^^ BitVec.carry i a b c)) := by
    rw [← BitVec.getLsbD_add_add_bool hi]
  rw [BitVec.carry_succ]
  unfold sumVec
  simp only [BitVec.getLsbD_or, BitVec.getLsbD_and, BitVec.getLsbD_not, hi, decide_true,
    Bool.true_and, hs, Bool.atLeastTwo]
  cases a.getLsbD i <;> cases b.getLsbD i <;> cases BitVec.carry i a b c <;> rfl

/-- The borrow vector of `a - b = s` is the carry vector of `s + b = a`. -/
theorem subVec_eq {n : Nat} (a b s : BitVec n) : subVec a b s = sumVec s b a := by
  apply BitVec.eq_of_getLsbD_eq
  intro i hi
  unfold subVec sumVec
  simp only [BitVec.getLsbD_or, BitVec.getLsbD_and, BitVec.getLsbD_not, BitVec.getLsbD_xor, hi,
    decide_true, Bool.true_and]
  cases a.getLsbD i <;> cases b.getLsbD i <;> cases s.getLsbD i <;> rfl

/-- The three operand sizes. -/
def Width (n : Nat) : Prop := n = 8 ∨ n = 16 ∨ n = 32

theorem placeAux_31 {n : Nat} (hn : Width n) (v : BitVec n) :
    (placeAux v).getLsbD 31 = v.getLsbD (n - 1) := by
  rcases hn with h | h | h <;> subst h <;> simp [placeAux]
theorem placeAux_30 {n : Nat} (hn : Width n) (v : BitVec n) :
    (placeAux v).getLsbD 30 = v.getLsbD (n - 2) := by
  rcases hn with h | h | h <;> subst h <;> simp [placeAux]
theorem placeAux_3 {n : Nat} (hn : Width n) (v : BitVec n) :
    (placeAux v).getLsbD 3 = v.getLsbD 3 := by
  rcases hn with h | h | h <;> subst h <;> simp [placeAux]
theorem placeAux_0 {n : Nat} (v : BitVec n) : (placeAux v).getLsbD 0 = false := by
  unfold placeAux; split <;> simp
theorem placeAux_par {n : Nat} (v : BitVec n) : ((placeAux v) >>> 8).setWidth 8 = 0#8 := by
  unfold placeAux; split <;> bits8

theorem sext_low {n : Nat} (hn : Width n) (r : BitVec n) :
    (r.signExtend 32).setWidth 8 = r.setWidth 8 := by
  rcases hn with h | h | h <;> subst h <;> bits8 <;> simp [BitVec.getElem_signExtend]

theorem sext_31 {n : Nat} (hn : Width n) (r : BitVec n) : (r.signExtend 32).getLsbD 31 = r.msb := by
  rcases hn with h | h | h <;> subst h <;>
    simp [BitVec.getElem_signExtend, BitVec.msb_eq_getLsbD_last]

theorem sext_zero {n : Nat} (hn : Width n) (r : BitVec n) : (r.signExtend 32 = 0#32) ↔ r = 0#n := by
  constructor
  · intro h
    apply BitVec.eq_of_getLsbD_eq
    intro i hi
    have := congrArg (fun v : BitVec 32 => v.getLsbD i) h
    have h32 : i < 32 := by rcases hn with h | h | h <;> omega
    simp only [BitVec.getLsbD_signExtend, hi, h32, decide_true, Bool.true_and, if_true] at this
    simpa using this
  · rintro rfl
    rcases hn with h | h | h <;> subst h <;> rfl

/-- Flags of a state whose words were set from a result and a carry vector. -/
theorem flags_place {n : Nat} (hn : Width n) {s : St} (h : Clean s) (r v : BitVec n) :
    flags { s with res := r.signExtend 32, aux := placeAux v } =
    { cf := v.getLsbD (n - 1), pf := parityEven r, af := v.getLsbD 3, zf := decide (r = 0#n),
      sf := r.msb, of := v.getLsbD (n - 1) ^^ v.getLsbD (n - 2) } := by
  rw [flags_eq (s := { s with res := r.signExtend 32, aux := placeAux v }) h]
  have hp : parIdx { s with res := r.signExtend 32, aux := placeAux v } = r.setWidth 8 := by
    unfold parIdx
    rw [BitVec.setWidth_xor, placeAux_par, sext_low hn]
    simp
  simp only [placeAux_31 hn, placeAux_30 hn, placeAux_3 hn, placeAux_0, sext_31 hn, sext_zero hn,
    hp, parityEven_low, Bool.xor_false]

theorem overflow_carry {n : Nat} (hn : Width n) (a b : BitVec n) (c : Bool) :
    (BitVec.carry n a b c ^^ BitVec.carry (n - 1) a b c) =
    decide (¬ (- 2 ^ (n - 1) ≤ a.toInt + b.toInt + c.toNat ∧
               a.toInt + b.toInt + c.toNat < 2 ^ (n - 1))) := by
  unfold BitVec.carry
  rw [BitVec.toInt_eq_toNat_cond, BitVec.toInt_eq_toNat_cond]
  have ha := a.isLt
  have hb := b.isLt
  have hc : c.toNat ≤ 1 := by cases c <;> simp
  generalize c.toNat = k at *
  generalize a.toNat = x at *
  generalize b.toNat = y at *
  rw [Bool.eq_iff_iff]
  rcases hn with h | h | h <;> subst h <;>
    simp only [bne_iff_ne, ne_eq, decide_eq_decide, decide_eq_true_eq] <;> omega

/-- Flags after an addition with carry in. -/
theorem flags_sum {n : Nat} (hn : Width n) {s : St} (h : Clean s) (a b : BitVec n) (c : Bool) :
    flags (setFlagsSum s a b (a + b + (BitVec.ofBool c).setWidth n)) = addFlags a b c := by
  unfold setFlagsSum
  rw [flags_place hn h]
  have h1 : n - 1 + 1 = n := by rcases hn with h | h | h <;> omega
  have h2 : n - 2 + 1 = n - 1 := by rcases hn with h | h | h <;> omega
  have e1 := sumVec_carry a b c (n - 1) (by omega)
  have e2 := sumVec_carry a b c (n - 2) (by omega)
  have e3 := sumVec_carry a b c 3 (by rcases hn with h | h | h <;> omega)
  rw [h1] at e1
  rw [h2] at e2
  rw [e1, e2, e3, overflow_carry hn]
  unfold addFlags
  simp only [BitVec.carry, Spec.Flags.mk.injEq, and_true]
  rw [Nat.mod_eq_of_lt a.isLt, Nat.mod_eq_of_lt b.isLt]

/-- Flags after a subtraction with borrow in. -/
theorem flags_sub {n : Nat} (hn : Width n) {s : St} (h : Clean s) (a b : BitVec n) (c : Bool) :
    flags (setFlagsSub s a b (a - b - (BitVec.ofBool c).setWidth n)) = subFlags a b c := by
  unfold setFlagsSub
  rw [flags_place hn h, subVec_eq]
  have h1 : n - 1 + 1 = n := by rcases hn with h | h | h <;> omega
  have h2 : n - 2 + 1 = n - 1 := by rcases hn with h | h | h <;> omega
  generalize hs : a - b - (BitVec.ofBool c).setWidth n = r
  have ha : a = r + b + (BitVec.ofBool c).setWidth n := by grind
  have e1 := sumVec_carry r b c (n - 1) (by omega)
  have e2 := sumVec_carry r b c (n - 2) (by omega)
  have e3 := sumVec_carry r b c 3 (by rcases hn with h | h | h <;> omega)
  rw [h1, ← ha] at e1
  rw [h2, ← ha] at e2
  rw [← ha] at e3
  rw [e1, e2, e3]
  unfold subFlags
  rw [hs]
  have hk : ((BitVec.ofBool c).setWidth n).toNat = c.toNat := by
    rcases hn with h | h | h <;> subst h <;> cases c <;> rfl
  have hN : a.toNat = (r.toNat + b.toNat + c.toNat) % 2 ^ n := by
    conv => lhs; rw [ha]
    rw [BitVec.toNat_add, BitVec.toNat_add, hk, Nat.mod_add_mod]
  have hr := r.isLt
  have hb := b.isLt
  have hal := a.isLt
  have hc : c.toNat ≤ 1 := by cases c <;> simp
  simp only [BitVec.carry, Spec.Flags.mk.injEq, true_and]
  rw [BitVec.toInt_eq_toNat_cond, BitVec.toInt_eq_toNat_cond]
  generalize c.toNat = k at *
  generalize a.toNat = x at *
  generalize b.toNat = y at *
  generalize r.toNat = z at *
  refine ⟨?_, ?_, ?_⟩
  · rw [decide_eq_decide]
    rcases hn with h | h | h <;> subst h <;> omega
  · rw [decide_eq_decide]
    rcases hn with h | h | h <;> subst h <;> omega
  · rw [Bool.eq_iff_iff]
    rcases hn with h | h | h <;> subst h <;>
      simp only [bne_iff_ne, ne_eq, decide_eq_decide, decide_eq_true_eq] <;> omega

end Verif.Flags
