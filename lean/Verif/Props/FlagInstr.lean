import Verif.Props.Flags
/-
C57: PUSHF, POPF, LAHF, SAHF agree with EFLAGS.  C58: conditions of Jcc, SETcc, CMOVcc.
-/
namespace Verif.Flags
open Spec

/-! ### C58 -/

/-- The condition code of the encoding as the specification names it. -/
def CC.spec : CC → Cond
  | .o => .o | .no => .no | .b => .b | .nb => .nb | .z => .z | .nz => .nz | .be => .be
  | .nbe => .nbe | .s => .s | .ns => .ns | .p => .p | .np => .np | .l => .l | .nl => .nl
  | .le => .le | .nle => .nle

theorem ldSf_bits (r x : BitVec 32) :
    ldSf r x = if r.getLsbD 31 ^^ x.getLsbD 0 then 1#32 else 0#32 := by
  unfold ldSf
  cases h1 : r.getLsbD 31 <;> cases h0 : x.getLsbD 0 <;> simp at h1 h0 <;> bits32 <;> simp [h1, h0]

/-- C58: every conditional jump, set and move tests exactly the architectural condition on the flags
that a reader of EFLAGS would see at that point. -/
theorem C58_condition (s : St) (h : Clean s) (c : CC) : ccTest s c = c.spec.holds (flags s) := by
  rw [flags_eq h]
  cases c <;> simp only [ccTest, CC.spec, Cond.holds, ldOf_bits, ldCf_bits, ldSf_bits, ldZf, ldPf,
    parity_all] <;>
    cases s.aux.getLsbD 31 <;> cases s.aux.getLsbD 30 <;> cases s.aux.getLsbD 0 <;>
    cases s.res.getLsbD 31 <;> cases oddByte (parIdx s) <;> by_cases hz : s.res = 0#32 <;>
    simp [hz]

/-- C58: complementary conditions never both hold or both fail. -/
theorem C58_complement (s : St) (h : Clean s) :
    ccTest s .no = !ccTest s .o ∧ ccTest s .nb = !ccTest s .b ∧ ccTest s .nz = !ccTest s .z ∧
    ccTest s .nbe = !ccTest s .be ∧ ccTest s .ns = !ccTest s .s ∧ ccTest s .np = !ccTest s .p ∧
    ccTest s .nl = !ccTest s .l ∧ ccTest s .nle = !ccTest s .le := by
  simp [C58_condition s h, CC.spec, Cond.holds]
  grind

/-- C58: after comparing `a` with `b` the unsigned conditions decide the unsigned order. -/
theorem C58_cmp_unsigned {n : Nat} (hn : Width n) (s : St) (h : Clean s) (a b : BitVec n) :
    (ccTest (subOp s a b).2 .b = decide (a.toNat < b.toNat)) ∧
    (ccTest (subOp s a b).2 .nbe = decide (b.toNat < a.toNat)) ∧
    (ccTest (subOp s a b).2 .z = decide (a = b)) := by
  have hc : Clean (subOp s a b).2 := h
  have hf := (C26_sub hn s h a b).2
  have e : (a - b = 0#n) ↔ a = b := by
    constructor
    · intro h; grind
    · rintro rfl; simp
  have t : ∀ x y : BitVec n, x = y ↔ x.toNat = y.toNat := fun x y => BitVec.toNat_inj.symm
  simp only [C58_condition _ hc, hf, CC.spec, Cond.holds, subFlags, ofBool_false, BitVec.sub_zero, e,
    Bool.toNat_false, Nat.add_zero, true_and, and_true]
  rw [Bool.eq_iff_iff]
  simp only [Bool.not_eq_true', Bool.or_eq_false_iff, decide_eq_false_iff_not, decide_eq_true_eq, t a b]
  omega

/-- C58: after comparing `a` with `b` the signed conditions decide the signed order. -/
theorem C58_cmp_signed {n : Nat} (hn : Width n) (s : St) (h : Clean s) (a b : BitVec n) :
    (ccTest (subOp s a b).2 .l = decide (a.toInt < b.toInt)) ∧
    (ccTest (subOp s a b).2 .nl = decide (b.toInt ≤ a.toInt)) ∧
    (ccTest (subOp s a b).2 .le = decide (a.toInt ≤ b.toInt)) ∧
    (ccTest (subOp s a b).2 .nle = decide (b.toInt < a.toInt)) := by
  have hc : Clean (subOp s a b).2 := h
  have hf := (C26_sub hn s h a b).2
  have e : (a - b = 0#n) ↔ a.toInt = b.toInt := by
    rw [BitVec.toInt_inj]
    constructor
    · intro h; grind
    · rintro rfl; simp
  have hm : (a - b).msb = (decide (a.toInt < b.toInt) ^^
      decide (¬ (- 2 ^ (n - 1) ≤ a.toInt - b.toInt ∧ a.toInt - b.toInt < 2 ^ (n - 1)))) := by
    rw [BitVec.msb_eq_toInt, BitVec.toInt_sub]
    have h1 := a.toInt_lt; have h2 := BitVec.le_toInt a
    have h3 := b.toInt_lt; have h4 := BitVec.le_toInt b
    rw [Bool.eq_iff_iff]
    generalize a.toInt = x at *
    generalize b.toInt = y at *
    rcases hn with h | h | h <;> subst h <;>
      simp only [Int.bmod, bne_iff_ne, ne_eq, decide_eq_decide, decide_eq_true_eq] <;> omega
  have key : ((subFlags a b false).sf != (subFlags a b false).of) = decide (a.toInt < b.toInt) := by
    simp only [subFlags, ofBool_false, BitVec.sub_zero, Bool.toNat_false, hm, Int.natCast_zero, Int.sub_zero]
    generalize decide (¬ (- 2 ^ (n - 1) ≤ a.toInt - b.toInt ∧ a.toInt - b.toInt < 2 ^ (n - 1))) = q
    cases decide (a.toInt < b.toInt) <;> cases q <;> rfl
  have key2 : ((subFlags a b false).sf == (subFlags a b false).of) = !decide (a.toInt < b.toInt) := by
    rw [← key]; cases (subFlags a b false).sf <;> cases (subFlags a b false).of <;> rfl
  have kz : (subFlags a b false).zf = decide (a.toInt = b.toInt) := by
    simp only [subFlags, ofBool_false, BitVec.sub_zero, e]
  simp only [C58_condition _ hc, hf, CC.spec, Cond.holds, key, key2, kz]
  refine ⟨trivial, ?_, ?_, ?_⟩ <;> rw [Bool.eq_iff_iff] <;> simp <;> omega

example : ccTest (subOp ⟨2#32, 0x100#32, 0#32⟩ 0x80#8 1#8).2 .l = true := by decide +kernel
example : ccTest (subOp ⟨2#32, 0x100#32, 0#32⟩ 0x80#8 1#8).2 .b = false := by decide +kernel

/-! ### C57 -/

/-- PUSHF computes the same arithmetic bits as the api. -/
theorem pushfArith_eq (s : St) : pushfArith s = arithFlags s := by
  apply BitVec.eq_of_getLsbD_eq
  intro i hi
  rw [arith_bits]
  have e : (s.aux &&& 8#32) + (s.aux &&& 8#32) = (s.aux &&& 8#32) <<< 1 := by
    rw [BitVec.shiftLeft_eq_mul_twoPow]
    have : BitVec.twoPow 32 1 = 2#32 := by decide
    rw [this]; grind
  unfold pushfArith
  rw [e, parity_all]
  rcases (by omega : i = 0 ∨ i = 1 ∨ i = 2 ∨ i = 3 ∨ i = 4 ∨ i = 5 ∨ i = 6 ∨ i = 7 ∨ i = 8 ∨ i = 9 ∨ i = 10 ∨ i = 11 ∨ i = 12 ∨ i = 13 ∨ i = 14 ∨ i = 15 ∨ i = 16 ∨ i = 17 ∨ i = 18 ∨ i = 19 ∨ i = 20 ∨ i = 21 ∨ i = 22 ∨ i = 23 ∨ i = 24 ∨ i = 25 ∨ i = 26 ∨ i = 27 ∨ i = 28 ∨ i = 29 ∨ i = 30 ∨ i = 31) with h | h | h | h | h | h | h | h | h | h | h | h | h | h | h | h | h | h | h | h | h | h | h | h | h | h | h | h | h | h | h | h <;>
    subst h <;> cases oddByte (parIdx s) <;> by_cases hr : s.res = 0#32 <;> simp [hr, Bool.xor_comm]

/-- C57: PUSHFD pushes EFLAGS with VM and RF (and the bits above 23) cleared. -/
theorem C57_pushfd (s : St) : pushfdVal s = readEflags s &&& 0xFCFFFF#32 := by
  unfold pushfdVal readEflags; rw [pushfArith_eq]

/-- C57: PUSHF with 16 bit operand size pushes the low half of EFLAGS. -/
theorem C57_pushf (s : St) : pushfVal s = (readEflags s).setWidth 16 := by
  unfold pushfVal readEflags; rw [pushfArith_eq, BitVec.setWidth_or]

/-- C57: LAHF stores the low byte of EFLAGS, with its reserved bits forced, in AH. -/
theorem C57_lahf (s : St) (h : Clean s) :
    lahfOp s = ((readEflags s).setWidth 8 &&& 0xD5#8 ||| 2#8) := by
  obtain ⟨h0, h2, h4, h6, h7, h11⟩ := clean_iff.mp h
  simp at h0 h2 h4 h6 h7 h11
  have e : (s.aux &&& 8#32) + (s.aux &&& 8#32) = (s.aux &&& 8#32) <<< 1 := by
    rw [BitVec.shiftLeft_eq_mul_twoPow]
    have : BitVec.twoPow 32 1 = 2#32 := by decide
    rw [this]; grind
  unfold lahfOp readEflags arithFlags
  rw [parity_all, e]
  cases oddByte (parIdx s) <;> by_cases hr : s.res = 0#32 <;>
    (simp only [hr, if_true, if_false]; bits8) <;> simp_all

/-- C57: SAHF loads SF, ZF, AF, PF and CF from AH and keeps OF. -/
theorem C57_sahf (s : St) (h : Clean s) (ah : BitVec 8) :
    flags (sahfOp s ah) =
      { cf := ah.getLsbD 0, pf := ah.getLsbD 2, af := ah.getLsbD 4, zf := ah.getLsbD 6,
        sf := ah.getLsbD 7, of := (flags s).of } ∧ (sahfOp s ah).eflags = s.eflags := by
  refine ⟨?_, rfl⟩
  have hc : Clean (sahfOp s ah) := h
  rw [flags_eq hc, flags_eq h]
  have hp : parIdx (sahfOp s ah) = if ah.getLsbD 2 then 0#8 else 1#8 := by
    unfold parIdx sahfOp
    rw [ldOf_bits]
    cases s.aux.getLsbD 31 ^^ s.aux.getLsbD 30 <;> cases h : ah.getLsbD 2 <;> simp at h <;> bits8 <;>
      simp [h]
  have hz : ((sahfOp s ah).res = 0#32) ↔ ah.getLsbD 6 = true := by
    constructor
    · intro h
      have := congrArg (fun x : BitVec 32 => x.getLsbD 8) h
      simpa [sahfOp] using this
    · intro h
      unfold sahfOp
      simp at h
      bits32
      simp [h]
  rw [hp]
  simp only [hz]
  simp only [sahfOp, ldOf_bits]
  cases ah.getLsbD 2 <;> cases s.aux.getLsbD 31 <;> cases s.aux.getLsbD 30 <;>
    simp [oddByte]

/-- The lazy words POPF writes are those the api writes. -/
theorem popf_lazy (s : St) (v m : BitVec 32) :
    (popfUpdate s v m).res = lazyRes v ∧ (popfUpdate s v m).aux = lazyAux v := by
  constructor
  · simp only [popfUpdate, lazyRes]; bits32
  · simp only [popfUpdate, lazyAux]; bits32 <;> grind

/-- Which bits of the stored word POPF may change, by privilege. -/
theorem popfMask_clean (cpl iopl : BitVec 32) (b : Bool) : popfMask cpl iopl b &&& 0x8D7#32 = 0#32 := by
  unfold popfMask
  cases b <;> by_cases h : cpl = 0#32 <;> by_cases h2 : cpl.toNat ≤ iopl.toNat <;> simp [h, h2]

/-- C57: after POPF the arithmetic flags are those of the popped value. -/
theorem C57_popf_arith (s : St) (h : Ok s) (v cpl : BitVec 32) (size32 : Bool) :
    flags (popfOp s v cpl size32) = ofEflags v ∧ Ok (popfOp s v cpl size32) := by
  have hm := popfMask_clean cpl ((s.eflags &&& 0x3000#32) >>> 12) size32
  have mb : ∀ i, (0x8D7#32).getLsbD i = true →
      (popfMask cpl ((s.eflags &&& 0x3000#32) >>> 12) size32).getLsbD i = false := by
    intro i hi
    have := congrArg (fun x : BitVec 32 => x.getLsbD i) hm
    simpa [hi] using this
  obtain ⟨h0, h2, h4, h6, h7, h11⟩ := clean_iff.mp h.1
  unfold popfOp
  generalize popfMask cpl ((s.eflags &&& 0x3000#32) >>> 12) size32 = m at *
  generalize hv : (if size32 = true then v else v &&& 0xFFFF#32) = w
  have hw : ofEflags w = ofEflags v := by
    rw [← hv]; cases size32 <;> simp [ofEflags]
  have ho : Ok (popfUpdate s w m) := by
    refine ⟨clean_iff.mpr ?_, ?_⟩
    · have m0 := mb 0 (by decide); have m2 := mb 2 (by decide); have m4 := mb 4 (by decide)
      have m6 := mb 6 (by decide); have m7 := mb 7 (by decide); have m11 := mb 11 (by decide)
      simp at m0 m2 m4 m6 m7 m11 h0 h2 h4 h6 h7 h11
      simp [popfUpdate, *]
    · simp [popfUpdate]
  refine ⟨?_, ho⟩
  rw [← hw]
  have e1 := popf_lazy s w m
  have : flags (popfUpdate s w m) = flags (writeEflags (popfUpdate s w m) w true) := by
    rw [flags_eq ho.1, flags_eq (C25_write_ok _ ho w true).1]
    have hp : parIdx (popfUpdate s w m) = parIdx (writeEflags (popfUpdate s w m) w true) := by
      unfold parIdx; rw [e1.1, e1.2]; rfl
    rw [hp, e1.1, e1.2]; rfl
  rw [this, C25_flags_written _ ho]

/-- What POPF may change outside virtual 8086 mode (SDM): TF, DF, NT always; IF only when
CPL ≤ IOPL; IOPL only at CPL 0; AC and ID only with 32 bit operands; nothing else. -/
def PopfAllowed (cpl iopl : Nat) (size32 : Bool) (i : Nat) : Prop :=
  i = 8 ∨ i = 10 ∨ i = 14 ∨ (i = 9 ∧ cpl ≤ iopl) ∨ ((i = 12 ∨ i = 13) ∧ cpl = 0) ∨
  ((i = 18 ∨ i = 21) ∧ size32 = true)

/-- C57: POPF changes exactly the system flags the privilege level allows: an allowed bit takes the
popped value, every other bit of the stored word keeps its value. -/
theorem C57_popf_system (s : St) (h : Ok s) (v cpl : BitVec 32) (size32 : Bool) (i : Nat) (hi : i < 32) :
    let iopl := ((s.eflags &&& 0x3000#32) >>> 12).toNat
    (PopfAllowed cpl.toNat iopl size32 i →
      (popfOp s v cpl size32).eflags.getLsbD i = (v.getLsbD i && (size32 || decide (i < 16)))) ∧
    (¬ PopfAllowed cpl.toNat iopl size32 i →
      (popfOp s v cpl size32).eflags.getLsbD i = s.eflags.getLsbD i) := by
  have h1 := h.2
  unfold popfOp
  generalize (s.eflags &&& 0x3000#32) >>> 12 = io
  have hm : (popfMask cpl io size32).getLsbD i = true ↔ PopfAllowed cpl.toNat io.toNat size32 i := by
    have hc0 : cpl = 0#32 ↔ cpl.toNat = 0 := by
      rw [← BitVec.toNat_inj]; simp
    unfold popfMask PopfAllowed
    rcases (by omega : i = 0 ∨ i = 1 ∨ i = 2 ∨ i = 3 ∨ i = 4 ∨ i = 5 ∨ i = 6 ∨ i = 7 ∨ i = 8 ∨ i = 9 ∨ i = 10 ∨ i = 11 ∨ i = 12 ∨ i = 13 ∨ i = 14 ∨ i = 15 ∨ i = 16 ∨ i = 17 ∨ i = 18 ∨ i = 19 ∨ i = 20 ∨ i = 21 ∨ i = 22 ∨ i = 23 ∨ i = 24 ∨ i = 25 ∨ i = 26 ∨ i = 27 ∨ i = 28 ∨ i = 29 ∨ i = 30 ∨ i = 31) with h | h | h | h | h | h | h | h | h | h | h | h | h | h | h | h | h | h | h | h | h | h | h | h | h | h | h | h | h | h | h | h <;>
    subst h <;> cases size32 <;> by_cases hz : cpl = 0#32 <;> by_cases h2 : cpl.toNat ≤ io.toNat <;>
      simp [hz, h2] <;> simp_all
  have he : (popfUpdate s (if size32 = true then v else v &&& 0xFFFF#32)
      (popfMask cpl io size32)).eflags.getLsbD i =
      (if (popfMask cpl io size32).getLsbD i then (v.getLsbD i && (size32 || decide (i < 16)))
       else s.eflags.getLsbD i) := by
    have hb1 : ((2#32).getLsbD i) = decide (i = 1) := by
      rcases (by omega : i = 0 ∨ i = 1 ∨ 2 ≤ i) with h | h | h
      · subst h; rfl
      · subst h; rfl
      · rw [show (2#32) = BitVec.twoPow 32 1 by decide, BitVec.getLsbD_twoPow]
        simp [show i ≠ 1 by omega]; omega
    have hv : (if size32 = true then v else v &&& 0xFFFF#32).getLsbD i =
        (v.getLsbD i && (size32 || decide (i < 16))) := by
      cases size32
      · have : (0xFFFF#32).getLsbD i = decide (i < 16) := by
          rcases (by omega : i = 0 ∨ i = 1 ∨ i = 2 ∨ i = 3 ∨ i = 4 ∨ i = 5 ∨ i = 6 ∨ i = 7 ∨ i = 8 ∨ i = 9 ∨ i = 10 ∨ i = 11 ∨ i = 12 ∨ i = 13 ∨ i = 14 ∨ i = 15 ∨ i = 16 ∨ i = 17 ∨ i = 18 ∨ i = 19 ∨ i = 20 ∨ i = 21 ∨ i = 22 ∨ i = 23 ∨ i = 24 ∨ i = 25 ∨ i = 26 ∨ i = 27 ∨ i = 28 ∨ i = 29 ∨ i = 30 ∨ i = 31) with h | h | h | h | h | h | h | h | h | h | h | h | h | h | h | h | h | h | h | h | h | h | h | h | h | h | h | h | h | h | h | h <;> subst h <;> rfl
        simp only [Bool.false_eq_true, if_false, BitVec.getLsbD_and, this, Bool.false_or]
      · simp
    simp only [popfUpdate, BitVec.getLsbD_or, BitVec.getLsbD_and, BitVec.getLsbD_not, hi, decide_true,
      Bool.true_and, hb1, hv]
    by_cases h1i : i = 1
    · subst h1i
      have : (popfMask cpl io size32).getLsbD 1 = false := by
        have := congrArg (fun x : BitVec 32 => x.getLsbD 1) (popfMask_clean cpl io size32)
        simpa using this
      simp only [this, h1]; simp
    · cases hmm : (popfMask cpl io size32).getLsbD i <;> simp [h1i]
  constructor
  · intro ha
    rw [he, if_pos (hm.mpr ha)]
  · intro ha
    rw [he, if_neg (fun x => ha (hm.mp x))]

/-- C57: what PUSHFD pushed, POPFD at CPL 0 restores: all arithmetic flags and TF, IF, DF, IOPL, NT,
AC and ID. -/
theorem C57_pushf_popf (s t : St) (ht : Ok t) :
    flags (popfOp t (pushfdVal s) 0#32 true) = flags s ∧
    (popfOp t (pushfdVal s) 0#32 true).eflags &&& 0x247700#32 = s.eflags &&& 0x247700#32 := by
  constructor
  · rw [(C57_popf_arith t ht _ _ _).1, C57_pushfd]
    simp [flags, ofEflags]
  · apply BitVec.eq_of_getLsbD_eq
    intro i hi
    rw [BitVec.getLsbD_and, BitVec.getLsbD_and]
    cases hb : (0x247700#32).getLsbD i
    · simp
    · have hi' : i = 8 ∨ i = 9 ∨ i = 10 ∨ i = 12 ∨ i = 13 ∨ i = 14 ∨ i = 18 ∨ i = 21 := by
        revert hb
        rcases (by omega : i = 0 ∨ i = 1 ∨ i = 2 ∨ i = 3 ∨ i = 4 ∨ i = 5 ∨ i = 6 ∨ i = 7 ∨ i = 8 ∨ i = 9 ∨ i = 10 ∨ i = 11 ∨ i = 12 ∨ i = 13 ∨ i = 14 ∨ i = 15 ∨ i = 16 ∨ i = 17 ∨ i = 18 ∨ i = 19 ∨ i = 20 ∨ i = 21 ∨ i = 22 ∨ i = 23 ∨ i = 24 ∨ i = 25 ∨ i = 26 ∨ i = 27 ∨ i = 28 ∨ i = 29 ∨ i = 30 ∨ i = 31) with h | h | h | h | h | h | h | h | h | h | h | h | h | h | h | h | h | h | h | h | h | h | h | h | h | h | h | h | h | h | h | h <;> subst h <;> simp
      have hsys := (C57_popf_system t ht (pushfdVal s) 0#32 true i hi).1
      rw [hsys (by unfold PopfAllowed; simp; omega)]
      simp only [Bool.true_or, Bool.and_true]
      rw [C57_pushfd]
      unfold readEflags
      rw [BitVec.getLsbD_and, BitVec.getLsbD_or, arith_bits]
      rcases hi' with h | h | h | h | h | h | h | h <;> subst h <;> simp

example : flags (popfOp ⟨2#32, 0x100#32, 0#32⟩ (pushfdVal (subOp ⟨0x202#32, 0x100#32, 0#32⟩ 0#32 1#32).2) 0#32 true)
    = ⟨true, true, true, false, true, false⟩ := by decide +kernel

end Verif.Flags
