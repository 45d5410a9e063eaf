import Verif.Lemmas.Flags
/-
C25, C26, C27: EFLAGS round trip, lazy flags, single flag changes.
-/
namespace Verif.Flags
open Spec

/-- States in which the emulator can be: the arithmetic bits of the stored word are clear (they
live in the lazy words) and the always-one bit is set, as after reset (eflags = 2). -/
def Ok (s : St) : Prop := Clean s ∧ s.eflags.getLsbD 1 = true

/-! ### C25 -/

theorem arith_bits (s : St) (i : Nat) : (arithFlags s).getLsbD i =
    (if i = 0 then s.aux.getLsbD 31 else if i = 2 then !oddByte (parIdx s)
     else if i = 4 then s.aux.getLsbD 3 else if i = 6 then decide (s.res = 0#32)
     else if i = 7 then s.res.getLsbD 31 ^^ s.aux.getLsbD 0
     else if i = 11 then s.aux.getLsbD 31 ^^ s.aux.getLsbD 30 else false) := by
  by_cases hi : i < 32
  · unfold arithFlags
    rw [parity_all]
    rcases (by omega : i = 0 ∨ i = 1 ∨ i = 2 ∨ i = 3 ∨ i = 4 ∨ i = 5 ∨ i = 6 ∨ i = 7 ∨ i = 8 ∨ i = 9 ∨ i = 10 ∨ i = 11 ∨ i = 12 ∨ i = 13 ∨ i = 14 ∨ i = 15 ∨ i = 16 ∨ i = 17 ∨ i = 18 ∨ i = 19 ∨ i = 20 ∨ i = 21 ∨ i = 22 ∨ i = 23 ∨ i = 24 ∨ i = 25 ∨ i = 26 ∨ i = 27 ∨ i = 28 ∨ i = 29 ∨ i = 30 ∨ i = 31) with h | h | h | h | h | h | h | h | h | h | h | h | h | h | h | h | h | h | h | h | h | h | h | h | h | h | h | h | h | h | h | h <;>
    subst h <;> cases oddByte (parIdx s) <;> by_cases hr : s.res = 0#32 <;> simp [hr, Bool.xor_comm]
  · have h32 : 32 ≤ i := by omega
    rw [BitVec.getLsbD_of_ge _ _ h32]
    simp [show i ≠ 0 by omega, show i ≠ 2 by omega, show i ≠ 4 by omega, show i ≠ 6 by omega,
      show i ≠ 7 by omega, show i ≠ 11 by omega]

theorem lazyRes_zero (v : BitVec 32) : (lazyRes v = 0#32) ↔ v.getLsbD 6 = true := by
  constructor
  · intro h
    have := congrArg (fun x : BitVec 32 => x.getLsbD 8) h
    simpa [lazyRes] using this
  · intro h
    unfold lazyRes
    simp at h
    bits32
    simp [h]

theorem lazy_odd (s : St) (v : BitVec 32) :
    oddByte (parIdx { s with res := lazyRes v, aux := lazyAux v }) = !v.getLsbD 2 := by
  have : parIdx { s with res := lazyRes v, aux := lazyAux v } =
      (if v.getLsbD 2 then 0#8 else 1#8) := by
    unfold parIdx lazyRes lazyAux
    cases h : v.getLsbD 2 <;> simp at h <;> bits8 <;> simp [h]
  rw [this]
  cases v.getLsbD 2 <;> decide

/-- The arithmetic part that is read back after the lazy words were written from `v`. -/
theorem arith_write (s : St) (v : BitVec 32) :
    arithFlags { s with res := lazyRes v, aux := lazyAux v } = v &&& 0x8D5#32 := by
  apply BitVec.eq_of_getLsbD_eq
  intro i hi
  rw [arith_bits, lazy_odd]
  simp only [lazyRes_zero]
  rcases (by omega : i = 0 ∨ i = 1 ∨ i = 2 ∨ i = 3 ∨ i = 4 ∨ i = 5 ∨ i = 6 ∨ i = 7 ∨ i = 8 ∨ i = 9 ∨ i = 10 ∨ i = 11 ∨ i = 12 ∨ i = 13 ∨ i = 14 ∨ i = 15 ∨ i = 16 ∨ i = 17 ∨ i = 18 ∨ i = 19 ∨ i = 20 ∨ i = 21 ∨ i = 22 ∨ i = 23 ∨ i = 24 ∨ i = 25 ∨ i = 26 ∨ i = 27 ∨ i = 28 ∨ i = 29 ∨ i = 30 ∨ i = 31) with h | h | h | h | h | h | h | h | h | h | h | h | h | h | h | h | h | h | h | h | h | h | h | h | h | h | h | h | h | h | h | h <;>
    subst h <;> simp [lazyRes, lazyAux]

/-- C25, 32 bit form: reading back what was written gives the written value, with the reserved
bits 3, 5, 15 and 22-31 zero and bit 1 one; all other bits (CF PF AF ZF SF TF IF DF OF IOPL NT RF
VM AC VIF VIP ID) come back as written. -/
theorem C25_write_read_32 (s : St) (h : Ok s) (v : BitVec 32) :
    readEflags (writeEflags s v true) = (v &&& 0x3F7FD5#32) ||| 2#32 := by
  have h1 := h.2
  unfold readEflags
  have : arithFlags (writeEflags s v true) = v &&& 0x8D5#32 :=
    arith_write { s with eflags := (s.eflags &&& 2#32) ||| (v &&& 0x3F7700#32) } v
  rw [this]
  simp only [writeEflags, if_true]
  simp at h1
  bits32
  · simp [h1]

/-- C25, 16 bit form: the upper half is what it was, the lower half is the written value with its
reserved bits forced. -/
theorem C25_write_read_16 (s : St) (h : Ok s) (v : BitVec 32) :
    readEflags (writeEflags s v false) =
      (readEflags s &&& 0xFFFF0000#32) ||| (v &&& 0x7FD5#32) ||| 2#32 := by
  have h1 := h.2
  have ha : readEflags s &&& 0xFFFF0000#32 = s.eflags &&& 0xFFFF0000#32 := by
    apply BitVec.eq_of_getLsbD_eq
    intro i hi
    unfold readEflags
    rw [BitVec.getLsbD_and, BitVec.getLsbD_and, BitVec.getLsbD_or, arith_bits]
    rcases (by omega : i = 0 ∨ i = 2 ∨ i = 4 ∨ i = 6 ∨ i = 7 ∨ i = 11 ∨ (i ≠ 0 ∧ i ≠ 2 ∧ i ≠ 4 ∧ i ≠ 6 ∧ i ≠ 7 ∧ i ≠ 11)) with h | h | h | h | h | h | ⟨a0, a2, a4, a6, a7, a11⟩
    all_goals first
      | (subst h; simp)
      | simp [a0, a2, a4, a6, a7, a11]
  rw [ha]
  unfold readEflags
  have : arithFlags (writeEflags s v false) = v &&& 0x8D5#32 :=
    arith_write { s with eflags := (s.eflags &&& 0xFFFF0002#32) ||| (v &&& 0x7700#32) } v
  rw [this]
  simp only [writeEflags]
  simp at h1
  bits32
  · simp [h1]

/-- C25: writing leaves a state from which everything else in this file applies again. -/
theorem C25_write_ok (s : St) (h : Ok s) (v : BitVec 32) (r : Bool) : Ok (writeEflags s v r) := by
  have h1 := h.2
  simp at h1
  refine ⟨?_, ?_⟩
  · obtain ⟨h0, h2, h4, h6, h7, h11⟩ := clean_iff.mp h.1
    simp at h0 h2 h4 h6 h7 h11
    rw [clean_iff]
    cases r <;> simp [writeEflags]
  · cases r <;> simp [writeEflags, h1]

/-- C25, the write of IRET and of far returns from handlers: of the flags that are not arithmetic exactly those of `mask` are taken from the value, the
arithmetic ones always, and a reader sees just that. -/
theorem C25_helper_write_read (s : St) (h : Ok s) (v mask : BitVec 32) (hm : mask &&& 0x8D7#32 = 0#32) :
    (∀ i, (readEflags (writeEflagsHelper s v mask)).getLsbD i =
      if (mask ||| 0x8D5#32).getLsbD i then v.getLsbD i else (readEflags s).getLsbD i) ∧ Ok (writeEflagsHelper s v mask) := by
  have hb : ∀ i, (0x8D7#32).getLsbD i = true → mask.getLsbD i = false := by
    intro i hi
    have := congrArg (fun x : BitVec 32 => x.getLsbD i) hm
    simpa [hi] using this
  have hres : ((writeEflagsHelper s v mask).res = 0#32) ↔ v.getLsbD 6 = true := by
    have : (writeEflagsHelper s v mask).res = ((v &&& 0x40#32) ^^^ 0x40#32) <<< 2 := rfl
    rw [this]
    constructor
    · intro e
      have := congrArg (fun x : BitVec 32 => x.getLsbD 8) e
      simpa using this
    · intro e
      bits32 <;> simp_all
  have hpar : parIdx (writeEflagsHelper s v mask) = if v.getLsbD 2 then 0#8 else 1#8 := by
    unfold parIdx writeEflagsHelper
    cases hv : v.getLsbD 2 <;> simp at hv <;> bits8 <;> simp [hv]
  have hp : parity (parIdx (writeEflagsHelper s v mask)) = if v.getLsbD 2 then 0#32 else 1#32 := by
    rw [hpar]; cases v.getLsbD 2 <;> rfl
  have ha : arithFlags (writeEflagsHelper s v mask) = v &&& 0x8D5#32 := by
    unfold arithFlags
    rw [hp]
    have hr : (if (writeEflagsHelper s v mask).res = 0#32 then 1#32 else 0#32) = if v.getLsbD 6 then 1#32 else 0#32 := by
      by_cases e : v.getLsbD 6 = true
      · rw [if_pos (hres.2 e), if_pos e]
      · rw [if_neg (fun x => e (hres.1 x)), if_neg e]
    rw [hr]
    unfold writeEflagsHelper
    cases h2 : v.getLsbD 2 <;> cases h6 : v.getLsbD 6 <;> simp at h2 h6 <;> bits32 <;> simp_all <;>
      (cases v[0] <;> cases v[11] <;> rfl)
  have hclean : Ok (writeEflagsHelper s v mask) := by
    obtain ⟨h0, h2, h4, h6, h7, h11⟩ := clean_iff.mp h.1
    have h1 := h.2
    have g0 := hb 0 rfl
    have g2 := hb 2 rfl
    have g4 := hb 4 rfl
    have g6 := hb 6 rfl
    have g7 := hb 7 rfl
    have g11 := hb 11 rfl
    simp at h0 h2 h4 h6 h7 h11 h1 g0 g2 g4 g6 g7 g11
    refine ⟨?_, ?_⟩
    · rw [clean_iff]
      unfold writeEflagsHelper
      simp [*]
    · unfold writeEflagsHelper
      simp
  refine ⟨?_, hclean⟩
  intro i
  rw [readEflags, ha, readEflags]
  have hz : (0x8D5#32).getLsbD i = false → (arithFlags s).getLsbD i = false := by
    intro hi
    rw [arith_bits]
    have : i ≠ 0 ∧ i ≠ 2 ∧ i ≠ 4 ∧ i ≠ 6 ∧ i ≠ 7 ∧ i ≠ 11 := by
      refine ⟨?_, ?_, ?_, ?_, ?_, ?_⟩ <;> (rintro rfl; revert hi; decide)
    simp [this]
  have h1 : s.eflags.getLsbD 1 = true := by simpa using h.2
  have hce : (0x8D5#32).getLsbD i = true → s.eflags.getLsbD i = false := by
    intro hi
    have := congrArg (fun x : BitVec 32 => x.getLsbD i) h.1
    simpa [hi] using this
  have hmi : (0x8D5#32).getLsbD i = true → mask.getLsbD i = false := by
    intro hi
    apply hb
    rw [show 0x8D7#32 = 0x8D5#32 ||| 2#32 by decide, BitVec.getLsbD_or, hi]
    rfl
  have h2 : (2#32).getLsbD i = true → i = 1 := by
    rw [show 2#32 = BitVec.twoPow 32 1 by decide, BitVec.getLsbD_twoPow]
    simp only [Bool.and_eq_true, decide_eq_true_eq]
    exact fun h => h.2.symm
  unfold writeEflagsHelper
  simp only [BitVec.getLsbD_or, BitVec.getLsbD_and]
  cases ha : (0x8D5#32).getLsbD i with
  | true => rw [hce ha, hmi ha]; cases hq : (2#32).getLsbD i with
    | true => rw [h2 hq] at ha; cases ha
    | false => simp
  | false =>
    rw [hz ha]
    cases hq : (2#32).getLsbD i with
    | true =>
      obtain rfl := h2 hq
      rw [h1, hb 1 rfl]
      simp
    | false =>
      by_cases hi : i < 32
      · rw [BitVec.getLsbD_not]
        cases hmm : mask.getLsbD i <;> simp [hi]
      · simp [BitVec.getLsbD_of_ge _ _ (show 32 ≤ i by omega)]

example : readEflags (writeEflagsHelper ⟨0x3202#32, 0#32, 0#32⟩ 0x4D5#32 0x700#32) = 0x34D7#32 ∧ 0x700#32 &&& 0x8D7#32 = 0#32 := by
  decide +kernel

/-- C25: the arithmetic flags a reader sees after a write are those of the written value. -/
theorem C25_flags_written (s : St) (h : Ok s) (v : BitVec 32) (r : Bool) :
    flags (writeEflags s v r) = ofEflags v := by
  unfold flags
  cases r
  · rw [C25_write_read_16 s h]; simp [ofEflags]
  · rw [C25_write_read_32 s h]; simp [ofEflags]

example : Ok ⟨2#32, 0x100#32, 0#32⟩ := by unfold Ok Clean; decide
example : readEflags (writeEflags ⟨2#32, 0x100#32, 0#32⟩ 0x3F7FD5#32 true) = 0x3F7FD7#32 := by decide +kernel

/-! ### C26 -/

theorem cfVal_eq {n : Nat} (hn : Width n) {s : St} (h : Clean s) :
    cfVal n s = (BitVec.ofBool (flags s).cf).setWidth n := by
  rw [flags_eq h]
  unfold cfVal ldCf
  have : (s.aux &&& 0x80000000#32) >>> 31 = if s.aux.getLsbD 31 then 1#32 else 0#32 := by
    cases h : s.aux.getLsbD 31 <;> simp at h <;> bits32 <;> simp [h]
  rw [this]
  rcases hn with h | h | h <;> subst h <;> cases s.aux.getLsbD 31 <;> rfl

theorem ofBool_false {n : Nat} : (BitVec.ofBool false).setWidth n = 0#n := by simp

/-- C26, ADD: result and all six flags. -/
theorem C26_add {n : Nat} (hn : Width n) (s : St) (h : Clean s) (a b : BitVec n) :
    (addOp s a b).1 = a + b ∧ flags (addOp s a b).2 = addFlags a b false := by
  refine ⟨rfl, ?_⟩
  have := flags_sum hn h a b false
  simpa [addOp] using this

/-- C26, XADD: destination gets the sum, source the old destination, flags of the addition. -/
theorem C26_xadd {n : Nat} (hn : Width n) (s : St) (h : Clean s) (dst src : BitVec n) :
    (xaddOp s dst src).1 = dst + src ∧ (xaddOp s dst src).2.1 = dst ∧
    flags (xaddOp s dst src).2.2 = addFlags dst src false := by
  refine ⟨rfl, rfl, ?_⟩
  have := flags_sum hn h dst src false
  simpa [xaddOp] using this

/-- C26, ADC: the carry that is added is the architectural CF. -/
theorem C26_adc {n : Nat} (hn : Width n) (s : St) (h : Clean s) (a b : BitVec n) :
    (adcOp s a b).1 = a + b + (BitVec.ofBool (flags s).cf).setWidth n ∧
    flags (adcOp s a b).2 = addFlags a b (flags s).cf := by
  unfold adcOp
  rw [cfVal_eq hn h]
  exact ⟨rfl, flags_sum hn h a b _⟩

/-- C26, SUB and CMP. -/
theorem C26_sub {n : Nat} (hn : Width n) (s : St) (h : Clean s) (a b : BitVec n) :
    (subOp s a b).1 = a - b ∧ flags (subOp s a b).2 = subFlags a b false := by
  refine ⟨rfl, ?_⟩
  have := flags_sub hn h a b false
  simpa [subOp] using this

/-- C26, SBB: the borrow that is subtracted is the architectural CF. -/
theorem C26_sbb {n : Nat} (hn : Width n) (s : St) (h : Clean s) (a b : BitVec n) :
    (sbbOp s a b).1 = a - b - (BitVec.ofBool (flags s).cf).setWidth n ∧
    flags (sbbOp s a b).2 = subFlags a b (flags s).cf := by
  unfold sbbOp
  rw [cfVal_eq hn h]
  have e : a - ((BitVec.ofBool (flags s).cf).setWidth n + b) =
      a - b - (BitVec.ofBool (flags s).cf).setWidth n := by grind
  simp only [e]
  exact ⟨trivial, flags_sub hn h a b _⟩

/-- C26, NEG: the flags of `0 - a`; in particular CF is set unless the operand is zero. -/
theorem C26_neg {n : Nat} (hn : Width n) (s : St) (h : Clean s) (a : BitVec n) :
    (negOp s a).1 = 0#n - a ∧ flags (negOp s a).2 = subFlags 0#n a false := by
  refine ⟨by simp [negOp], ?_⟩
  have := flags_sub hn h 0#n a false
  simpa [negOp] using this

theorem ldOf_bits (x : BitVec 32) : ldOf x = if x.getLsbD 31 ^^ x.getLsbD 30 then 0x80000000#32 else 0#32 := by
  have e : x + x = x <<< 1 := by
    rw [BitVec.shiftLeft_eq_mul_twoPow]
    have : BitVec.twoPow 32 1 = 2#32 := by decide
    rw [this]; grind
  unfold ldOf
  rw [e]
  cases h1 : x.getLsbD 31 <;> cases h0 : x.getLsbD 30 <;> simp at h1 h0 <;> bits32 <;> simp [h1, h0]

theorem ldCf_bits (s : St) : ldCf s = if s.aux.getLsbD 31 then 0x80000000#32 else 0#32 := by
  unfold ldCf
  cases h : s.aux.getLsbD 31 <;> simp at h <;> bits32 <;> simp [h]

/-- Restoring the carry flag changes nothing else. -/
theorem flags_keepCf {s : St} (h : Clean s) (c : Bool) :
    flags (keepCf s (if c then 0x80000000#32 else 0#32)) = { flags s with cf := c } := by
  have hc : Clean (keepCf s (if c then 0x80000000#32 else 0#32)) := h
  rw [flags_eq hc, flags_eq h]
  have hp : parIdx (keepCf s (if c then 0x80000000#32 else 0#32)) = parIdx s := by
    unfold parIdx keepCf
    rw [ldOf_bits]
    cases c <;> cases s.aux.getLsbD 31 ^^ s.aux.getLsbD 30 <;> bits8
  rw [hp]
  simp only [keepCf, ldOf_bits]
  cases c <;> cases h1 : s.aux.getLsbD 31 <;> cases h0 : s.aux.getLsbD 30 <;> simp at h1 h0 <;>
    simp

/-- C26, INC: the flags of `a + 1`, except that CF keeps its value. -/
theorem C26_inc {n : Nat} (hn : Width n) (s : St) (h : Clean s) (a : BitVec n) :
    (incOp s a).1 = a + 1#n ∧
    flags (incOp s a).2 = { addFlags a 1#n false with cf := (flags s).cf } := by
  refine ⟨rfl, ?_⟩
  unfold incOp
  simp only [ldCf_bits]
  have hc : Clean (setFlagsSum s a 1#n (a + 1#n)) := h
  rw [flags_keepCf hc]
  have := flags_sum hn h a 1#n false
  simp only [ofBool_false, BitVec.add_zero] at this
  rw [this, flags_eq h]

/-- C26, DEC: the flags of `a - 1`, except that CF keeps its value. -/
theorem C26_dec {n : Nat} (hn : Width n) (s : St) (h : Clean s) (a : BitVec n) :
    (decOp s a).1 = a - 1#n ∧
    flags (decOp s a).2 = { subFlags a 1#n false with cf := (flags s).cf } := by
  refine ⟨rfl, ?_⟩
  unfold decOp
  simp only [ldCf_bits]
  have hc : Clean (setFlagsSub s a 1#n (a - 1#n)) := h
  rw [flags_keepCf hc]
  have := flags_sub hn h a 1#n false
  simp only [ofBool_false, BitVec.sub_zero] at this
  rw [this, flags_eq h]

/-- Flags after `set_flags(r, 0)`. -/
theorem flags_setFlags_zero {n : Nat} (hn : Width n) {s : St} (h : Clean s) (r : BitVec n) :
    flags (setFlags s r 0#32) =
      { cf := false, pf := parityEven r, af := false, zf := decide (r = 0#n), sf := r.msb,
        of := false } := by
  have hc : Clean (setFlags s r 0#32) := h
  rw [flags_eq hc]
  have hp : parIdx (setFlags s r 0#32) = r.setWidth 8 := by
    unfold parIdx setFlags
    simp [sext_low hn]
  rw [hp, parityEven_low]
  simp only [setFlags, sext_31 hn, sext_zero hn]
  simp

/-- C26, AND, OR, XOR, TEST: `r` is the value the host computed for the result. -/
theorem C26_logic {n : Nat} (hn : Width n) (s : St) (h : Clean s) (r : BitVec n) :
    (logicOp s r).1 = r ∧ LogicFlags r (flags (logicOp s r).2) := by
  refine ⟨rfl, ?_⟩
  unfold logicOp
  simp only [flags_setFlags_zero hn h]
  exact ⟨rfl, rfl, rfl, rfl, rfl⟩

/-- C26: every operation leaves the rest of EFLAGS alone. -/
theorem C26_rest_unchanged {n : Nat} (s : St) (a b : BitVec n) :
    (addOp s a b).2.eflags = s.eflags ∧ (adcOp s a b).2.eflags = s.eflags ∧
    (subOp s a b).2.eflags = s.eflags ∧ (sbbOp s a b).2.eflags = s.eflags ∧
    (negOp s a).2.eflags = s.eflags ∧ (incOp s a).2.eflags = s.eflags ∧
    (decOp s a).2.eflags = s.eflags ∧ (logicOp s a).2.eflags = s.eflags ∧
    (xaddOp s a b).2.2.eflags = s.eflags := by
  simp [addOp, adcOp, subOp, sbbOp, negOp, incOp, decOp, logicOp, xaddOp, setFlagsSum, setFlagsSub,
    setFlags, keepCf]

/-- C26, CMPXCHG, the part that holds: destination, accumulator and ZF are right. The other flags
are those of `destination - accumulator`; see `C26_cmpxchg_flags_violation`. -/
theorem C26_cmpxchg_partial {n : Nat} (hn : Width n) (s : St) (h : Clean s) (dst src acc : BitVec n) :
    ((cmpxchgOp s dst src acc).1 = if acc = dst then src else dst) ∧
    ((cmpxchgOp s dst src acc).2.1 = if acc = dst then acc else dst) ∧
    (flags (cmpxchgOp s dst src acc).2.2).zf = decide (acc = dst) ∧
    flags (cmpxchgOp s dst src acc).2.2 = subFlags dst acc false := by
  have hf := flags_sub hn h dst acc false
  simp only [ofBool_false, BitVec.sub_zero] at hf
  have e : (dst - acc = 0#n) ↔ (acc = dst) := by
    constructor
    · intro h; grind
    · rintro rfl; simp
  have hz : (subFlags dst acc false).zf = decide (acc = dst) := by
    unfold subFlags
    simp only [ofBool_false, BitVec.sub_zero, e]
  have hs : flags (cmpxchgOp s dst src acc).2.2 = subFlags dst acc false := by
    unfold cmpxchgOp
    by_cases hd : dst - acc = 0#n
    · simp only [if_pos hd]; exact hf
    · simp only [if_neg hd]; exact hf
  refine ⟨?_, ?_, ?_, hs⟩
  · unfold cmpxchgOp
    by_cases hd : acc = dst
    · rw [if_pos (e.mpr hd), if_pos hd]
    · rw [if_neg (fun x => hd (e.mp x)), if_neg hd]
  · unfold cmpxchgOp
    by_cases hd : acc = dst
    · rw [if_pos (e.mpr hd), if_pos hd]
    · rw [if_neg (fun x => hd (e.mp x)), if_neg hd]
  · rw [hs, hz]

/-- C26, CMPXCHG, violated: the comparison is `accumulator - destination` (SDM), the code computes
`destination - accumulator`. With AL = 1 and a destination byte of 2 the architecture sets CF, the
emulator clears it. -/
theorem C26_cmpxchg_flags_violation :
    ∃ (s : St) (dst src acc : BitVec 8), Clean s ∧
      (subFlags acc dst false).cf = true ∧ (flags (cmpxchgOp s dst src acc).2.2).cf = false :=
  ⟨⟨2#32, 0x100#32, 0#32⟩, 2#8, 0#8, 1#8, by unfold Clean; decide, by decide, by decide +kernel⟩

-- Non-trivial cases: 0xFF + 1 at 8 bits carries and gives zero; 0x7FFF + 1 at 16 bits overflows;
-- 0 - 1 at 32 bits borrows.
example : flags (addOp ⟨2#32, 0x100#32, 0#32⟩ 0xFF#8 1#8).2 = ⟨true, true, true, true, false, false⟩ := by
  decide +kernel
example : flags (addOp ⟨2#32, 0x100#32, 0#32⟩ 0x7FFF#16 1#16).2 = ⟨false, true, true, false, true, true⟩ := by
  decide +kernel
example : flags (subOp ⟨2#32, 0x100#32, 0#32⟩ 0#32 1#32).2 = ⟨true, true, true, false, true, false⟩ := by
  decide +kernel

/-! ### C27 -/

theorem or100_ne (x : BitVec 32) : x ||| 0x100#32 ≠ 0#32 := by
  intro h
  have := congrArg (fun v : BitVec 32 => v.getLsbD 8) h
  simp at this

/-- C27: clearing ZF (failing VERR, VERW, ARPL, CMPXCHG8B) changes only ZF. -/
theorem C27_clear_zf (s : St) (h : Clean s) : flags (clearZf s) = { flags s with zf := false } := by
  have hc : Clean (clearZf s) := h
  rw [flags_eq hc, flags_eq h]
  have hp : parIdx (clearZf s) = parIdx s := by unfold parIdx clearZf; bits8
  rw [hp]
  simp only [clearZf, or100_ne]
  simp

/-- C27: setting ZF (succeeding VERR, VERW, ARPL, CMPXCHG8B) changes only ZF. -/
theorem C27_set_zf (s : St) (h : Clean s) : flags (setZf s) = { flags s with zf := true } := by
  have hc : Clean (setZf s) := h
  rw [flags_eq hc, flags_eq h]
  have hp : parIdx (setZf s) = parIdx s := by unfold parIdx setZf ldSf; bits8
  rw [hp]
  simp [setZf, ldSf]

/-- C27: CLC changes only CF. -/
theorem C27_clc (s : St) (h : Clean s) : flags (clcOp s) = { flags s with cf := false } := by
  have hc : Clean (clcOp s) := h
  rw [flags_eq hc, flags_eq h]
  have hp : parIdx (clcOp s) = parIdx s := by
    unfold parIdx clcOp; rw [ldOf_bits]; cases s.aux.getLsbD 31 ^^ s.aux.getLsbD 30 <;> bits8
  rw [hp]
  simp only [clcOp, ldOf_bits]
  cases h1 : s.aux.getLsbD 31 <;> cases h0 : s.aux.getLsbD 30 <;> simp at h1 h0 <;> simp

/-- C27: STC changes only CF. -/
theorem C27_stc (s : St) (h : Clean s) : flags (stcOp s) = { flags s with cf := true } := by
  have hc : Clean (stcOp s) := h
  rw [flags_eq hc, flags_eq h]
  have hp : parIdx (stcOp s) = parIdx s := by
    unfold parIdx stcOp; rw [ldOf_bits]; cases s.aux.getLsbD 31 ^^ s.aux.getLsbD 30 <;> bits8
  rw [hp]
  simp only [stcOp, ldOf_bits]
  cases h1 : s.aux.getLsbD 31 <;> cases h0 : s.aux.getLsbD 30 <;> simp at h1 h0 <;> simp

/-- C27: CMC changes only CF, to its complement. -/
theorem C27_cmc (s : St) (h : Clean s) : flags (cmcOp s) = { flags s with cf := !(flags s).cf } := by
  have hc : Clean (cmcOp s) := h
  rw [flags_eq hc, flags_eq h]
  have hp : parIdx (cmcOp s) = parIdx s := by
    unfold parIdx cmcOp; rw [ldOf_bits]; cases s.aux.getLsbD 31 ^^ s.aux.getLsbD 30 <;> bits8
  rw [hp]
  simp only [cmcOp, ldOf_bits]
  cases h1 : s.aux.getLsbD 31 <;> cases h0 : s.aux.getLsbD 30 <;> simp at h1 h0 <;> simp [h1, h0]

/-- C27: none of these touches the flags that are not arithmetic. -/
theorem C27_rest_unchanged (s : St) :
    (clearZf s).eflags = s.eflags ∧ (setZf s).eflags = s.eflags ∧ (clcOp s).eflags = s.eflags ∧
    (stcOp s).eflags = s.eflags ∧ (cmcOp s).eflags = s.eflags := by
  simp [clearZf, setZf, clcOp, stcOp, cmcOp]

/-- C27, the other direction: changing any of the flags that are not arithmetic (CLI, STI, CLD, STD
and everything else that only writes the stored word) leaves the arithmetic flags as they were. -/
theorem C27_system_flags (s : St) (h : Clean s) (e : BitVec 32) (he : e &&& 0x8D5#32 = 0#32) :
    flags { s with eflags := e } = flags s := by
  have hc : Clean { s with eflags := e } := he
  rw [flags_eq hc, flags_eq h]
  rfl

-- The hypotheses are met by a state with every arithmetic flag set.
example : flags (writeEflags ⟨2#32, 0x100#32, 0#32⟩ 0x8D5#32 true) = ⟨true, true, true, true, true, true⟩ := by
  decide +kernel
example : flags (clearZf (writeEflags ⟨2#32, 0x100#32, 0#32⟩ 0x8D5#32 true)) =
    ⟨true, true, true, false, true, true⟩ := by decide +kernel

end Verif.Flags
