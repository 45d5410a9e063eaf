import Verif.Model.Sticky
import Verif.Lemmas.Bits
/-
C63: exception flags are sticky.
-/
namespace Verif.Sticky

/-- C63, the full property for SSE: after any sequence of instructions a flag is set exactly when it
was set before or one of the instructions set it. -/
def SimdSticky (mxcsr : BitVec 32) (l : List (BitVec 32)) : Prop :=
  ∀ i, i < 6 → (simdRun mxcsr l).getLsbD i = (mxcsr.getLsbD i || l.any (fun c => c.getLsbD i))

/-- C63, the full property for the FPU. -/
def FpuSticky (fctrl fstatus exc : BitVec 16) (l : List (BitVec 16)) : Prop :=
  ∀ i, i < 6 → (fpuRun fctrl fstatus exc l).getLsbD i = (fstatus.getLsbD i || l.any (fun c => c.getLsbD i))

theorem six {P : Nat → Prop} (h0 : P 0) (h1 : P 1) (h2 : P 2) (h3 : P 3) (h4 : P 4) (h5 : P 5) :
    ∀ i, i < 6 → P i := by
  intro i hi
  rcases (by omega : i = 0 ∨ i = 1 ∨ i = 2 ∨ i = 3 ∨ i = 4 ∨ i = 5) with rfl | rfl | rfl | rfl | rfl | rfl <;> assumption

theorem simd_bit (mxcsr cur : BitVec 32) : ∀ i, i < 6 → (simdPost mxcsr cur).1.getLsbD i = cur.getLsbD i := by
  apply six <;> simp [simdPost]

theorem simd_high (mxcsr cur : BitVec 32) (i : Nat) (h : 6 ≤ i) :
    (simdPost mxcsr cur).1.getLsbD i = mxcsr.getLsbD i := by
  have h3 : (0x3F#32).getLsbD i = false := by
    have : (0x3F#32).toNat < 2 ^ i := Nat.lt_of_lt_of_le (by decide) (Nat.pow_le_pow_right (by omega) h)
    exact Nat.testBit_lt_two_pow this
  simp only [simdPost, BitVec.getLsbD_or, BitVec.getLsbD_and, BitVec.getLsbD_not, h3]
  by_cases hi : i < 32
  · simp [hi]
  · simp [hi, BitVec.getLsbD_of_ge mxcsr i (by omega)]

/-- C63: every flag the instruction raises is recorded, the rest of MXCSR is untouched, and an
exception is raised exactly when the instruction raised a flag whose mask bit is clear. -/
theorem C63_simd_recorded_partial (mxcsr cur : BitVec 32) :
    (∀ i, i < 6 → cur.getLsbD i = true → (simdPost mxcsr cur).1.getLsbD i = true) ∧
    (∀ i, 6 ≤ i → (simdPost mxcsr cur).1.getLsbD i = mxcsr.getLsbD i) ∧
    ((simdPost mxcsr cur).2 = true ↔ ∃ i, i < 6 ∧ cur.getLsbD i = true ∧ mxcsr.getLsbD (i + 7) = false) := by
  refine ⟨fun i hi h => by rw [simd_bit mxcsr cur i hi]; exact h, simd_high mxcsr cur, ?_⟩
  have hbit : ∀ i, i < 32 → ((~~~(mxcsr >>> 7) &&& 0x3F#32) &&& (cur &&& 0x3F#32)).getLsbD i =
      (decide (i < 6) && cur.getLsbD i && !mxcsr.getLsbD (i + 7)) := by
    intro i hi
    by_cases h6 : i < 6
    · revert i
      intro i hi h6
      revert h6
      revert i
      intro i _
      revert i
      have : ∀ i, i < 6 → ((~~~(mxcsr >>> 7) &&& 0x3F#32) &&& (cur &&& 0x3F#32)).getLsbD i =
          (decide (i < 6) && cur.getLsbD i && !mxcsr.getLsbD (i + 7)) := by
        apply six <;> simp [Bool.and_comm]
      intro i _ h6
      exact this i h6
    · have h3 : (0x3F#32).getLsbD i = false := by
        have : (0x3F#32).toNat < 2 ^ i :=
          Nat.lt_of_lt_of_le (show (0x3F#32).toNat < 2 ^ 6 by decide) (Nat.pow_le_pow_right (by omega) (by omega))
        exact Nat.testBit_lt_two_pow this
      simp [h3, h6]
  simp only [simdPost, bne_iff_ne, ne_eq]
  constructor
  · intro h
    apply Classical.byContradiction
    intro hn
    apply h
    apply BitVec.eq_of_getLsbD_eq
    intro i hi
    rw [hbit i hi, BitVec.getLsbD_zero]
    by_cases h6 : i < 6
    · cases hc : cur.getLsbD i with
      | false => simp
      | true =>
        cases hm : mxcsr.getLsbD (i + 7) with
        | true => simp
        | false => exact absurd ⟨i, h6, hc, hm⟩ hn
    · simp [h6]
  · rintro ⟨i, h6, hc, hm⟩ h
    have := hbit i (by omega)
    rw [h, BitVec.getLsbD_zero, hc, hm] at this
    simp [h6] at this

/-- C63, what the code keeps: after a non empty sequence of SSE instructions the flags are exactly
those of the last one. -/
theorem C63_simd_last_partial (mxcsr : BitVec 32) (l : List (BitVec 32)) (c : BitVec 32) (i : Nat) (hi : i < 6) :
    (simdRun mxcsr (l ++ [c])).getLsbD i = c.getLsbD i := by
  unfold simdRun
  rw [List.foldl_append]
  exact simd_bit _ c i hi

/-- C63, so the property holds of a sequence exactly when its last instruction raised every flag that
any earlier one, or the initial value, had. -/
theorem C63_simd_sticky_iff_partial (mxcsr : BitVec 32) (l : List (BitVec 32)) (c : BitVec 32) :
    SimdSticky mxcsr (l ++ [c]) ↔
      ∀ i, i < 6 → (mxcsr.getLsbD i || l.any (fun c => c.getLsbD i)) = true → c.getLsbD i = true := by
  unfold SimdSticky
  constructor
  · intro h i hi hb
    have := h i hi
    rw [C63_simd_last_partial _ _ _ _ hi] at this
    rw [this, List.any_append, ← Bool.or_assoc, hb]; rfl
  · intro h i hi
    rw [C63_simd_last_partial _ _ _ _ hi, List.any_append, ← Bool.or_assoc]
    have := h i hi
    cases hb : (mxcsr.getLsbD i || l.any (fun c => c.getLsbD i)) with
    | true => rw [this hb]; rfl
    | false => simp

/-- C63, violation: the flag of the first instruction (here the default MXCSR, all masked; a division
by zero followed by an exact operation) is lost. -/
theorem C63_simd_violation : ¬ SimdSticky 0x1F80#32 [4#32, 0#32] ∧ simdRun 0x1F80#32 [4#32, 0#32] = 0x1F80#32 := by
  refine ⟨?_, by decide⟩
  intro h
  exact absurd (h 2 (by omega)) (by decide)

theorem fpu_bit (fctrl fstatus sw exc : BitVec 16) :
    ∀ i, i < 6 → (fpuPost fctrl fstatus sw exc).1.getLsbD i = sw.getLsbD i := by
  apply six <;> (unfold fpuPost; simp only; split <;> simp)

/-- C63: every flag and condition code of the instruction is recorded, TOP, SF and B are untouched, ES
is set when an unmasked exception of interest occurred, and otherwise kept. -/
theorem C63_fpu_recorded_partial (fctrl fstatus sw exc : BitVec 16) :
    let r := fpuPost fctrl fstatus sw exc
    (∀ i, i < 6 → r.1.getLsbD i = sw.getLsbD i) ∧
    (∀ i, i = 8 ∨ i = 9 ∨ i = 10 ∨ i = 14 → r.1.getLsbD i = sw.getLsbD i) ∧
    (∀ i, i = 6 ∨ i = 11 ∨ i = 12 ∨ i = 13 ∨ i = 15 → r.1.getLsbD i = fstatus.getLsbD i) ∧
    r.1.getLsbD 7 = (fstatus.getLsbD 7 || r.2) ∧
    (r.2 = true ↔ ~~~fctrl &&& sw &&& exc ≠ 0#16) := by
  intro r
  refine ⟨fpu_bit fctrl fstatus sw exc, ?_, ?_, ?_, ?_⟩
  · rintro i (rfl | rfl | rfl | rfl) <;> (simp only [r, fpuPost]; split <;> simp)
  · rintro i (rfl | rfl | rfl | rfl | rfl) <;> (simp only [r, fpuPost]; split <;> simp)
  · simp only [r, fpuPost]; split <;> simp
  · simp only [r, fpuPost]; split <;> simp_all

/-- C63, what the code keeps: after a non empty sequence of FPU instructions the exception flags are
exactly those of the last one. -/
theorem C63_fpu_last_partial (fctrl fstatus exc : BitVec 16) (l : List (BitVec 16)) (c : BitVec 16) (i : Nat) (hi : i < 6) :
    (fpuRun fctrl fstatus exc (l ++ [c])).getLsbD i = c.getLsbD i := by
  unfold fpuRun
  rw [List.foldl_append]
  exact fpu_bit _ _ c exc i hi

/-- C63, violation: with the default control word, the division by zero flag is lost after the next
instruction, also when the exception was unmasked and is reported only later by FWAIT. -/
theorem C63_fpu_violation :
    ¬ FpuSticky 0x37F#16 0#16 0x3F#16 [4#16, 0#16] ∧ ¬ FpuSticky 0x37B#16 0#16 0x3F#16 [4#16, 0#16] := by
  constructor <;> intro h <;> exact absurd (h 2 (by omega)) (by decide)

-- A sequence for which the flags are kept, and an unmasked exception.
example : SimdSticky 0x1F80#32 [0x20#32, 0x20#32] := six (by decide) (by decide) (by decide) (by decide) (by decide) (by decide)
example : (simdPost 0x1D80#32 4#32).2 = true ∧ (fpuPost 0x37B#16 0#16 4#16 0x3F#16) = (0x84#16, true) := by decide

end Verif.Sticky
