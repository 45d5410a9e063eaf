import Verif.Model.Ints
/-
C45: the interrupt line, exit requests and deferred requests are never lost, and hardware interrupts are
delivered only with IF set. C71: HLT.
-/
namespace Verif.Ints

variable {ρ : Type}

/-- A cpu before it runs for the first time. -/
def boot (ifl : Bool) (a20 : BitVec 32) : St ρ :=
  { ints := 0#32, ifl := ifl, a20 := a20, newA20 := a20, changed := [], space := [], updated := [], handlers := [], isDb := false,
    ran := false, phase := .run, log := [] }

/-- The level of the interrupt line according to the client's calls. -/
def lineUp (as : List (Act ρ)) : Bool :=
  as.foldl (fun b a => match a with | .raiseLine => true | .lowerLine => false | _ => b) false

theorem run_append (s : St ρ) (as bs : List (Act ρ)) : run s (as ++ bs) = run (run s as) bs := List.foldl_append

theorem run_cons (s : St ρ) (a : Act ρ) (as : List (Act ρ)) : run s (a :: as) = run (step s a) as := rfl

theorem has_bit (x : BitVec 32) (i : Nat) (m : BitVec 32) (hi : i < 32) (hm : m = 1#32 <<< i) : has x m = x.getLsbD i := by
  subst hm
  unfold has
  cases h : x.getLsbD i with
  | false =>
    have : x &&& (1#32 <<< i) = 0#32 := by
      apply BitVec.eq_of_getLsbD_eq
      intro j hj
      by_cases hij : j = i
      · subst hij; simp [h]
      · simp only [BitVec.getLsbD_and, BitVec.getLsbD_shiftLeft, BitVec.getLsbD_zero, BitVec.getLsbD_one]
        have : ¬ (j - i = 0 ∧ ¬ j < i) := by omega
        simp
        omega
    rw [this]; rfl
  | true =>
    rw [bne_iff_ne]
    intro hz
    have := congrArg (fun y => y.getLsbD i) hz
    simp [h] at this
    omega

/-- Bit `i` of the event word. -/
def bit (x : BitVec 32) (i : Nat) : Bool := x.getLsbD i

theorem bit_or (x y : BitVec 32) (i : Nat) : bit (x ||| y) i = (bit x i || bit y i) := BitVec.getLsbD_or
theorem bit_and (x y : BitVec 32) (i : Nat) : bit (x &&& y) i = (bit x i && bit y i) := BitVec.getLsbD_and
theorem bit_zero (i : Nat) : bit 0#32 i = false := BitVec.getLsbD_zero
@[simp] theorem bit_HALT_TC_0 : bit HALT_TC 0 = true := rfl
@[simp] theorem bit_not_HALT_TC_0 : bit (~~~HALT_TC) 0 = false := rfl
@[simp] theorem bit_HALT_TC_1 : bit HALT_TC 1 = false := rfl
@[simp] theorem bit_not_HALT_TC_1 : bit (~~~HALT_TC) 1 = true := rfl
@[simp] theorem bit_HALT_TC_2 : bit HALT_TC 2 = false := rfl
@[simp] theorem bit_not_HALT_TC_2 : bit (~~~HALT_TC) 2 = true := rfl
@[simp] theorem bit_HALT_TC_3 : bit HALT_TC 3 = false := rfl
@[simp] theorem bit_not_HALT_TC_3 : bit (~~~HALT_TC) 3 = true := rfl
@[simp] theorem bit_HALT_TC_5 : bit HALT_TC 5 = false := rfl
@[simp] theorem bit_not_HALT_TC_5 : bit (~~~HALT_TC) 5 = true := rfl
@[simp] theorem bit_HALT_TC_6 : bit HALT_TC 6 = false := rfl
@[simp] theorem bit_not_HALT_TC_6 : bit (~~~HALT_TC) 6 = true := rfl
@[simp] theorem bit_HALT_TC_7 : bit HALT_TC 7 = false := rfl
@[simp] theorem bit_not_HALT_TC_7 : bit (~~~HALT_TC) 7 = true := rfl
@[simp] theorem bit_HALT_TC_8 : bit HALT_TC 8 = false := rfl
@[simp] theorem bit_not_HALT_TC_8 : bit (~~~HALT_TC) 8 = true := rfl
@[simp] theorem bit_HALT_TC_9 : bit HALT_TC 9 = false := rfl
@[simp] theorem bit_not_HALT_TC_9 : bit (~~~HALT_TC) 9 = true := rfl
@[simp] theorem bit_ABORT_0 : bit ABORT 0 = false := rfl
@[simp] theorem bit_not_ABORT_0 : bit (~~~ABORT) 0 = true := rfl
@[simp] theorem bit_ABORT_1 : bit ABORT 1 = true := rfl
@[simp] theorem bit_not_ABORT_1 : bit (~~~ABORT) 1 = false := rfl
@[simp] theorem bit_ABORT_2 : bit ABORT 2 = false := rfl
@[simp] theorem bit_not_ABORT_2 : bit (~~~ABORT) 2 = true := rfl
@[simp] theorem bit_ABORT_3 : bit ABORT 3 = false := rfl
@[simp] theorem bit_not_ABORT_3 : bit (~~~ABORT) 3 = true := rfl
@[simp] theorem bit_ABORT_5 : bit ABORT 5 = false := rfl
@[simp] theorem bit_not_ABORT_5 : bit (~~~ABORT) 5 = true := rfl
@[simp] theorem bit_ABORT_6 : bit ABORT 6 = false := rfl
@[simp] theorem bit_not_ABORT_6 : bit (~~~ABORT) 6 = true := rfl
@[simp] theorem bit_ABORT_7 : bit ABORT 7 = false := rfl
@[simp] theorem bit_not_ABORT_7 : bit (~~~ABORT) 7 = true := rfl
@[simp] theorem bit_ABORT_8 : bit ABORT 8 = false := rfl
@[simp] theorem bit_not_ABORT_8 : bit (~~~ABORT) 8 = true := rfl
@[simp] theorem bit_ABORT_9 : bit ABORT 9 = false := rfl
@[simp] theorem bit_not_ABORT_9 : bit (~~~ABORT) 9 = true := rfl
@[simp] theorem bit_A20_0 : bit A20 0 = false := rfl
@[simp] theorem bit_not_A20_0 : bit (~~~A20) 0 = true := rfl
@[simp] theorem bit_A20_1 : bit A20 1 = false := rfl
@[simp] theorem bit_not_A20_1 : bit (~~~A20) 1 = true := rfl
@[simp] theorem bit_A20_2 : bit A20 2 = true := rfl
@[simp] theorem bit_not_A20_2 : bit (~~~A20) 2 = false := rfl
@[simp] theorem bit_A20_3 : bit A20 3 = false := rfl
@[simp] theorem bit_not_A20_3 : bit (~~~A20) 3 = true := rfl
@[simp] theorem bit_A20_5 : bit A20 5 = false := rfl
@[simp] theorem bit_not_A20_5 : bit (~~~A20) 5 = true := rfl
@[simp] theorem bit_A20_6 : bit A20 6 = false := rfl
@[simp] theorem bit_not_A20_6 : bit (~~~A20) 6 = true := rfl
@[simp] theorem bit_A20_7 : bit A20 7 = false := rfl
@[simp] theorem bit_not_A20_7 : bit (~~~A20) 7 = true := rfl
@[simp] theorem bit_A20_8 : bit A20 8 = false := rfl
@[simp] theorem bit_not_A20_8 : bit (~~~A20) 8 = true := rfl
@[simp] theorem bit_A20_9 : bit A20 9 = false := rfl
@[simp] theorem bit_not_A20_9 : bit (~~~A20) 9 = true := rfl
@[simp] theorem bit_REGION_0 : bit REGION 0 = false := rfl
@[simp] theorem bit_not_REGION_0 : bit (~~~REGION) 0 = true := rfl
@[simp] theorem bit_REGION_1 : bit REGION 1 = false := rfl
@[simp] theorem bit_not_REGION_1 : bit (~~~REGION) 1 = true := rfl
@[simp] theorem bit_REGION_2 : bit REGION 2 = false := rfl
@[simp] theorem bit_not_REGION_2 : bit (~~~REGION) 2 = true := rfl
@[simp] theorem bit_REGION_3 : bit REGION 3 = true := rfl
@[simp] theorem bit_not_REGION_3 : bit (~~~REGION) 3 = false := rfl
@[simp] theorem bit_REGION_5 : bit REGION 5 = false := rfl
@[simp] theorem bit_not_REGION_5 : bit (~~~REGION) 5 = true := rfl
@[simp] theorem bit_REGION_6 : bit REGION 6 = false := rfl
@[simp] theorem bit_not_REGION_6 : bit (~~~REGION) 6 = true := rfl
@[simp] theorem bit_REGION_7 : bit REGION 7 = false := rfl
@[simp] theorem bit_not_REGION_7 : bit (~~~REGION) 7 = true := rfl
@[simp] theorem bit_REGION_8 : bit REGION 8 = false := rfl
@[simp] theorem bit_not_REGION_8 : bit (~~~REGION) 8 = true := rfl
@[simp] theorem bit_REGION_9 : bit REGION 9 = false := rfl
@[simp] theorem bit_not_REGION_9 : bit (~~~REGION) 9 = true := rfl
@[simp] theorem bit_SUSPEND_0 : bit SUSPEND 0 = false := rfl
@[simp] theorem bit_not_SUSPEND_0 : bit (~~~SUSPEND) 0 = true := rfl
@[simp] theorem bit_SUSPEND_1 : bit SUSPEND 1 = false := rfl
@[simp] theorem bit_not_SUSPEND_1 : bit (~~~SUSPEND) 1 = true := rfl
@[simp] theorem bit_SUSPEND_2 : bit SUSPEND 2 = false := rfl
@[simp] theorem bit_not_SUSPEND_2 : bit (~~~SUSPEND) 2 = true := rfl
@[simp] theorem bit_SUSPEND_3 : bit SUSPEND 3 = false := rfl
@[simp] theorem bit_not_SUSPEND_3 : bit (~~~SUSPEND) 3 = true := rfl
@[simp] theorem bit_SUSPEND_5 : bit SUSPEND 5 = true := rfl
@[simp] theorem bit_not_SUSPEND_5 : bit (~~~SUSPEND) 5 = false := rfl
@[simp] theorem bit_SUSPEND_6 : bit SUSPEND 6 = false := rfl
@[simp] theorem bit_not_SUSPEND_6 : bit (~~~SUSPEND) 6 = true := rfl
@[simp] theorem bit_SUSPEND_7 : bit SUSPEND 7 = false := rfl
@[simp] theorem bit_not_SUSPEND_7 : bit (~~~SUSPEND) 7 = true := rfl
@[simp] theorem bit_SUSPEND_8 : bit SUSPEND 8 = false := rfl
@[simp] theorem bit_not_SUSPEND_8 : bit (~~~SUSPEND) 8 = true := rfl
@[simp] theorem bit_SUSPEND_9 : bit SUSPEND 9 = false := rfl
@[simp] theorem bit_not_SUSPEND_9 : bit (~~~SUSPEND) 9 = true := rfl
@[simp] theorem bit_HANDLER_0 : bit HANDLER 0 = false := rfl
@[simp] theorem bit_not_HANDLER_0 : bit (~~~HANDLER) 0 = true := rfl
@[simp] theorem bit_HANDLER_1 : bit HANDLER 1 = false := rfl
@[simp] theorem bit_not_HANDLER_1 : bit (~~~HANDLER) 1 = true := rfl
@[simp] theorem bit_HANDLER_2 : bit HANDLER 2 = false := rfl
@[simp] theorem bit_not_HANDLER_2 : bit (~~~HANDLER) 2 = true := rfl
@[simp] theorem bit_HANDLER_3 : bit HANDLER 3 = false := rfl
@[simp] theorem bit_not_HANDLER_3 : bit (~~~HANDLER) 3 = true := rfl
@[simp] theorem bit_HANDLER_5 : bit HANDLER 5 = false := rfl
@[simp] theorem bit_not_HANDLER_5 : bit (~~~HANDLER) 5 = true := rfl
@[simp] theorem bit_HANDLER_6 : bit HANDLER 6 = true := rfl
@[simp] theorem bit_not_HANDLER_6 : bit (~~~HANDLER) 6 = false := rfl
@[simp] theorem bit_HANDLER_7 : bit HANDLER 7 = false := rfl
@[simp] theorem bit_not_HANDLER_7 : bit (~~~HANDLER) 7 = true := rfl
@[simp] theorem bit_HANDLER_8 : bit HANDLER 8 = false := rfl
@[simp] theorem bit_not_HANDLER_8 : bit (~~~HANDLER) 8 = true := rfl
@[simp] theorem bit_HANDLER_9 : bit HANDLER 9 = false := rfl
@[simp] theorem bit_not_HANDLER_9 : bit (~~~HANDLER) 9 = true := rfl
@[simp] theorem bit_MASKED_0 : bit MASKED 0 = false := rfl
@[simp] theorem bit_not_MASKED_0 : bit (~~~MASKED) 0 = true := rfl
@[simp] theorem bit_MASKED_1 : bit MASKED 1 = false := rfl
@[simp] theorem bit_not_MASKED_1 : bit (~~~MASKED) 1 = true := rfl
@[simp] theorem bit_MASKED_2 : bit MASKED 2 = false := rfl
@[simp] theorem bit_not_MASKED_2 : bit (~~~MASKED) 2 = true := rfl
@[simp] theorem bit_MASKED_3 : bit MASKED 3 = false := rfl
@[simp] theorem bit_not_MASKED_3 : bit (~~~MASKED) 3 = true := rfl
@[simp] theorem bit_MASKED_5 : bit MASKED 5 = false := rfl
@[simp] theorem bit_not_MASKED_5 : bit (~~~MASKED) 5 = true := rfl
@[simp] theorem bit_MASKED_6 : bit MASKED 6 = false := rfl
@[simp] theorem bit_not_MASKED_6 : bit (~~~MASKED) 6 = true := rfl
@[simp] theorem bit_MASKED_7 : bit MASKED 7 = true := rfl
@[simp] theorem bit_not_MASKED_7 : bit (~~~MASKED) 7 = false := rfl
@[simp] theorem bit_MASKED_8 : bit MASKED 8 = false := rfl
@[simp] theorem bit_not_MASKED_8 : bit (~~~MASKED) 8 = true := rfl
@[simp] theorem bit_MASKED_9 : bit MASKED 9 = false := rfl
@[simp] theorem bit_not_MASKED_9 : bit (~~~MASKED) 9 = true := rfl
@[simp] theorem bit_DBG_TRAP_0 : bit DBG_TRAP 0 = false := rfl
@[simp] theorem bit_not_DBG_TRAP_0 : bit (~~~DBG_TRAP) 0 = true := rfl
@[simp] theorem bit_DBG_TRAP_1 : bit DBG_TRAP 1 = false := rfl
@[simp] theorem bit_not_DBG_TRAP_1 : bit (~~~DBG_TRAP) 1 = true := rfl
@[simp] theorem bit_DBG_TRAP_2 : bit DBG_TRAP 2 = false := rfl
@[simp] theorem bit_not_DBG_TRAP_2 : bit (~~~DBG_TRAP) 2 = true := rfl
@[simp] theorem bit_DBG_TRAP_3 : bit DBG_TRAP 3 = false := rfl
@[simp] theorem bit_not_DBG_TRAP_3 : bit (~~~DBG_TRAP) 3 = true := rfl
@[simp] theorem bit_DBG_TRAP_5 : bit DBG_TRAP 5 = false := rfl
@[simp] theorem bit_not_DBG_TRAP_5 : bit (~~~DBG_TRAP) 5 = true := rfl
@[simp] theorem bit_DBG_TRAP_6 : bit DBG_TRAP 6 = false := rfl
@[simp] theorem bit_not_DBG_TRAP_6 : bit (~~~DBG_TRAP) 6 = true := rfl
@[simp] theorem bit_DBG_TRAP_7 : bit DBG_TRAP 7 = false := rfl
@[simp] theorem bit_not_DBG_TRAP_7 : bit (~~~DBG_TRAP) 7 = true := rfl
@[simp] theorem bit_DBG_TRAP_8 : bit DBG_TRAP 8 = true := rfl
@[simp] theorem bit_not_DBG_TRAP_8 : bit (~~~DBG_TRAP) 8 = false := rfl
@[simp] theorem bit_DBG_TRAP_9 : bit DBG_TRAP 9 = false := rfl
@[simp] theorem bit_not_DBG_TRAP_9 : bit (~~~DBG_TRAP) 9 = true := rfl
@[simp] theorem bit_HW_0 : bit HW 0 = false := rfl
@[simp] theorem bit_not_HW_0 : bit (~~~HW) 0 = true := rfl
@[simp] theorem bit_HW_1 : bit HW 1 = false := rfl
@[simp] theorem bit_not_HW_1 : bit (~~~HW) 1 = true := rfl
@[simp] theorem bit_HW_2 : bit HW 2 = false := rfl
@[simp] theorem bit_not_HW_2 : bit (~~~HW) 2 = true := rfl
@[simp] theorem bit_HW_3 : bit HW 3 = false := rfl
@[simp] theorem bit_not_HW_3 : bit (~~~HW) 3 = true := rfl
@[simp] theorem bit_HW_5 : bit HW 5 = false := rfl
@[simp] theorem bit_not_HW_5 : bit (~~~HW) 5 = true := rfl
@[simp] theorem bit_HW_6 : bit HW 6 = false := rfl
@[simp] theorem bit_not_HW_6 : bit (~~~HW) 6 = true := rfl
@[simp] theorem bit_HW_7 : bit HW 7 = false := rfl
@[simp] theorem bit_not_HW_7 : bit (~~~HW) 7 = true := rfl
@[simp] theorem bit_HW_8 : bit HW 8 = false := rfl
@[simp] theorem bit_not_HW_8 : bit (~~~HW) 8 = true := rfl
@[simp] theorem bit_HW_9 : bit HW 9 = true := rfl
@[simp] theorem bit_not_HW_9 : bit (~~~HW) 9 = false := rfl
theorem bit_not_0 (x : BitVec 32) : bit (~~~x) 0 = !bit x 0 := by simp [bit]
theorem bit_not_1 (x : BitVec 32) : bit (~~~x) 1 = !bit x 1 := by simp [bit]
theorem bit_not_2 (x : BitVec 32) : bit (~~~x) 2 = !bit x 2 := by simp [bit]
theorem bit_not_3 (x : BitVec 32) : bit (~~~x) 3 = !bit x 3 := by simp [bit]
theorem bit_not_5 (x : BitVec 32) : bit (~~~x) 5 = !bit x 5 := by simp [bit]
theorem bit_not_6 (x : BitVec 32) : bit (~~~x) 6 = !bit x 6 := by simp [bit]
theorem bit_not_7 (x : BitVec 32) : bit (~~~x) 7 = !bit x 7 := by simp [bit]
theorem bit_not_8 (x : BitVec 32) : bit (~~~x) 8 = !bit x 8 := by simp [bit]
theorem bit_not_9 (x : BitVec 32) : bit (~~~x) 9 = !bit x 9 := by simp [bit]
theorem has_HALT_TC (x : BitVec 32) : has x HALT_TC = bit x 0 := has_bit x 0 _ (by omega) rfl
theorem has_ABORT (x : BitVec 32) : has x ABORT = bit x 1 := has_bit x 1 _ (by omega) rfl
theorem has_A20 (x : BitVec 32) : has x A20 = bit x 2 := has_bit x 2 _ (by omega) rfl
theorem has_REGION (x : BitVec 32) : has x REGION = bit x 3 := has_bit x 3 _ (by omega) rfl
theorem has_SUSPEND (x : BitVec 32) : has x SUSPEND = bit x 5 := has_bit x 5 _ (by omega) rfl
theorem has_HANDLER (x : BitVec 32) : has x HANDLER = bit x 6 := has_bit x 6 _ (by omega) rfl
theorem has_MASKED (x : BitVec 32) : has x MASKED = bit x 7 := has_bit x 7 _ (by omega) rfl
theorem has_DBG_TRAP (x : BitVec 32) : has x DBG_TRAP = bit x 8 := has_bit x 8 _ (by omega) rfl
theorem has_HW (x : BitVec 32) : has x HW = bit x 9 := has_bit x 9 _ (by omega) rfl

attribute [simp] bit_or bit_and bit_zero

/-- The events collected for clearing. -/
def clrOf : Phase → BitVec 32
  | .busy _ _ clr _ => clr
  | _ => 0#32

/-- How far cpu_do_int has come. -/
def rank : Phase → Nat
  | .busy .dbg _ _ _ => 0
  | .busy .handler _ _ _ => 1
  | .busy .a20 _ _ _ => 2
  | .busy .suspend _ _ _ => 3
  | .busy .clear _ _ _ => 4
  | .busy .hw _ _ _ => 0
  | _ => 0

/-- What holds between any two steps: only events that have been dealt with are going to be cleared. -/
structure Inv (s : St ρ) : Prop where
  line : bit (clrOf s.phase) 9 = false
  abort : bit (clrOf s.phase) 1 = false
  clrRegion : bit (clrOf s.phase) 3 = true → s.changed = [] ∧ 3 ≤ rank s.phase
  clrA20 : bit (clrOf s.phase) 2 = true → s.a20 = s.newA20 ∧ 3 ≤ rank s.phase
  clrHandler : bit (clrOf s.phase) 6 = true → s.updated = [] ∧ 2 ≤ rank s.phase
  region : s.changed ≠ [] → bit s.ints 3 = true
  a20 : s.a20 ≠ s.newA20 → bit s.ints 2 = true

theorem inv_boot (b : Bool) (m : BitVec 32) : Inv (boot b m : St ρ) := by
  constructor <;> simp [boot, clrOf]

theorem rank_callback {p : Phase} (h : inCallback p = true) : rank p = 0 := by
  unfold inCallback at h
  split at h <;> first | rfl | cases h

theorem inv_enter {s : St ρ} (hs : Inv s) (flg : BitVec 32) (h : Bool) : Inv (enter s flg h) := by
  obtain ⟨h1, h2, h3, h4, h5, h6, h7⟩ := hs
  unfold enter
  repeat' split
  all_goals constructor <;> simp +contextual [clear, clrOf, h6, h7]

theorem inv_poll {s : St ρ} (hs : Inv s) : Inv (poll s) := by
  unfold poll
  split
  · have : Inv { s with ran := false } := by
      obtain ⟨h1, h2, h3, h4, h5, h6, h7⟩ := hs
      exact ⟨h1, h2, h3, h4, h5, h6, h7⟩
    split
    · split
      · exact this
      · exact inv_enter this _ _
    · exact hs
  · exact inv_enter hs _ _
  · exact hs

theorem inv_micro {s : St ρ} (hs : Inv s) (thr nif : Bool) : Inv (micro s thr nif) := by
  unfold micro
  split
  case h_7 => exact hs
  all_goals rename_i hp
  all_goals obtain ⟨h1, h2, h3, h4, h5, h6, h7⟩ := hs
  all_goals rw [hp] at h1 h2 h3 h4 h5
  all_goals simp only [clrOf, rank] at h1 h2 h3 h4 h5
  case h_5 =>
    rename_i flg clr halt
    have hr : s.changed ≠ [] → bit clr 3 = false := by
      intro h; cases hc : bit clr 3 with
      | false => rfl
      | true => exact absurd (h3 hc).1 h
    have ha : s.a20 ≠ s.newA20 → bit clr 2 = false := by
      intro h; cases hc : bit clr 2 with
      | false => rfl
      | true => exact absurd (h4 hc).1 h
    cases halt <;> constructor <;> simp +contextual [clear, clrOf, bit_not_3, bit_not_2, h6, h7, hr, ha]
  all_goals repeat' split
  all_goals constructor <;> simp_all [clrOf, rank]

theorem inv_step {s : St ρ} (hs : Inv s) (a : Act ρ) : Inv (step s a) := by
  cases a with
  | raiseLine =>
    obtain ⟨h1, h2, h3, h4, h5, h6, h7⟩ := hs
    exact ⟨h1, h2, h3, h4, h5, by simpa [step, raise] using h6, by simpa [step, raise] using h7⟩
  | lowerLine =>
    obtain ⟨h1, h2, h3, h4, h5, h6, h7⟩ := hs
    exact ⟨h1, h2, h3, h4, h5, by simpa [step, clear] using h6, by simpa [step, clear] using h7⟩
  | exit =>
    obtain ⟨h1, h2, h3, h4, h5, h6, h7⟩ := hs
    exact ⟨h1, h2, h3, h4, h5, by simpa [step, raise] using h6, by simpa [step, raise] using h7⟩
  | setA20 m =>
    simp only [step]
    split <;> rename_i hc
    · obtain ⟨h1, h2, h3, h4, h5, h6, h7⟩ := hs
      have hr := rank_callback hc
      have hno : ¬bit (clrOf s.phase) 2 = true := fun hb => by have := (h4 hb).2; omega
      split
      · exact ⟨h1, h2, h3, fun hb => (hno hb).elim, h5, by simpa [raise] using h6, by simp [raise]⟩
      · rename_i he
        exact ⟨h1, h2, h3, fun hb => (hno hb).elim, h5, h6, fun hh => absurd (Classical.not_not.1 he) hh⟩
    · exact hs
  | region r =>
    simp only [step]
    split <;> rename_i hc
    · obtain ⟨h1, h2, h3, h4, h5, h6, h7⟩ := hs
      have hr := rank_callback hc
      have hno : ¬bit (clrOf s.phase) 3 = true := fun hb => by have := (h3 hb).2; omega
      exact ⟨h1, h2, fun hb => (hno hb).elim, h4, h5, by simp [raise], by simpa [raise] using h7⟩
    · exact hs
  | handler r now =>
    simp only [step]
    split <;> rename_i hc
    · obtain ⟨h1, h2, h3, h4, h5, h6, h7⟩ := hs
      have hr := rank_callback hc
      have hno : ¬bit (clrOf s.phase) 6 = true := fun hb => by have := (h5 hb).2; omega
      cases now
      · exact ⟨h1, h2, h3, h4, fun hb => (hno hb).elim, h6, h7⟩
      · exact ⟨h1, h2, h3, h4, fun hb => (hno hb).elim, by simpa [raise] using h6, by simpa [raise] using h7⟩
    · exact hs
  | handlersNow =>
    simp only [step]
    split
    · obtain ⟨h1, h2, h3, h4, h5, h6, h7⟩ := hs
      exact ⟨h1, h2, h3, h4, h5, by simpa [raise] using h6, by simpa [raise] using h7⟩
    · exact hs
  | exec i =>
    simp only [step]
    split <;> rename_i hp
    · obtain ⟨h1, h2, h3, h4, h5, h6, h7⟩ := hs
      cases i with
      | sti =>
        simp only [exec]
        split <;> constructor <;> simp +contextual [raise, hp, clrOf, h6, h7]
      | _ => constructor <;> simp +contextual [exec, raise, hp, clrOf, h6, h7]
    · exact hs
  | poll => exact inv_poll hs
  | micro t n => exact inv_micro hs t n
  | start =>
    simp only [step]
    split
    · obtain ⟨h1, h2, h3, h4, h5, h6, h7⟩ := hs
      constructor <;> simp +contextual [clrOf, h6, h7]
    · exact hs

theorem inv_run {s : St ρ} (hs : Inv s) (as : List (Act ρ)) : Inv (run s as) := by
  induction as generalizing s with
  | nil => exact hs
  | cons a as ih => exact ih (inv_step hs a)

/-! ### the line -/

theorem bits_enter (s : St ρ) (flg : BitVec 32) (h : Bool) : bit (enter s flg h).ints 9 = bit s.ints 9 := by
  unfold enter
  repeat' split
  all_goals simp [clear]

theorem line_micro {s : St ρ} (hs : Inv s) (t n : Bool) : bit (micro s t n).ints 9 = bit s.ints 9 := by
  unfold micro
  split <;> rename_i hp
  case h_5 =>
    have := hs.line
    rw [hp] at this
    simp only [clrOf] at this
    simp [clear, this, bit_not_9]
  all_goals repeat' split
  all_goals rfl

/-- Effect of a step on the line. -/
def lineStep (b : Bool) : Act ρ → Bool
  | .raiseLine => true
  | .lowerLine => false
  | _ => b

theorem line_step {s : St ρ} (hs : Inv s) (a : Act ρ) : bit (step s a).ints 9 = lineStep (bit s.ints 9) a := by
  cases a with
  | poll =>
    simp only [step, poll, lineStep]
    repeat' split
    all_goals first | rfl | exact bits_enter _ _ _
  | micro t n => exact line_micro hs t n
  | exec i =>
    simp only [step, lineStep]
    split
    · cases i <;> simp only [exec]
      case sti => split <;> simp [raise]
      all_goals simp [raise]
    · rfl
  | _ =>
    simp only [step, lineStep]
    repeat' split
    all_goals simp [raise, clear]

theorem lineUp_append (as : List (Act ρ)) (a : Act ρ) : lineUp (as ++ [a]) = lineStep (lineUp as) a := by
  unfold lineUp
  rw [List.foldl_append]
  cases a <;> rfl

/-- Induction on a history from its end. -/
theorem hist_induction {α : Type} {P : List α → Prop} (h0 : P []) (h1 : ∀ as a, P as → P (as ++ [a])) (as : List α) : P as := by
  rw [← List.reverse_reverse as]
  induction as.reverse with
  | nil => exact h0
  | cons a l ih => rw [List.reverse_cons]; exact h1 _ _ ih

/-- C45: whatever the cpu does, whatever else is raised and serviced, the pending state of the hardware
interrupt is exactly the level the client last set: raised until lowered. -/
theorem C45_line_is_level (b : Bool) (m : BitVec 32) (as : List (Act ρ)) :
    bit (run (boot b m) as).ints 9 = lineUp as := by
  induction as using hist_induction with
  | h0 => simp [run, boot, lineUp]
  | h1 as a ih =>
    rw [run_append, lineUp_append, ← ih]
    exact line_step (inv_run (inv_boot b m) as) a

/-! ### delivery -/

/-- The state in which a hardware interrupt is about to be delivered. -/
def Delivering (s : St ρ) : Prop := ∃ flg clr h, s.phase = .busy .hw flg clr h

theorem enter_phase (s : St ρ) (flg : BitVec 32) (h : Bool) :
    (enter s flg h).log = s.log ∨ (enter s flg h).phase = .stopped := by
  unfold enter
  repeat' split
  all_goals simp

theorem bit_visible (s : St ρ) (i : Nat) (h : bit (visible s) i = true) : bit s.ints i = true := by
  unfold visible at h
  rw [bit_and, Bool.and_eq_true] at h
  exact h.1

theorem enter_hw {s : St ρ} {flg : BitVec 32} {h : Bool} (hd : Delivering (enter s flg h)) :
    s.ifl = true ∧ bit flg 9 = true ∧ (enter s flg h).ifl = s.ifl ∧ (enter s flg h).log = s.log ∧
    bit flg 1 = false ∧ has flg NON_HW = false := by
  unfold enter at hd ⊢
  obtain ⟨f, c, h', hd⟩ := hd
  split at hd
  · simp at hd
  rename_i ha
  split at hd
  · simp at hd
  rename_i hn
  split at hd
  · rename_i hw
    rw [if_neg ha, if_neg hn, if_pos hw]
    rw [Bool.and_eq_true, has_HW] at hw
    rw [has_ABORT] at ha
    exact ⟨hw.2, hw.1, rfl, rfl, by simpa using ha, by simpa using hn⟩
  · cases h <;> simp at hd

/-- Calls that do not come from the cpu's own progress. -/
def client : Act ρ → Prop
  | .setA20 _ => True
  | .region _ => True
  | .handler _ _ => True
  | .handlersNow => True
  | .raiseLine => True
  | .lowerLine => True
  | .exit => True
  | _ => False

theorem client_quiet (s : St ρ) (a : Act ρ) (h : client a) :
    (step s a).phase = s.phase ∧ (step s a).ifl = s.ifl ∧ (step s a).log = s.log := by
  cases a <;> first | cases h | skip
  all_goals simp only [step]
  all_goals repeat' split
  all_goals exact ⟨rfl, rfl, rfl⟩

/-- A step into or within `Delivering`. -/
theorem delivering_step {s : St ρ} {a : Act ρ} (hd : Delivering (step s a)) :
    (Delivering s ∧ (step s a).ifl = s.ifl ∧ (step s a).log = s.log) ∨
    (a = .poll ∧ bit s.ints 9 = true ∧ s.ifl = true ∧ (step s a).ifl = true ∧ (step s a).log = s.log) := by
  cases a with
  | poll =>
    simp only [step, poll] at hd ⊢
    split at hd
    · rename_i hp
      split at hd
      · rename_i hr
        split at hd
        · obtain ⟨f, c, h', hd⟩ := hd
          simp [hp] at hd
        · rename_i hv
          rw [if_pos hr, if_neg hv]
          have := enter_hw hd
          exact .inr ⟨trivial, bit_visible s 9 this.2.1, this.1, by rw [this.2.2.1]; exact this.1, this.2.2.2.1⟩
      · obtain ⟨f, c, h', hd⟩ := hd
        simp [hp] at hd
    · have := enter_hw hd
      exact .inr ⟨trivial, this.2.1, this.1, by rw [this.2.2.1]; exact this.1, this.2.2.2.1⟩
    · exact .inl ⟨hd, rfl, rfl⟩
  | micro t n =>
    exfalso
    obtain ⟨f, c, h', hd⟩ := hd
    simp only [step, micro] at hd
    split at hd
    case h_7 hno => exact hno _ _ _ hd
    all_goals repeat' split at hd
    all_goals simp at hd
    all_goals split at hd <;> simp at hd
  | exec i =>
    simp only [step] at hd ⊢
    split at hd <;> rename_i hp
    · exfalso
      obtain ⟨f, c, h', hd⟩ := hd
      cases i <;> simp [exec, raise, hp] at hd
      split at hd <;> simp at hd
    · rw [if_neg hp]
      exact .inl ⟨hd, rfl, rfl⟩
  | start =>
    simp only [step] at hd ⊢
    split at hd <;> rename_i hp
    · obtain ⟨f, c, h', hd⟩ := hd
      simp at hd
    · rw [if_neg hp]
      exact .inl ⟨hd, rfl, rfl⟩
  | setA20 m =>
    have hc := client_quiet s (.setA20 m) trivial
    refine .inl ⟨?_, hc.2.1, hc.2.2⟩
    unfold Delivering at hd ⊢
    rwa [hc.1] at hd
  | region r =>
    have hc := client_quiet s (.region r) trivial
    refine .inl ⟨?_, hc.2.1, hc.2.2⟩
    unfold Delivering at hd ⊢
    rwa [hc.1] at hd
  | handler r now =>
    have hc := client_quiet s (.handler r now) trivial
    refine .inl ⟨?_, hc.2.1, hc.2.2⟩
    unfold Delivering at hd ⊢
    rwa [hc.1] at hd
  | handlersNow =>
    have hc := client_quiet s .handlersNow trivial
    refine .inl ⟨?_, hc.2.1, hc.2.2⟩
    unfold Delivering at hd ⊢
    rwa [hc.1] at hd
  | raiseLine => exact .inl ⟨hd, rfl, rfl⟩
  | lowerLine => exact .inl ⟨hd, rfl, rfl⟩
  | exit => exact .inl ⟨hd, rfl, rfl⟩

/-- The interrupt is in the log of delivered events only after the step that delivers it. -/
theorem hw_logged {s : St ρ} {a : Act ρ} (h : (step s a).log = s.log ++ [.hw]) : Delivering s := by
  cases a with
  | poll =>
    simp only [step, poll] at h
    repeat' split at h
    all_goals first
      | (simp at h; done)
      | (unfold enter at h; repeat' split at h) 
    all_goals simp at h
  | micro t n =>
    simp only [step, micro] at h
    split at h
    case h_6 flg clr halt hp => exact ⟨_, _, _, hp⟩
    all_goals repeat' split at h
    all_goals simp [clear] at h
  | exec i =>
    simp only [step] at h
    split at h
    · cases i <;> simp [exec, raise] at h
      split at h <;> simp at h
    · simp at h
  | start =>
    simp only [step] at h
    split at h <;> simp at h
  | raiseLine => simp [step, raise] at h
  | lowerLine => simp [step, clear] at h
  | exit => simp [step, raise] at h
  | setA20 m => simp [(client_quiet s (.setA20 m) trivial).2.2] at h
  | region m => simp [(client_quiet s (.region m) trivial).2.2] at h
  | handler m n => simp [(client_quiet s (.handler m n) trivial).2.2] at h
  | handlersNow => simp [(client_quiet s .handlersNow trivial).2.2] at h

/-- C45: a hardware interrupt is delivered only with IF set, and only when the line was up when the events
were last read; no instruction was executed between that reading and the delivery. -/
theorem C45_delivery_needs_if (b : Bool) (m : BitVec 32) (as : List (Act ρ)) (a : Act ρ)
    (h : (run (boot b m) (as ++ [a])).log = (run (boot b m) as).log ++ [.hw]) :
    (run (boot b m) as).ifl = true ∧
    ∃ pre post, as = pre ++ post ∧ lineUp pre = true ∧ (run (boot b m) pre).ifl = true ∧
      (run (boot b m) pre).log = (run (boot b m) as).log := by
  rw [run_append] at h
  have hd : Delivering (run (boot b m) as) := hw_logged h
  clear h
  induction as using hist_induction with
  | h0 => obtain ⟨f, c, h', hd⟩ := hd; simp [run, boot] at hd
  | h1 as x ih =>
    rw [run_append] at hd ⊢
    rcases delivering_step hd with ⟨h1, h2, h3⟩ | ⟨-, h1, h2, h3, h4⟩
    · obtain ⟨hi, pre, post, e, h5, h6, h7⟩ := ih h1
      refine ⟨by rw [show run (run (boot b m) as) [x] = step (run (boot b m) as) x from rfl, h2]; exact hi, pre, post ++ [x], by rw [e, List.append_assoc], h5, h6, ?_⟩
      rw [h7]; exact h3.symm
    · refine ⟨h3, as, [x], rfl, ?_, h2, h4.symm⟩
      rw [← C45_line_is_level b m as]; exact h1

/-! ### exit requests -/

/-- C45: an exit request wins over every other pending event: the next reading of the events stops the cpu,
consumes the exit request and touches nothing else. -/
theorem C45_exit_wins (s : St ρ) (hp : s.phase = .run ∧ s.ran = true ∨ s.phase = .hlt) (h : bit s.ints 1 = true) :
    (step s .poll).phase = .stopped ∧ (step s .poll).log = s.log ++ [.exited] ∧
    (step s .poll).ints = s.ints &&& ~~~ABORT ∧ (step s .poll).ifl = s.ifl ∧ (step s .poll).a20 = s.a20 ∧
    (step s .poll).changed = s.changed ∧ (step s .poll).space = s.space ∧ (step s .poll).updated = s.updated ∧
    (step s .poll).handlers = s.handlers := by
  rcases hp with ⟨hp, hr⟩ | hp
  · have hv : bit (visible s) 1 = true := by
      unfold visible
      cases s.ifl <;> simp [h]
      rfl
    have hne : visible s ≠ 0#32 := by
      intro hz; rw [hz] at hv; simp at hv
    simp only [step, poll, hp, hr, if_true, if_neg hne, enter, has_ABORT, hv, true_and]
    exact ⟨rfl, rfl, rfl, rfl, rfl, rfl, rfl⟩
  · simp only [step, poll, hp, enter, has_ABORT, h, if_true, true_and]
    exact ⟨rfl, rfl, rfl, rfl, rfl, rfl, rfl⟩

/-- C45: an exit request stays pending until it has stopped the cpu. -/
theorem C45_exit_kept (b : Bool) (m : BitVec 32) (as : List (Act ρ)) (a : Act ρ) (h : bit (run (boot b m) as).ints 1 = true) :
    bit (run (boot b m) (as ++ [a])).ints 1 = true ∨
    ((run (boot b m) (as ++ [a])).phase = .stopped ∧ (run (boot b m) (as ++ [a])).log = (run (boot b m) as).log ++ [.exited]) := by
  have hs : Inv (run (boot b m) as) := inv_run (inv_boot b m) as
  rw [run_append]
  show bit (step _ a).ints 1 = true ∨ (step _ a).phase = _ ∧ (step _ a).log = _
  generalize run (boot b m) as = s at hs h
  have he : ∀ (t : St ρ) flg hh, t.log = s.log → bit t.ints 1 = true →
      bit (enter t flg hh).ints 1 = true ∨ ((enter t flg hh).phase = .stopped ∧ (enter t flg hh).log = s.log ++ [.exited]) := by
    intro t flg hh hl ht
    unfold enter
    repeat' split
    all_goals simp [ht, hl]
  cases a with
  | poll =>
    simp only [step, poll]
    repeat' split
    · exact .inl h
    · exact he _ _ _ rfl h
    · exact .inl h
    · exact he _ _ _ rfl h
    · exact .inl h
  | micro t n =>
    left
    simp only [step, micro]
    split
    case h_5 hp =>
      have := hs.abort
      rw [hp] at this
      simp only [clrOf] at this
      simp [clear, this, bit_not_1, h]
    all_goals repeat' split
    all_goals exact h
  | exec i =>
    left
    simp only [step]
    split
    · cases i <;> simp only [exec]
      case sti => split <;> simp [raise, h]
      all_goals simp [raise, h]
    · exact h
  | _ =>
    left
    simp only [step]
    repeat' split
    all_goals simp [raise, clear, h]

/-! ### deferred requests -/

/-- The region changes requested in a history, oldest first (requests can only be made where the client
has control: `inCallback`). -/
def requested (s : St ρ) : List (Act ρ) → List ρ
  | [] => []
  | a :: as =>
    (match a with
      | .region r => if inCallback s.phase then [r] else []
      | _ => []) ++ requested (step s a) as

/-- The handler updates requested in a history, oldest first. -/
def handlersRequested (s : St ρ) : List (Act ρ) → List ρ
  | [] => []
  | a :: as =>
    (match a with
      | .handler r _ => if inCallback s.phase then [r] else []
      | _ => []) ++ handlersRequested (step s a) as

/-- Region changes and handler updates, done and to do, in order. -/
def allRegions (s : St ρ) : List ρ := s.space ++ s.changed
def allHandlers (s : St ρ) : List ρ := s.handlers ++ s.updated

theorem enter_lists (s : St ρ) (flg : BitVec 32) (h : Bool) :
    (enter s flg h).space = s.space ∧ (enter s flg h).changed = s.changed ∧ (enter s flg h).handlers = s.handlers ∧
    (enter s flg h).updated = s.updated := by
  unfold enter
  repeat' split
  all_goals exact ⟨rfl, rfl, rfl, rfl⟩

theorem lists_step (s : St ρ) (a : Act ρ) :
    allRegions (step s a) = allRegions s ++ requested s [a] ∧ allHandlers (step s a) = allHandlers s ++ handlersRequested s [a] := by
  unfold allRegions allHandlers
  cases a with
  | poll =>
    simp only [step, poll, requested, handlersRequested, List.append_nil]
    repeat' split
    all_goals first
      | exact ⟨rfl, rfl⟩
      | (obtain ⟨h1, h2, h3, h4⟩ := enter_lists { s with ran := false } (visible s) false; rw [h1, h2, h3, h4]; exact ⟨rfl, rfl⟩)
      | (obtain ⟨h1, h2, h3, h4⟩ := enter_lists s s.ints true; rw [h1, h2, h3, h4]; exact ⟨rfl, rfl⟩)
  | micro t n =>
    simp only [step, micro, requested, handlersRequested, List.append_nil]
    repeat' split
    all_goals simp [clear]
  | exec i =>
    simp only [step, requested, handlersRequested, List.append_nil]
    split
    · cases i <;> simp only [exec]
      case sti => split <;> simp [raise]
      all_goals simp [raise]
    · simp
  | region r =>
    simp only [step, requested, handlersRequested, List.append_nil]
    split <;> simp [raise]
  | handler r now =>
    simp only [step, requested, handlersRequested, List.append_nil]
    repeat' split
    all_goals simp [raise]
  | _ =>
    simp only [step, requested, handlersRequested, List.append_nil]
    repeat' split
    all_goals simp [raise, clear]

theorem requested_append (s : St ρ) (as : List (Act ρ)) (a : Act ρ) : requested s (as ++ [a]) = requested s as ++ requested (run s as) [a] := by
  induction as generalizing s with
  | nil => rfl
  | cons x as ih => simp only [List.cons_append, requested, ih, run_cons, List.append_assoc]; rfl

theorem handlersRequested_append (s : St ρ) (as : List (Act ρ)) (a : Act ρ) :
    handlersRequested s (as ++ [a]) = handlersRequested s as ++ handlersRequested (run s as) [a] := by
  induction as generalizing s with
  | nil => rfl
  | cons x as ih => simp only [List.cons_append, handlersRequested, ih, run_cons, List.append_assoc]; rfl

theorem lists_run (b : Bool) (m : BitVec 32) (as : List (Act ρ)) :
    allRegions (run (boot b m) as) = requested (boot b m) as ∧ allHandlers (run (boot b m) as) = handlersRequested (boot b m) as := by
  induction as using hist_induction with
  | h0 => exact ⟨rfl, rfl⟩
  | h1 as a ih =>
    rw [requested_append, handlersRequested_append, run_append]
    have := lists_step (run (boot b m) as) a
    exact ⟨by rw [← ih.1]; exact this.1, by rw [← ih.2]; exact this.2⟩

/-- The A20 state last requested. -/
def lastA20 (s : St ρ) (m : BitVec 32) : List (Act ρ) → BitVec 32
  | [] => m
  | a :: as => lastA20 (step s a) (match a with | .setA20 x => if inCallback s.phase then x else m | _ => m) as

theorem enter_a20 (s : St ρ) (flg : BitVec 32) (h : Bool) : (enter s flg h).newA20 = s.newA20 := by
  unfold enter
  repeat' split
  all_goals rfl

/-- The effect of one step on the A20 state asked for. -/
def a20Step (s : St ρ) (m : BitVec 32) : Act ρ → BitVec 32
  | .setA20 x => if inCallback s.phase then x else m
  | _ => m

theorem a20_step (s : St ρ) (a : Act ρ) : (step s a).newA20 = a20Step s s.newA20 a := by
  cases a with
  | poll =>
    simp only [step, poll, a20Step]
    repeat' split
    all_goals first | rfl | exact enter_a20 _ _ _
  | micro t n =>
    simp only [step, micro, a20Step]
    repeat' split
    all_goals rfl
  | exec i =>
    simp only [step, a20Step]
    split
    · cases i <;> simp only [exec]
      case sti => split <;> rfl
      all_goals rfl
    · rfl
  | _ =>
    simp only [step, a20Step]
    repeat' split
    all_goals rfl

theorem a20_run (s : St ρ) (as : List (Act ρ)) : (run s as).newA20 = lastA20 s s.newA20 as := by
  induction as generalizing s with
  | nil => rfl
  | cons a as ih =>
    rw [run_cons, ih, a20_step]
    cases a <;> rfl

/-- Does this call ask for the waiting handler updates to be made visible? -/
def triggers (s : St ρ) : Act ρ → Bool
  | .handler _ now => now && inCallback s.phase
  | .handlersNow => inCallback s.phase
  | _ => false

/-- The handler updates that have been asked to be made visible: those requested before the last such call. -/
def dueStep (s : St ρ) (all d : List ρ) (a : Act ρ) : List ρ :=
  if triggers s a then all ++ handlersRequested s [a] else d

def due (s : St ρ) (all d : List ρ) : List (Act ρ) → List ρ
  | [] => d
  | a :: as => due (step s a) (all ++ handlersRequested s [a]) (dueStep s all d a) as

/-- How a step changes the handler event and the handlers. -/
theorem handler_step {s : St ρ} (hs : Inv s) (a : Act ρ) :
    (triggers s a = true → bit (step s a).ints 6 = true) ∧
    (bit s.ints 6 = true → bit (step s a).ints 6 = true ∨ (step s a).updated = []) ∧
    s.handlers <+: (step s a).handlers := by
  cases a with
  | poll =>
    refine ⟨fun h => (by cases h), ?_, ?_⟩
    · intro h
      left
      simp only [step, poll]
      repeat' split
      all_goals first
        | exact h
        | (unfold enter; repeat' split) 
      all_goals simp [clear, h]
    · simp only [step, poll]
      repeat' split
      all_goals first
        | exact List.prefix_rfl
        | (rw [(enter_lists _ _ _).2.2.1]; exact List.prefix_rfl)
  | micro t n =>
    refine ⟨fun h => (by cases h), ?_, ?_⟩
    · intro h
      simp only [step, micro]
      split
      case h_5 flg clr halt hp =>
        have := hs.clrHandler
        rw [hp] at this
        simp only [clrOf] at this
        cases hc : bit clr 6 with
        | true => exact .inr (this hc).1
        | false => left; simp [clear, bit_not_6, h, hc]
      all_goals left
      all_goals repeat' split
      all_goals exact h
    · simp only [step, micro]
      repeat' split
      all_goals simp [clear]
  | exec i =>
    refine ⟨fun h => (by cases h), ?_, ?_⟩
    · intro h
      left
      simp only [step]
      split
      · cases i <;> simp only [exec]
        case sti => split <;> simp [raise, h]
        all_goals simp [raise, h]
      · exact h
    · simp only [step]
      split
      · cases i <;> simp only [exec]
        case sti => split <;> simp [raise]
        all_goals simp [raise]
      · simp
  | handler r now =>
    simp only [step, triggers]
    cases now <;> cases hc : inCallback s.phase <;> simp +contextual [raise]
  | handlersNow =>
    simp only [step, triggers]
    cases hc : inCallback s.phase <;> simp +contextual [raise]
  | _ =>
    simp only [step, triggers]
    repeat' split
    all_goals simp +contextual [raise, clear]

theorem due_run {s : St ρ} (hs : Inv s) (all d : List ρ) (hall : allHandlers s = all) (hd : d <+: all)
    (h : bit s.ints 6 = true ∨ d <+: s.handlers) (as : List (Act ρ)) :
    bit (run s as).ints 6 = true ∨ due s all d as <+: (run s as).handlers := by
  induction as generalizing s all d with
  | nil => exact h
  | cons a as ih =>
    rw [run_cons]
    have hst := handler_step hs a
    have hl := (lists_step s a).2
    rw [hall] at hl
    refine ih (inv_step hs a) _ _ hl ?_ ?_
    · unfold dueStep
      split
      · exact List.prefix_rfl
      · exact hd.trans (List.prefix_append _ _)
    · unfold dueStep
      split <;> rename_i ht
      · exact .inl (hst.1 ht)
      · rcases h with h | h
        · rcases hst.2.1 h with h | h
          · exact .inl h
          · right
            unfold allHandlers at hl
            rw [h, List.append_nil] at hl
            rw [hl]
            exact hd.trans (List.prefix_append _ _)
        · exact .inr (h.trans hst.2.2)

/-- C45: no deferred request is dropped, duplicated or reordered, and as long as one is waiting its event is
pending: when the region event is not pending, every requested change has been made, when the handler event
is not pending, every handler update that was to become visible has been made, and when the A20 event is not
pending, the last requested A20 state is in force. -/
theorem C45_no_request_lost (b : Bool) (m : BitVec 32) (as : List (Act ρ)) :
    (∃ rest, requested (boot b m) as = (run (boot b m) as).space ++ rest ∧
      (bit (run (boot b m) as).ints 3 = false → rest = [])) ∧
    (∃ rest, handlersRequested (boot b m) as = (run (boot b m) as).handlers ++ rest ∧
      (bit (run (boot b m) as).ints 6 = false → due (boot b m) [] [] as <+: (run (boot b m) as).handlers)) ∧
    (bit (run (boot b m) as).ints 2 = false → (run (boot b m) as).a20 = lastA20 (boot b m) m as) := by
  have hs : Inv (run (boot b m) as) := inv_run (inv_boot b m) as
  have hl := lists_run b m as
  refine ⟨⟨(run (boot b m) as).changed, hl.1.symm, ?_⟩, ⟨_, hl.2.symm, ?_⟩, ?_⟩
  · intro h
    apply Classical.byContradiction
    intro hc
    rw [hs.region hc] at h
    cases h
  · intro h
    rcases due_run (inv_boot b m) [] [] rfl List.prefix_rfl (.inr List.prefix_rfl) as with h' | h'
    · rw [h'] at h; cases h
    · exact h'
  · intro h
    have ha : (boot b m : St ρ).newA20 = m := rfl
    rw [show lastA20 (boot b m) m as = (run (boot b m) as).newA20 by rw [a20_run, ha]]
    apply Classical.byContradiction
    intro hc
    rw [hs.a20 hc] at h
    cases h

/-! ### progress -/

/-- Calls other threads can make at any moment. -/
def Env (as : List (Act ρ)) : Prop := ∀ a ∈ as, a = .raiseLine ∨ a = .lowerLine ∨ a = .exit

/-- All they can change is the event word, and there only the line and the exit request. -/
theorem env_run (s : St ρ) (as : List (Act ρ)) (h : Env as) :
    ∃ i, run s as = { s with ints := i } ∧ ∀ n, n ≠ 9 → n ≠ 1 → bit i n = bit s.ints n := by
  induction as generalizing s with
  | nil => exact ⟨s.ints, rfl, fun _ _ _ => rfl⟩
  | cons a as ih =>
    obtain ⟨i, h1, h2⟩ := ih (step s a) (fun x hx => h x (List.mem_cons_of_mem _ hx))
    refine ⟨i, ?_, ?_⟩
    · rw [run_cons, h1]
      rcases h a List.mem_cons_self with rfl | rfl | rfl <;> rfl
    · intro n h9 h1'
      rw [h2 n h9 h1']
      have hb : ∀ k, n ≠ k → k < 32 → bit (1#32 <<< k) n = false := by
        intro k hk h32
        unfold bit
        simp only [BitVec.getLsbD_shiftLeft, BitVec.getLsbD_one]
        simp
        omega
      have hn : ∀ k, n ≠ k → k < 32 → (bit s.ints n && bit (~~~(1#32 <<< k)) n) = bit s.ints n := by
        intro k hk h32
        unfold bit
        simp only [BitVec.getLsbD_not]
        have := hb k hk h32
        unfold bit at this
        rw [this]
        cases hx : s.ints.getLsbD n with
        | false => rfl
        | true => simp [BitVec.lt_of_getLsbD hx]
      rcases h a List.mem_cons_self with rfl | rfl | rfl
      · simp only [step, raise, bit_or]
        rw [show HW = 1#32 <<< 9 from rfl, hb 9 h9 (by omega), Bool.or_false]
      · simp only [step, clear, bit_and]
        rw [show HW = 1#32 <<< 9 from rfl]
        exact hn 9 h9 (by omega)
      · simp only [step, raise, bit_or]
        rw [show ABORT = 1#32 <<< 1 from rfl, hb 1 h1' (by omega), Bool.or_false]

/-- C45: with IF set, the line up and nothing else pending, the next reading of the events delivers the
interrupt, whatever other threads do meanwhile. -/
theorem C45_delivered (s : St ρ) (hp : s.phase = .run ∧ s.ran = true ∨ s.phase = .hlt) (hi : s.ifl = true) (h9 : bit s.ints 9 = true)
    (h1 : bit s.ints 1 = false) (hn : has s.ints NON_HW = false) (es : List (Act ρ)) (he : Env es) (nif : Bool) :
    (run s (.poll :: es ++ [.micro false nif])).log = s.log ++ [.hw] ∧ (run s (.poll :: es ++ [.micro false nif])).phase = .run := by
  have hv : visible s = s.ints := by
    unfold visible
    rw [hi, if_pos rfl, show HW ||| ~~~HW = BitVec.allOnes 32 from rfl, BitVec.and_allOnes]
  have hne : s.ints ≠ 0#32 := by
    intro hz; rw [hz] at h9; simp at h9
  have hpoll : ∃ r flg h, step s .poll = { s with ran := r, phase := .busy .hw flg 0#32 h } := by
    rcases hp with ⟨hp, hr⟩ | hp
    · refine ⟨false, s.ints, false, ?_⟩
      simp only [step, poll, hp, hr, hv, if_neg hne, if_true, enter, has_ABORT, h1, hn, has_HW, h9, hi]
      simp
    · refine ⟨s.ran, s.ints, true, ?_⟩
      simp only [step, poll, hp, enter, has_ABORT, h1, hn, has_HW, h9, hi]
      simp
  obtain ⟨r, flg, h, hpoll⟩ := hpoll
  rw [List.cons_append, run_cons, run_append, hpoll]
  obtain ⟨i, hr, -⟩ := env_run { s with ran := r, phase := .busy .hw flg 0#32 h } es he
  rw [hr]
  exact ⟨rfl, rfl⟩

/-- Progress of a service begun in state `s0` with events `flg`, at stage `k`. -/
structure At (s0 : St ρ) (flg : BitVec 32) (k : Nat) (s : St ρ) : Prop where
  phase : ∃ st clr h, s.phase = .busy st flg clr h ∧ st ≠ .hw ∧ rank s.phase = k ∧ bit clr 0 = true ∧ bit clr 7 = true ∧
    (0 < k → bit flg 8 = true → bit clr 8 = true) ∧ (1 < k → bit flg 6 = true → bit clr 6 = true) ∧
    (2 < k → bit flg 3 = true → bit clr 3 = true) ∧ (2 < k → bit flg 2 = true → bit clr 2 = true) ∧
    (3 < k → bit flg 5 = true → bit clr 5 = true)
  newA20 : s.newA20 = s0.newA20
  handlers0 : k ≤ 1 → s.handlers = s0.handlers ∧ s.updated = s0.updated
  handlers1 : 1 < k → bit flg 6 = true → s.handlers = s0.handlers ++ s0.updated ∧ s.updated = []
  regions0 : k ≤ 2 → s.space = s0.space ∧ s.changed = s0.changed
  regions1 : 2 < k → bit flg 3 = true → s.space = s0.space ++ s0.changed ∧ s.changed = []
  a20 : 2 < k → bit flg 2 = true → s.a20 = s0.newA20
  kept : ∀ n, n ≠ 9 → n ≠ 1 → bit s.ints n = bit s0.ints n

theorem at_env {s0 : St ρ} {flg : BitVec 32} {k : Nat} {s : St ρ} (h : At s0 flg k s) {es : List (Act ρ)} (he : Env es) :
    At s0 flg k (run s es) := by
  obtain ⟨i, hr, hb⟩ := env_run s es he
  rw [hr]
  obtain ⟨a1, a2, a3, a4, a5, a6, a7, a8⟩ := h
  exact ⟨a1, a2, a3, a4, a5, a6, a7, fun n h9 h1 => (hb n h9 h1).trans (a8 n h9 h1)⟩

theorem at_micro {s0 : St ρ} {flg : BitVec 32} {k : Nat} {s : St ρ} (hk : k < 4) (h : At s0 flg k s) (n : Bool) :
    At s0 flg (k + 1) (step s (.micro false n)) := by
  obtain ⟨⟨st, clr, hh, hp, hst, hrk, c0, c7, c8, c6, c3, c2, c5⟩, b1, b2, b3, b4, b5, b6, b7⟩ := h
  rw [hp] at hrk
  cases st <;> simp only [rank] at hrk <;> subst hrk
  all_goals simp only [step, micro, hp, has_DBG_TRAP, has_HANDLER, has_A20, has_REGION, has_SUSPEND, Bool.false_eq_true, if_false]
  · -- debug trap
    have hb2 := b2 (by omega); have hb4 := b4 (by omega)
    repeat' split
    all_goals refine ⟨⟨.handler, _, hh, rfl, by decide, rfl, ?_, ?_, ?_, ?_, ?_, ?_, ?_⟩, b1, fun _ => hb2, fun h => by omega, fun _ => hb4,
      fun h => by omega, fun h => by omega, b7⟩
    all_goals simp_all
  · have hb2 := b2 (by omega); have hb4 := b4 (by omega)
    have hc8 := c8 (by omega)
    split <;> rename_i hf
    all_goals refine ⟨⟨.a20, _, hh, rfl, by decide, rfl, ?_, ?_, ?_, ?_, ?_, ?_, ?_⟩, b1, fun h => by omega, fun _ hx => ?_, fun _ => hb4,
      fun h => by omega, fun h => by omega, b7⟩
    all_goals simp_all
  · have hb3 := b3 (by omega); have hb4 := b4 (by omega)
    have hc8 := c8 (by omega); have hc6 := c6 (by omega)
    repeat' split
    all_goals refine ⟨⟨.suspend, _, hh, rfl, by decide, rfl, ?_, ?_, ?_, ?_, ?_, ?_, ?_⟩, b1, fun h => by omega, fun _ hx => ?_, fun h => by omega,
      fun _ hx => ?_, fun _ hx => ?_, b7⟩
    all_goals simp_all
  · have hb3 := b3 (by omega); have hb5 := b5 (by omega); have hb6 := b6 (by omega)
    have hc8 := c8 (by omega); have hc6 := c6 (by omega); have hc3 := c3 (by omega); have hc2 := c2 (by omega)
    split
    all_goals refine ⟨⟨.clear, _, hh, rfl, by decide, rfl, ?_, ?_, ?_, ?_, ?_, ?_, ?_⟩, b1, fun h => by omega, fun _ hx => ?_, fun h => by omega,
      fun _ hx => ?_, fun _ hx => ?_, b7⟩
    all_goals simp_all
  · omega
  · exact absurd rfl hst

/-- The events other than the hardware interrupt and the exit request. -/
def nonHw (n : Nat) : Prop := n = 0 ∨ n = 2 ∨ n = 3 ∨ n = 5 ∨ n = 6 ∨ n = 7 ∨ n = 8

/-- C45: a completed service deals with every event that was pending when it began - waiting region changes and
handler updates are made, the requested A20 state takes effect, and none of these events is pending any more -
whatever other threads do meanwhile. (That the line is unaffected is C45_line_is_level.) -/
theorem C45_service_completes (s : St ρ) (hp : s.phase = .run ∧ s.ran = true ∨ s.phase = .hlt) (h1 : bit s.ints 1 = false)
    (hn : ∃ n, nonHw n ∧ bit s.ints n = true) (e0 e1 e2 e3 e4 : List (Act ρ)) (h0 : Env e0) (he1 : Env e1) (he2 : Env e2) (he3 : Env e3)
    (he4 : Env e4) (n0 n1 n2 n3 n4 : Bool) (s' : St ρ)
    (hrun : s' = run s (.poll :: (e0 ++ .micro false n0 :: (e1 ++ .micro false n1 :: (e2 ++ .micro false n2 :: (e3 ++ .micro false n3 ::
      (e4 ++ [.micro false n4]))))))) :
    (s'.phase = .run ∨ s'.phase = .hlt) ∧
    (bit s.ints 3 = true → s'.space = s.space ++ s.changed ∧ s'.changed = []) ∧
    (bit s.ints 6 = true → s'.handlers = s.handlers ++ s.updated ∧ s'.updated = []) ∧
    (bit s.ints 2 = true → s'.a20 = s.newA20) ∧
    ∀ n, nonHw n → bit s'.ints n = false := by
  have hne : visible s ≠ 0#32 := by
    obtain ⟨n, hn, hb⟩ := hn
    intro hz
    have : bit (visible s) n = true := by
      unfold visible
      rw [bit_and, hb, bit_or]
      rcases hn with rfl | rfl | rfl | rfl | rfl | rfl | rfl <;> simp
    rw [hz] at this
    simp at this
  have hnon : ∀ flg, (∀ n, n ≤ 8 → bit flg n = bit s.ints n) → has flg NON_HW = true := by
    intro flg hf
    obtain ⟨n, hn, hb⟩ := hn
    unfold has
    rw [bne_iff_ne]
    intro hz
    have h2 : bit (flg &&& NON_HW) n = true := by
      rw [bit_and, hf n (by unfold nonHw at hn; omega), hb]
      rcases hn with rfl | rfl | rfl | rfl | rfl | rfl | rfl <;> rfl
    rw [hz] at h2
    simp at h2
  have hvis : ∀ n, n ≤ 8 → bit (visible s) n = bit s.ints n := by
    intro n hn
    have : bit (~~~HW) n = true := by
      rcases (by omega : n = 0 ∨ n = 1 ∨ n = 2 ∨ n = 3 ∨ n = 4 ∨ n = 5 ∨ n = 6 ∨ n = 7 ∨ n = 8) with
        rfl | rfl | rfl | rfl | rfl | rfl | rfl | rfl | rfl <;> rfl
    unfold visible
    rw [bit_and, bit_or, this]
    simp
  have hstart : ∃ flg, (∀ n, n ≤ 8 → bit flg n = bit s.ints n) ∧ At s flg 0 (step s .poll) := by
    rcases hp with ⟨hp, hr⟩ | hp
    · refine ⟨visible s, hvis, ?_⟩
      have : step s .poll = { s with ran := false, phase := .busy .dbg (visible s) (MASKED ||| HALT_TC) false } := by
        simp only [step, poll, hp, hr, if_true, if_neg hne, enter, has_ABORT, hvis 1 (by omega), h1, hnon _ hvis]
        simp
      rw [this]
      exact ⟨⟨.dbg, _, _, rfl, by decide, rfl, rfl, rfl, fun h => by omega, fun h => by omega, fun h => by omega, fun h => by omega, fun h => by omega⟩,
        rfl, fun _ => ⟨rfl, rfl⟩, fun h => by omega, fun _ => ⟨rfl, rfl⟩, fun h => by omega, fun h => by omega, fun _ _ _ => rfl⟩
    · refine ⟨s.ints, fun _ _ => rfl, ?_⟩
      have : step s .poll = { s with phase := .busy .dbg s.ints (MASKED ||| HALT_TC) true } := by
        simp only [step, poll, hp, enter, has_ABORT, h1, hnon s.ints (fun _ _ => rfl)]
        simp
      rw [this]
      exact ⟨⟨.dbg, _, _, rfl, by decide, rfl, rfl, rfl, fun h => by omega, fun h => by omega, fun h => by omega, fun h => by omega, fun h => by omega⟩,
        rfl, fun _ => ⟨rfl, rfl⟩, fun h => by omega, fun _ => ⟨rfl, rfl⟩, fun h => by omega, fun h => by omega, fun _ _ _ => rfl⟩
  obtain ⟨flg, hflg, a0⟩ := hstart
  have b0 := at_micro (by omega) (at_env a0 h0) n0
  have b1 := at_micro (by omega) (at_env b0 he1) n1
  have b2 := at_micro (by omega) (at_env b1 he2) n2
  have b3 := at_micro (by omega) (at_env b2 he3) n3
  have b4 := at_env b3 he4
  simp only [run_cons, run_append] at hrun
  have hfin : s' = step (run (step (run (step (run (step (run (step (run (step s .poll) e0) (.micro false n0)) e1) (.micro false n1)) e2) (.micro false n2)) e3) (.micro false n3)) e4) (.micro false n4) := hrun
  clear hrun
  generalize run (step (run (step (run (step (run (step (run (step s .poll) e0) (.micro false n0)) e1) (.micro false n1)) e2) (.micro false n2)) e3) (.micro false n3)) e4 = t at hfin b4
  obtain ⟨⟨st, clr, hh, hp', hst, hrk, c0, c7, c8, c6, c3, c2, c5⟩, d1, d2, d3, d4, d5, d6, d7⟩ := b4
  rw [hp'] at hrk
  cases st <;> simp only [rank] at hrk <;> first | omega | skip
  simp only [step, micro, hp'] at hfin
  subst hfin
  rw [hflg 8 (by omega)] at c8
  rw [hflg 6 (by omega)] at c6 d3
  rw [hflg 3 (by omega)] at c3 d5
  rw [hflg 2 (by omega)] at c2 d6
  rw [hflg 5 (by omega)] at c5
  refine ⟨by cases hh <;> simp, d5 (by omega), d3 (by omega), d6 (by omega), ?_⟩
  have key : ∀ n, n ≤ 8 → n ≠ 1 → (bit s.ints n = true → bit clr n = true) → bit (clear t clr).ints n = false := by
    intro n h8 hn1 hc
    have hk := d7 n (by omega) hn1
    simp only [clear, bit_and]
    rw [hk]
    cases hb : bit s.ints n with
    | false => rfl
    | true =>
      have := hc hb
      unfold bit at this ⊢
      rw [BitVec.getLsbD_not, this]
      simp
  intro n hn
  rcases hn with rfl | rfl | rfl | rfl | rfl | rfl | rfl
  · exact key 0 (by omega) (by omega) (fun _ => c0)
  · exact key 2 (by omega) (by omega) (c2 (by omega))
  · exact key 3 (by omega) (by omega) (c3 (by omega))
  · exact key 5 (by omega) (by omega) (c5 (by omega))
  · exact key 6 (by omega) (by omega) (c6 (by omega))
  · exact key 7 (by omega) (by omega) (fun _ => c7)
  · exact key 8 (by omega) (by omega) (c8 (by omega))

/-! ### the hypotheses are met -/

/-- An exit request that arrives in the middle of a service, and requests made and applied. -/
example : let s := run (boot true 0#32 : St Nat) [.exec (.plain none), .region 1, .region 2, .setA20 5#32, .poll, .micro false false, .exit,
      .micro false false, .micro false false, .micro false false, .micro false false]
    s.space = [1, 2] ∧ s.a20 = 5#32 ∧ bit s.ints 1 = true ∧ s.phase = .run ∧ requested (boot true 0#32) [.exec (.plain none), .region 1, .region 2] = [1, 2] := by
  decide

/-- A state ready for a service with a hardware interrupt waiting behind a region change. -/
example : let s := run (boot true 0#32 : St Nat) [.exec (.plain none), .raiseLine, .region 7]
    s.phase = .run ∧ s.ran = true ∧ bit s.ints 1 = false ∧ nonHw 3 ∧ bit s.ints 3 = true ∧ bit s.ints 9 = true := by
  refine ⟨rfl, rfl, rfl, .inr (.inr (.inl rfl)), rfl, rfl⟩

end Verif.Ints
