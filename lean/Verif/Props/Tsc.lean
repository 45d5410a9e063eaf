import Verif.Model.Clock
/-
C54: the guest time stamp counter.
-/
namespace Verif.Clock

/-- Specification: a counter that showed `base` at host microsecond `since` and advances at
733333333 Hz, rounded down. No width, no wrap-around. -/
def ticks (base since now : Nat) : Nat := base + (now - since) * 733333333 / 1000000

/-- Specification of a history: (host time, event) in order, starting from base value `base` at
`since`. A reset restarts the count from the base it had; a restore continues from the snapshot. -/
def ideal : Nat × Nat → List (BitVec 64 × TscOp) → Nat × Nat
  | bs, [] => bs
  | bs, (now, .reset) :: l => ideal (bs.1, now.toNat) l
  | _, (now, .restore v) :: l => ideal (v.toNat, now.toNat) l
  | bs, _ :: l => ideal bs l

/-- The code over the same history. -/
def tscRun (t : Tsc) : List (BitVec 64 × TscOp) → Tsc
  | [] => t
  | (now, op) :: l => tscRun (tscStep t op now) l

/-- Host time never goes back. -/
def Ordered : BitVec 64 → List (BitVec 64 × TscOp) → Prop
  | _, [] => True
  | t, (now, _) :: l => t.toNat ≤ now.toNat ∧ Ordered now l

/-- The latest time of a history. -/
def endTime (t : BitVec 64) : List (BitVec 64 × TscOp) → BitVec 64
  | [] => t
  | (now, _) :: l => endTime now l

theorem rdtsc_toNat (t : Tsc) (now : BitVec 64) (h : t.last.toNat ≤ now.toNat) :
    (rdtsc t now).toNat = ticks t.offset.toNat t.last.toNat now.toNat % 2 ^ 64 := by
  have hs : (now - t.last).toNat = now.toNat - t.last.toNat := by
    rw [BitVec.toNat_sub]
    have := t.last.isLt; have := now.isLt
    omega
  have e1 : (733333333#64).toNat = 733333333 := rfl
  have e2 : (1000000#64).toNat = 1000000 := rfl
  rw [rdtsc, BitVec.toNat_add, muldiv128, BitVec.toNat_ofNat, hs, ticks, e1, e2, Nat.mod_add_mod,
    Nat.add_comm]

/-- C54: RDTSC shows the ideal count, modulo 2^64 (the register wraps after 797 years). -/
theorem C54_reads_ideal (t0 : Tsc) (l : List (BitVec 64 × TscOp)) (ho : Ordered t0.last l)
    (now : BitVec 64) (hn : (endTime t0.last l).toNat ≤ now.toNat) :
    (rdtsc (tscRun t0 l) now).toNat =
      (let bs := ideal (t0.offset.toNat, t0.last.toNat) l
       ticks bs.1 bs.2 now.toNat) % 2 ^ 64 := by
  suffices h : ∀ (l : List (BitVec 64 × TscOp)) (t : Tsc) (cur : BitVec 64), t.last.toNat ≤ cur.toNat →
      Ordered cur l → (endTime cur l).toNat ≤ now.toNat →
      (rdtsc (tscRun t l) now).toNat =
        ticks (ideal (t.offset.toNat, t.last.toNat) l).1 (ideal (t.offset.toNat, t.last.toNat) l).2 now.toNat % 2 ^ 64 from
    h l t0 t0.last (Nat.le_refl _) ho hn
  clear ho hn l
  intro l
  induction l with
  | nil => intro t cur hc _ hn; exact rdtsc_toNat t now (Nat.le_trans hc hn)
  | cons p l ih =>
    intro t cur hc ho hn
    obtain ⟨at_, op⟩ := p
    cases op with
    | reset => exact ih (tscReset t at_) at_ (Nat.le_refl _) ho.2 hn
    | take => exact ih t at_ (Nat.le_trans hc ho.1) ho.2 hn
    | restore v => exact ih (tscLoad t v at_) at_ (Nat.le_refl _) ho.2 hn
    | read => exact ih t at_ (Nat.le_trans hc ho.1) ho.2 hn

theorem ticks_mono (b s m n : Nat) (h : m ≤ n) : ticks b s m ≤ ticks b s n := by
  unfold ticks
  have h1 : m - s ≤ n - s := by omega
  have := Nat.div_le_div_right (c := 1000000) (Nat.mul_le_mul_right 733333333 h1)
  omega

/-- C54: without a restore or reset in between, a later RDTSC never reads less, as long as the count
fits the 64 bit register; and the count advances by the elapsed time at 733333333 Hz. -/
theorem C54_monotone (t : Tsc) (n m : BitVec 64) (h0 : t.last.toNat ≤ n.toNat) (h : n.toNat ≤ m.toNat)
    (hw : t.offset.toNat + (m.toNat - t.last.toNat) * 733333333 / 1000000 < 2 ^ 64) :
    (rdtsc t n).toNat ≤ (rdtsc t m).toNat ∧
    (rdtsc t m).toNat - (rdtsc t n).toNat ≤ (m.toNat - n.toNat) * 733333333 / 1000000 + 1 ∧
    (m.toNat - n.toNat) * 733333333 / 1000000 ≤ (rdtsc t m).toNat - (rdtsc t n).toNat := by
  have hmono := ticks_mono t.offset.toNat t.last.toNat _ _ h
  have hm : ticks t.offset.toNat t.last.toNat m.toNat < 2 ^ 64 := hw
  rw [rdtsc_toNat t n h0, rdtsc_toNat t m (Nat.le_trans h0 h), Nat.mod_eq_of_lt hm,
    Nat.mod_eq_of_lt (Nat.lt_of_le_of_lt hmono hm)]
  unfold ticks
  clear hmono hm hw
  omega

theorem save_eq (t : Tsc) (now : BitVec 64) : tscSave t now = rdtsc t now := by
  unfold tscSave edxEax
  generalize rdtsc t now = v
  apply BitVec.eq_of_getLsbD_eq
  intro i hi
  simp only [BitVec.getLsbD_or, BitVec.getLsbD_shiftLeft, BitVec.getLsbD_setWidth, BitVec.getLsbD_ushiftRight]
  by_cases h : i < 32
  · simp [h, hi]
  · have : i - 32 < 32 := by omega
    have h2 : 32 + (i - 32) = i := by omega
    have h3 : i - 32 < 64 := by omega
    simp only [h, this, h2, h3, hi]
    simp

/-- C54: a snapshot taken at `saveTime` and restored at any later time makes RDTSC continue from
exactly the value it had when the snapshot was taken, whatever ran in between and on whatever cpu
it is restored. -/
theorem C54_continues_from_snapshot (t : Tsc) (saveTime : BitVec 64) (t' : Tsc) (loadTime now : BitVec 64)
    (h : loadTime.toNat ≤ now.toNat) :
    (rdtsc (tscLoad t' (tscSave t saveTime) loadTime) now).toNat =
      ((rdtsc t saveTime).toNat + (now.toNat - loadTime.toNat) * 733333333 / 1000000) % 2 ^ 64 := by
  rw [save_eq]
  exact rdtsc_toNat _ now h

/-- C54: taking a snapshot does not disturb the counter. -/
theorem C54_snapshot_does_not_disturb (t : Tsc) (at_ now : BitVec 64) :
    rdtsc (tscStep t .take at_) now = rdtsc t now := rfl

/-- A counter started at 5 s, read after 3 s and 4 s; snapshot at 4 s, restored at 100 s. -/
example : (rdtsc ⟨0#64, 5000000#64⟩ 8000000#64).toNat = 2199999999 ∧
    (rdtsc ⟨0#64, 5000000#64⟩ 9000000#64).toNat = 2933333332 ∧
    (rdtsc (tscLoad ⟨7#64, 1#64⟩ (tscSave ⟨0#64, 5000000#64⟩ 9000000#64) 100000000#64) 101000000#64).toNat = 3666666665 := by
  decide

example : Ordered 0#64 [(5#64, .read), (9#64, .take), (9#64, .restore 1000#64), (20#64, .reset)] ∧
    ideal (0, 0) [(5#64, .read), (9#64, .take), (9#64, .restore 1000#64), (20#64, .reset)] = (1000, 20) := by
  constructor
  · simp [Ordered]
  · rfl

end Verif.Clock
