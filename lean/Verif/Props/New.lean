import Verif.Model.New
/-
C70: cpu_new checks its parameters and provides the ram asked for.
-/
namespace Verif.New

/-- The host allocator: a block lies inside the address space. -/
def Honest (alloc : BitVec 64 → Option (BitVec 64)) : Prop :=
  ∀ size ptr, alloc size = some ptr → ptr.toNat + size.toNat ≤ 2 ^ 64

/-- The documented parameters: a power of two for the alignment, a size that is not 0 and can be represented with
the extra bytes. -/
def Valid (ramsize align : BitVec 64) : Prop :=
  ramsize ≠ 0#64 ∧ (∃ k, k < 64 ∧ align.toNat = 2 ^ k) ∧ ramsize.toNat + 16 + align.toNat - 1 < 2 ^ 64

theorem and_pred_of_pow {x : BitVec 64} {k : Nat} (h : x.toNat = 2 ^ k) : x &&& (x - 1#64) = 0#64 := by
  have hk : k < 64 := by
    rcases Nat.lt_or_ge k 64 with h1 | h1
    · exact h1
    · have := x.isLt; rw [h] at this
      exact absurd (Nat.pow_le_pow_right (by decide : 0 < 2) h1) (by omega)
  have hp : 0 < 2 ^ k := Nat.pow_pos (by decide)
  apply BitVec.eq_of_toNat_eq
  rw [BitVec.toNat_and, BitVec.toNat_sub, h]
  have e : (2 ^ 64 - (1#64).toNat + 2 ^ k) % 2 ^ 64 = 2 ^ k - 1 := by
    have h2 : 2 ^ k < 2 ^ 64 := Nat.pow_lt_pow_right (by decide) hk
    show (2 ^ 64 - 1 + 2 ^ k) % 2 ^ 64 = 2 ^ k - 1
    omega
  rw [e, Nat.and_two_pow_sub_one_eq_mod]
  simp

/-- Rounding up to a power of two with the mask. -/
theorem round_up {x ptr : BitVec 64} {k : Nat} (hk : k < 64) (h : x.toNat = 2 ^ k) (hw : ptr.toNat + x.toNat ≤ 2 ^ 64) :
    ((ptr + x - 1#64) &&& ~~~(x - 1#64)).toNat = (ptr.toNat + 2 ^ k - 1) / 2 ^ k * 2 ^ k := by
  have hp : 0 < 2 ^ k := Nat.pow_pos (by decide)
  have h2 : 2 ^ k < 2 ^ 64 := Nat.pow_lt_pow_right (by decide) hk
  have hx1 : (x - 1#64).toNat = 2 ^ k - 1 := by
    rw [BitVec.toNat_sub, h]
    show (2 ^ 64 - 1 + 2 ^ k) % 2 ^ 64 = 2 ^ k - 1
    omega
  have hs : (ptr + x - 1#64).toNat = ptr.toNat + 2 ^ k - 1 := by
    rw [BitVec.toNat_sub, BitVec.toNat_add, h]
    show (2 ^ 64 - 1 + (ptr.toNat + 2 ^ k) % 2 ^ 64) % 2 ^ 64 = _
    rw [h] at hw
    omega
  generalize ptr + x - 1#64 = y at hs ⊢
  generalize hm : x - 1#64 = m at hx1 ⊢
  have e : y &&& ~~~m = y - (y &&& m) := by
    have h3 : y = (y &&& ~~~m) + (y &&& m) := by
      have hd : (y &&& ~~~m) &&& (y &&& m) = 0#64 := by
        ext i hi; simp only [BitVec.getElem_and, BitVec.getElem_not, BitVec.getElem_zero]; cases y[i] <;> cases m[i] <;> rfl
      rw [BitVec.add_eq_or_of_and_eq_zero _ _ hd]
      ext i hi; simp
      cases y[i] <;> cases m[i] <;> rfl
    conv => rhs; rw [h3]
    have : ((y &&& ~~~m) + (y &&& m)) &&& m = y &&& m := by rw [← h3]
    rw [this]
    exact (BitVec.add_sub_cancel _ _).symm
  rw [e, BitVec.toNat_sub_of_le, BitVec.toNat_and, hx1, Nat.and_two_pow_sub_one_eq_mod, hs]
  · have := Nat.div_add_mod (ptr.toNat + 2 ^ k - 1) (2 ^ k)
    rw [Nat.mul_comm] at this
    omega
  · rw [BitVec.le_def, BitVec.toNat_and]; exact Nat.and_le_left

/-- C70: for documented parameters cpu_new succeeds whenever the host has the memory. The ram buffer then is
aligned as asked, the requested bytes (and 16 more) lie inside the block allocated, and cpu_free gives back exactly
that block. Missing: parameters outside the documentation that are accepted, see the violations. -/
theorem C70_ram_buffer_partial (alloc : BitVec 64 → Option (BitVec 64)) (ha : Honest alloc) (ramsize align : BitVec 64) (hv : Valid ramsize align) :
    (alloc (allocSize ramsize align) = none → cpuNew alloc ramsize align = (.noMemory, none)) ∧
    ∀ ptr, alloc (allocSize ramsize align) = some ptr → ∃ r, cpuNew alloc ramsize align = (.success, some r) ∧
      r.ram.toNat % align.toNat = 0 ∧ ptr.toNat ≤ r.ram.toNat ∧
      r.ram.toNat + ramsize.toNat + 16 ≤ ptr.toNat + (allocSize ramsize align).toNat ∧ freed r = ptr := by
  obtain ⟨h0, ⟨k, hk, hp⟩, hsz⟩ := hv
  have hc : checked ramsize align = true := by
    simp only [checked, if_neg h0]
    rw [if_neg]
    rintro ⟨-, h⟩
    exact h (and_pred_of_pow hp)
  have hpos : 0 < 2 ^ k := Nat.pow_pos (by decide)
  have hal : (allocSize ramsize align).toNat = ramsize.toNat + 16 + align.toNat - 1 := by
    unfold allocSize
    rw [BitVec.toNat_sub, BitVec.toNat_add, BitVec.toNat_add]
    show (2 ^ 64 - 1 + ((ramsize.toNat + 16) % 2 ^ 64 + align.toNat) % 2 ^ 64) % 2 ^ 64 = _
    omega
  constructor
  · intro hn
    simp only [cpuNew, hc, if_true, hn]
  · intro ptr hptr
    have hin := ha _ _ hptr
    rw [hal] at hin
    have hr0 : 0 < ramsize.toNat := by
      rcases Nat.eq_zero_or_pos ramsize.toNat with h | h
      · exact absurd (BitVec.eq_of_toNat_eq (by simpa using h)) h0
      · exact h
    refine ⟨place ramsize align ptr, by simp only [cpuNew, hc, if_true, hptr], ?_, ?_, ?_, ?_⟩
    · show ((ptr + align - 1#64) &&& ~~~(align - 1#64)).toNat % _ = 0
      rw [round_up hk hp (by omega), hp, Nat.mul_mod_left]
    · show ptr.toNat ≤ ((ptr + align - 1#64) &&& ~~~(align - 1#64)).toNat
      rw [round_up hk hp (by omega)]
      have := Nat.div_add_mod (ptr.toNat + 2 ^ k - 1) (2 ^ k)
      have hm := Nat.mod_lt (ptr.toNat + 2 ^ k - 1) hpos
      rw [Nat.mul_comm] at this
      omega
    · show ((ptr + align - 1#64) &&& ~~~(align - 1#64)).toNat + _ + _ ≤ _
      rw [round_up hk hp (by omega), hal, hp]
      have := Nat.div_mul_le_self (ptr.toNat + 2 ^ k - 1) (2 ^ k)
      omega
    · simp only [freed, place]
      grind

theorem pow_of_and_pred {n : Nat} (h0 : n ≠ 0) (h : n &&& (n - 1) = 0) : ∃ k, n = 2 ^ k := by
  refine ⟨n.log2, ?_⟩
  have hle : 2 ^ n.log2 ≤ n := Nat.log2_self_le h0
  have hlt : n < 2 ^ (n.log2 + 1) := Nat.lt_log2_self
  rcases Nat.lt_or_ge (2 ^ n.log2) n with hgt | hge
  · exfalso
    have t1 : n.testBit n.log2 = true := by
      rw [Nat.testBit_eq_decide_div_mod_eq]
      have : n / 2 ^ n.log2 = 1 := by
        rw [Nat.pow_succ] at hlt
        exact Nat.div_eq_of_lt_le (by omega) (by omega)
      rw [this]; rfl
    have t2 : (n - 1).testBit n.log2 = true := by
      rw [Nat.testBit_eq_decide_div_mod_eq]
      have : (n - 1) / 2 ^ n.log2 = 1 := by
        rw [Nat.pow_succ] at hlt
        exact Nat.div_eq_of_lt_le (by omega) (by omega)
      rw [this]; rfl
    have := congrArg (fun x => x.testBit n.log2) h
    simp [Nat.testBit_and, t1, t2] at this
  · omega

/-- C70: a size of 0 and an alignment that is not a power of two (and not 0) are refused, and nothing is allocated. -/
theorem C70_rejects_partial (alloc : BitVec 64 → Option (BitVec 64)) (ramsize align : BitVec 64)
    (h : ramsize = 0#64 ∨ (align ≠ 0#64 ∧ ¬ ∃ k, align.toNat = 2 ^ k)) : cpuNew alloc ramsize align = (.invalidParameter, none) := by
  have hc : checked ramsize align = false := by
    unfold checked
    rcases h with h | ⟨h1, h2⟩
    · rw [if_pos h]
    · split
      · rfl
      · rw [if_pos]
        refine ⟨fun e => h2 ⟨0, by rw [e]; rfl⟩, fun e => h2 ?_⟩
        have hpos : align.toNat ≠ 0 := fun e' => h1 (BitVec.eq_of_toNat_eq (by simpa using e'))
        have e2 : align.toNat &&& (align.toNat - 1) = 0 := by
          have := congrArg BitVec.toNat e
          rw [BitVec.toNat_and, BitVec.toNat_sub] at this
          have e3 : (2 ^ 64 - (1#64).toNat + align.toNat) % 2 ^ 64 = align.toNat - 1 := by
            have := align.isLt
            show (2 ^ 64 - 1 + align.toNat) % 2 ^ 64 = _
            omega
          rw [e3] at this
          simpa using this
        exact pow_of_and_pred hpos e2
  simp only [cpuNew, hc]
  rfl

/-- A 64 MiB cpu aligned to 64 KiB. -/
example : Valid 0x4000000#64 0x10000#64 ∧ cpuNew (fun _ => some 0x7F0000001230#64) 0x4000000#64 0x10000#64 =
    (.success, some ⟨0x7F0000010000#64, 0x401000F#64, 0xEDD0#64⟩) := by
  refine ⟨⟨by decide, ⟨16, by decide, by decide⟩, by decide⟩, by decide⟩
example : cpuNew (fun _ => some 0x1000#64) 0x1000#64 48#64 = (.invalidParameter, none) := by decide

/-- C70 fails: an alignment of 0 is accepted, and whatever the host allocates the ram pointer of the new cpu is null. -/
theorem C70_alignment_zero_violation (ramsize ptr : BitVec 64) (h : ramsize ≠ 0#64) :
    ∃ r, cpuNew (fun _ => some ptr) ramsize 0#64 = (.success, some r) ∧ r.ram = 0#64 := by
  refine ⟨place ramsize 0#64 ptr, ?_, ?_⟩
  · have : checked ramsize 0#64 = true := by
      unfold checked
      rw [if_neg h, if_neg (by decide)]
    simp only [cpuNew, this, if_true]
  · show (ptr + 0#64 - 1#64) &&& ~~~(0#64 - 1#64) = 0#64
    have : ~~~(0#64 - 1#64) = 0#64 := by decide
    rw [this, BitVec.and_zero]

/-- C70 fails: a size so large that size plus extra bytes wraps around is accepted with a buffer of a few bytes. -/
theorem C70_size_wraps_violation (ptr : BitVec 64) (k : BitVec 64) (h1 : 1 ≤ k.toNat) (h2 : k.toNat ≤ 16) :
    ∃ r, cpuNew (fun _ => some ptr) (0#64 - k) 1#64 = (.success, some r) ∧ r.ramSize.toNat = 16 - k.toNat := by
  refine ⟨place (0#64 - k) 1#64 ptr, ?_, ?_⟩
  · have : checked (0#64 - k) 1#64 = true := by
      unfold checked
      rw [if_neg, if_neg (by decide)]
      intro e
      have : k = 0#64 := by grind
      rw [this] at h1
      exact absurd h1 (by decide)
    simp only [cpuNew, this, if_true]
  · show (allocSize (0#64 - k) 1#64).toNat = _
    have : allocSize (0#64 - k) 1#64 = 16#64 - k := by unfold allocSize; grind
    rw [this, BitVec.toNat_sub]
    show (2 ^ 64 - k.toNat + 16) % 2 ^ 64 = _
    omega

end Verif.New
