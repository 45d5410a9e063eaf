import Verif.Model.IoBitmap
import Verif.Props.BitTest
/-
C62: the I/O permission bitmap.
-/
namespace Verif.IoBitmap
open Guest

/-- Specification (SDM vol. 1, 19.5.2): offset of the bitmap from the TSS base. -/
def mapOff (m : Mem) (base : BitVec 32) : Nat := load m (base + 102#32) 2

/-- Bit `p` of the bit map that starts at linear address `a`. -/
def mapBit (m : Mem) (a : BitVec 32) (p : Nat) : Bool := (m (a + BitVec.ofNat 32 (p / 8))).getLsbD (p % 8)

/-- The TSS contains a bitmap offset and the two bytes of the bitmap that hold the bits of the port. -/
def InLimit (m : Mem) (base limit : BitVec 32) (port : Nat) : Prop :=
  103 ≤ limit.toNat ∧ mapOff m base + port / 8 + 1 ≤ limit.toNat

/-- C62, the full property: access allowed exactly when the bitmap is in the limit and the bits of all
accessed ports are clear in the bitmap at TSS base + offset. -/
def Spec (m : Mem) (base limit : BitVec 32) (port size : Nat) : Prop :=
  InLimit m base limit port ∧
    ∀ j, j < size → mapBit m (base + BitVec.ofNat 32 (mapOff m base)) (port + j) = false

theorem shift_zero (v k size : Nat) : (v >>> k) &&& (2 ^ size - 1) = 0 ↔ ∀ j, j < size → v.testBit (k + j) = false := by
  rw [Nat.and_two_pow_sub_one_eq_mod]
  constructor
  · intro h j hj
    have := congrArg (fun x => x.testBit j) h
    simp only [Nat.testBit_mod_two_pow, hj, decide_true, Bool.true_and, Nat.testBit_shiftRight, Nat.zero_testBit] at this
    exact this
  · intro h
    apply Nat.eq_of_testBit_eq
    intro j
    rw [Nat.testBit_mod_two_pow, Nat.testBit_shiftRight, Nat.zero_testBit]
    by_cases hj : j < size
    · simp [h j hj]
    · simp [hj]

theorem mapOff_lt (m : Mem) (base : BitVec 32) : mapOff m base < 65536 := load_lt m (base + 102#32) 2

/-- The word read holds the bits of the ports, counted from the byte of the first one. -/
theorem word_bits (m : Mem) (a : BitVec 32) (port size : Nat) (hs : size ≤ 9) :
    ((load m (a + BitVec.ofNat 32 (port / 8)) 2 >>> (port % 8)) &&& (2 ^ size - 1) = 0) ↔
      ∀ j, j < size → mapBit m a (port + j) = false := by
  rw [shift_zero]
  have : ∀ j, j < size → (load m (a + BitVec.ofNat 32 (port / 8)) 2).testBit (port % 8 + j) = mapBit m a (port + j) := by
    intro j hj
    rw [BitTest.load_testBit _ _ _ _ (by omega)]
    unfold mapBit
    rw [BitVec.add_assoc, ← BitVec.ofNat_add]
    have h1 : port / 8 + (port % 8 + j) / 8 = (port + j) / 8 := by omega
    have h2 : (port % 8 + j) % 8 = (port + j) % 8 := by omega
    rw [h1, h2]
  constructor
  · intro h j hj; rw [← this j hj]; exact h j hj
  · intro h j hj; rw [this j hj]; exact h j hj

/-- C62, what the code computes when the first read leaves its registers alone: the limit check of the
specification, and the bits of the bitmap located 103 bytes further than the specification's.
Missing: the right location. -/
theorem C62_decision_partial (ok : Ok) (m : Mem) (base limit : BitVec 32) (port : BitVec 16) (size : Nat)
    (hs : size = 1 ∨ size = 2 ∨ size = 4) (hok : ∀ a, ok a 2 false = true) :
    checkPreserved ok m base limit port size = .allow ↔
      (InLimit m base limit port.toNat ∧
        ∀ j, j < size → mapBit m (base + BitVec.ofNat 32 (mapOff m base + 103)) (port.toNat + j) = false) := by
  have hoff := mapOff_lt m base
  have hp := port.isLt
  unfold checkPreserved check InLimit
  by_cases h1 : limit.toNat < 103
  · rw [if_pos h1]
    exact ⟨fun h => absurd h (by decide), fun h => by omega⟩
  · rw [if_neg h1, if_pos (hok _)]
    simp only
    have ha : (BitVec.ofNat 32 (load m (base + 102#32) 2) + (port >>> 3).setWidth 32 + 1#32).toNat =
        mapOff m base + port.toNat / 8 + 1 := by
      show (BitVec.ofNat 32 (mapOff m base) + _ + _).toNat = _
      rw [BitVec.toNat_add, BitVec.toNat_add, BitVec.toNat_ofNat, BitVec.toNat_setWidth, BitVec.toNat_ushiftRight]
      have : port.toNat >>> 3 = port.toNat / 8 := Nat.shiftRight_eq_div_pow _ 3
      rw [this]
      have : (1#32).toNat = 1 := rfl
      omega
    rw [ha]
    by_cases h2 : limit.toNat < mapOff m base + port.toNat / 8 + 1
    · rw [if_pos h2]
      exact ⟨fun h => absurd h (by decide), fun h => by omega⟩
    · rw [if_neg h2, if_pos (hok _)]
      have hadr : BitVec.ofNat 32 (load m (base + 102#32) 2) + (port >>> 3).setWidth 32 + 1#32 + (base + 102#32) =
          base + BitVec.ofNat 32 (mapOff m base + 103) + BitVec.ofNat 32 (port.toNat / 8) := by
        have hport : (port >>> 3).setWidth 32 = BitVec.ofNat 32 (port.toNat / 8) := by
          apply BitVec.eq_of_toNat_eq
          rw [BitVec.toNat_setWidth, BitVec.toNat_ushiftRight, BitVec.toNat_ofNat]
          have : port.toNat >>> 3 = port.toNat / 8 := Nat.shiftRight_eq_div_pow _ 3
          rw [this]
        rw [hport, BitVec.ofNat_add]
        show BitVec.ofNat 32 (mapOff m base) + _ + _ + _ = _
        have : BitVec.ofNat 32 103 = 1#32 + 102#32 := by decide
        rw [this]
        grind
      rw [hadr]
      have hw := word_bits m (base + BitVec.ofNat 32 (mapOff m base + 103)) port.toNat size (by omega)
      have hlim : 103 ≤ limit.toNat ∧ mapOff m base + port.toNat / 8 + 1 ≤ limit.toNat := by omega
      constructor
      · intro h
        refine ⟨hlim, hw.mp ?_⟩
        by_cases hc : (load m (base + BitVec.ofNat 32 (mapOff m base + 103) + BitVec.ofNat 32 (port.toNat / 8)) 2 >>>
            (port.toNat % 8)) &&& (2 ^ size - 1) = 0
        · exact hc
        · rw [if_neg hc] at h; exact absurd h (by decide)
      · rintro ⟨_, h⟩
        rw [if_pos (hw.mpr h)]

/-- C62: a TSS too small to hold a bitmap offset always gives #GP, whatever the reads do. -/
theorem C62_small_tss_partial (ok : Ok) (m : Mem) (base limit : BitVec 32) (port : BitVec 16) (size : Nat)
    (r10 r11 : BitVec 32) (h : limit.toNat < 103) : check ok m base limit port size r10 r11 = .gp := by
  unfold check; rw [if_pos h]

/-- A TSS at 0x1000 with the bitmap at offset 104, all ports denied; zeros after the bitmap. -/
def denyAll : Mem := fun a =>
  if a = 0x1066#32 then 104#8 else if 0x1068 ≤ a.toNat ∧ a.toNat < 0x1070 then 0xFF#8 else 0#8

/-- A TSS at 0x1000 with the bitmap at offset 104, all ports allowed; ones after the bitmap. -/
def allowAll : Mem := fun a =>
  if a = 0x1066#32 then 104#8 else if 0x1070 ≤ a.toNat then 0xFF#8 else 0#8

/-- C62, violation: a port whose bit is set in the guest's bitmap is let through ... -/
theorem C62_denied_port_violation :
    checkPreserved (fun _ _ _ => true) denyAll 0x1000#32 200#32 0x20#16 1 = .allow ∧
    ¬ Spec denyAll 0x1000#32 200#32 0x20 1 := by
  refine ⟨by decide +kernel, ?_⟩
  rintro ⟨_, h⟩
  exact absurd (h 0 (by omega)) (by decide +kernel)

/-- ... and a port whose bit is clear is refused. -/
theorem C62_allowed_port_violation :
    checkPreserved (fun _ _ _ => true) allowAll 0x1000#32 200#32 0x20#16 1 = .gp ∧
    Spec allowAll 0x1000#32 200#32 0x20 1 := by
  refine ⟨by decide +kernel, ⟨by decide +kernel, by decide +kernel⟩, ?_⟩
  intro j hj
  obtain rfl : j = 0 := by omega
  decide +kernel

/-- C62, violation: the decision depends on what the first read leaves in the two host registers, so
it is not a function of the guest's state. -/
theorem C62_clobbered_registers_violation :
    check (fun _ _ _ => true) allowAll 0x1000#32 200#32 0x20#16 1 0#32 0#32 ≠
    check (fun _ _ _ => true) allowAll 0x1000#32 200#32 0x20#16 1 0#32 200#32 := by decide +kernel

/-- C62, violation: the bitmap is read with the privileges of the running code, so that a TSS in
supervisor pages gives a page fault for user code where the architecture decides from the bitmap. -/
theorem C62_supervisor_tss_violation :
    checkPreserved (fun _ _ _ => false) allowAll 0x1000#32 200#32 0x20#16 1 = .pf ∧
    Spec allowAll 0x1000#32 200#32 0x20 1 :=
  ⟨by decide +kernel, C62_allowed_port_violation.2⟩

-- A case where the check passes and one where it fails.
example : InLimit allowAll 0x1000#32 200#32 0x20 := ⟨by decide +kernel, by decide +kernel⟩
example : checkPreserved (fun _ _ _ => true) (fun _ => 0#8) 0x1000#32 200#32 0x20#16 4 = .allow := by decide +kernel

end Verif.IoBitmap
