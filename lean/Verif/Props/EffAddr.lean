import Verif.Model.EffAddr
/-
C64: effective addresses.
-/
namespace Verif.EffAddr

/-- Specification: segment base plus the offset, the offset being base + index * 2^scale + displacement
modulo 2^32 or 2^16, the sum modulo 2^32. -/
def linear (a32 : Bool) (segBase b i sc : Nat) (d : Int) : Int :=
  (segBase + (b + i * 2 ^ sc + d) % (if a32 then 2 ^ 32 else 2 ^ 16)) % 2 ^ 32

/-- Value of an optional register. -/
def regVal (r : Fin 8 → BitVec 32) : Option (Fin 8) → Nat
  | some b => (r b).toNat
  | none => 0

/-- Value and scale of an optional index. -/
def idxVal (r : Fin 8 → BitVec 32) : Option (Fin 8 × Nat) → Nat × Nat
  | some (i, sc) => ((r i).toNat, sc)
  | none => (0, 0)

/-- The displacement as a signed number; with mod 1 it is an 8 bit displacement. -/
def dispVal : Option (BitVec 64) → Int
  | some d => d.toInt
  | none => 0

/-- What the decoder guarantees: an operand with mod 1 has a sign extended 8 bit displacement. -/
def Decoded (o : Operand) : Prop := o.mod1 = true → ∀ d, o.disp = some d → -128 ≤ d.toInt ∧ d.toInt < 128

theorem disp_low (n : Nat) (hn : n = 16 ∨ n = 32) (d : BitVec 64) : d.setWidth n = BitVec.ofInt n d.toInt := by
  apply BitVec.eq_of_toNat_eq
  rw [BitVec.toNat_setWidth, BitVec.toNat_ofInt, BitVec.toInt_eq_toNat_cond]
  have := d.isLt
  rcases hn with rfl | rfl <;> split <;> omega

theorem disp_low8 (n : Nat) (hn : n = 16 ∨ n = 32) (d : BitVec 64) (h : -128 ≤ d.toInt ∧ d.toInt < 128) :
    (d.setWidth 8).signExtend n = BitVec.ofInt n d.toInt := by
  have h8 : (d.setWidth 8).toInt = d.toInt := by
    rw [BitVec.toInt_eq_toNat_cond, BitVec.toNat_setWidth]
    rw [BitVec.toInt_eq_toNat_cond] at h ⊢
    have := d.isLt
    split at h <;> split <;> omega
  rw [BitVec.signExtend, h8]

theorem reg_low (x : BitVec 32) : x.setWidth 16 = BitVec.ofInt 16 x.toNat := by
  apply BitVec.eq_of_toNat_eq
  rw [BitVec.toNat_setWidth, BitVec.toNat_ofInt]; omega

theorem reg_full (x : BitVec 32) : x = BitVec.ofInt 32 x.toNat := by
  apply BitVec.eq_of_toNat_eq
  rw [BitVec.toNat_ofInt]; have := x.isLt; omega

theorem shl_ofInt (n : Nat) (v : Int) (k : Nat) : (BitVec.ofInt n v) <<< k = BitVec.ofInt n (v * 2 ^ k) := by
  rw [BitVec.shiftLeft_eq_mul_twoPow, BitVec.ofInt_mul]
  congr 1
  apply BitVec.eq_of_toNat_eq
  rw [BitVec.toNat_twoPow, BitVec.toNat_ofInt]
  have : (2 : Int) ^ k = ((2 ^ k : Nat) : Int) := by simp
  rw [this, ← Int.natCast_emod, Int.toNat_natCast]

/-- The offset at 16 bits. -/
theorem off16 (r : Fin 8 → BitVec 32) (o : Operand) (hd : Decoded o) :
    index16 r (base16 r o.base) o.index + (match o.disp with | some d => disp16 o.mod1 d | none => 0#16) =
      BitVec.ofInt 16 (regVal r o.base + (idxVal r o.index).1 * 2 ^ (idxVal r o.index).2 + dispVal o.disp) := by
  obtain ⟨b, i, d, m⟩ := o
  rw [BitVec.ofInt_add, BitVec.ofInt_add]
  congr 1
  · have hb : base16 r b = BitVec.ofInt 16 (regVal r b) := by
      cases b with
      | none => rfl
      | some b => exact reg_low _
    cases i with
    | none => simp [index16, idxVal, hb]
    | some i => simp only [index16, idxVal, hb, reg_low, shl_ofInt]
  · cases d with
    | none => rfl
    | some d =>
      cases m with
      | false => exact disp_low 16 (Or.inl rfl) d
      | true => exact disp_low8 16 (Or.inl rfl) d (hd rfl d rfl)

/-- The offset at 32 bits. -/
theorem off32 (r : Fin 8 → BitVec 32) (o : Operand) (hd : Decoded o) :
    index32 r (base32 r o.base) o.index + (match o.disp with | some d => disp32 o.mod1 d | none => 0#32) =
      BitVec.ofInt 32 (regVal r o.base + (idxVal r o.index).1 * 2 ^ (idxVal r o.index).2 + dispVal o.disp) := by
  obtain ⟨b, i, d, m⟩ := o
  rw [BitVec.ofInt_add, BitVec.ofInt_add]
  congr 1
  · have hb : base32 r b = BitVec.ofInt 32 (regVal r b) := by
      cases b with
      | none => rfl
      | some b => exact reg_full _
    cases i with
    | none => simp [index32, idxVal, hb]
    | some i =>
      simp only [index32, idxVal, hb]
      conv => lhs; rw [reg_full (r i.1)]
      rw [shl_ofInt]
  · cases d with
    | none => rfl
    | some d =>
      cases m with
      | false => exact disp_low 32 (Or.inr rfl) d
      | true => exact disp_low8 32 (Or.inr rfl) d (hd rfl d rfl)

theorem lin16 (sb : BitVec 32) (v : Int) :
    ((sb + (BitVec.ofInt 16 v).setWidth 32).toNat : Int) = (sb.toNat + v % 2 ^ 16) % 2 ^ 32 := by
  rw [BitVec.toNat_add, BitVec.toNat_setWidth, BitVec.toNat_ofInt]; omega

theorem lin32 (sb : BitVec 32) (v : Int) :
    ((sb + BitVec.ofInt 32 v).toNat : Int) = (sb.toNat + v % 2 ^ 32) % 2 ^ 32 := by
  rw [BitVec.toNat_add, BitVec.toNat_ofInt]; omega

/-- C64: the linear address of every ModRM operand, for 16 and 32 bit addressing and all register
values: the emitted code computes base + index * scale + displacement modulo the address size, plus
the segment base modulo 2^32. `isZero` is the emitter's knowledge that the segment base is zero. -/
theorem C64_linear_address (a32 isZero : Bool) (segBase : BitVec 32) (hz : isZero = true → segBase = 0#32)
    (r : Fin 8 → BitVec 32) (o : Operand) (hd : Decoded o) :
    ((ea a32 true isZero segBase r o).toNat : Int) =
      linear a32 segBase.toNat (regVal r o.base) (idxVal r o.index).1 (idxVal r o.index).2 (dispVal o.disp) := by
  cases a32 with
  | true =>
    have h := off32 r o hd
    have : ea true true isZero segBase r o = segBase +
        (index32 r (base32 r o.base) o.index + (match o.disp with | some d => disp32 o.mod1 d | none => 0#32)) := by
      simp only [ea, if_true, ea32]
      cases isZero with
      | true => rw [hz rfl]; cases o.disp <;> simp
      | false => cases o.disp <;> simp <;> grind
    rw [this, h, lin32]; rfl
  | false =>
    have h := off16 r o hd
    have : ea false true isZero segBase r o = segBase +
        (index16 r (base16 r o.base) o.index + (match o.disp with | some d => disp16 o.mod1 d | none => 0#16)).setWidth 32 := by
      simp only [ea, Bool.false_eq_true, if_false, ea16]
      cases isZero with
      | true => rw [hz rfl]; cases o.disp <;> simp
      | false => cases o.disp <;> simp
    rw [this, h, lin16]; rfl

/-- C64: the form without segment base (LEA and the like): the offset alone. -/
theorem C64_offset_only (a32 isZero : Bool) (segBase : BitVec 32) (r : Fin 8 → BitVec 32) (o : Operand)
    (hd : Decoded o) :
    ((ea a32 false isZero segBase r o).toNat : Int) =
      linear a32 0 (regVal r o.base) (idxVal r o.index).1 (idxVal r o.index).2 (dispVal o.disp) := by
  have h := C64_linear_address a32 true 0#32 (fun _ => rfl) r o hd
  have : ea a32 false isZero segBase r o = ea a32 true true 0#32 r o := by
    cases a32 <;> simp only [ea, ea32, ea16] <;> cases o.disp <;> simp
  rw [this, h]; rfl

/-- C64: the direct address form, the offset modulo the address size plus the segment base. -/
theorem C64_direct (a32 isZero : Bool) (segBase : BitVec 32) (hz : isZero = true → segBase = 0#32) (d : BitVec 64) :
    ((moffs a32 true isZero segBase d).toNat : Int) = linear a32 segBase.toNat 0 0 0 d.toInt := by
  have hm : ∀ x : BitVec 32, (if (true && !isZero) = true then x + segBase else x) = segBase + x := by
    intro x
    cases isZero with
    | true => rw [hz rfl]; simp
    | false => simp; grind
  unfold moffs
  simp only
  rw [hm]
  cases a32 with
  | true => simp only [if_true]; rw [disp_low 32 (Or.inr rfl), lin32]; simp [linear]
  | false =>
    simp only [Bool.false_eq_true, if_false]
    have : (d &&& 0xFFFF#64).setWidth 32 = (d.setWidth 16).setWidth 32 := by
      apply BitVec.eq_of_toNat_eq
      rw [BitVec.toNat_setWidth, BitVec.toNat_and, BitVec.toNat_setWidth, BitVec.toNat_setWidth]
      have : d.toNat &&& (0xFFFF#64).toNat = d.toNat % 2 ^ 16 := Nat.and_two_pow_sub_one_eq_mod _ 16
      rw [this]
    rw [this, disp_low 16 (Or.inl rfl), lin16]; simp [linear]

/-- C64: 16 bit offsets wrap: the address is within 64 KiB of the segment base. -/
theorem C64_wraps16 (isZero : Bool) (segBase : BitVec 32) (hz : isZero = true → segBase = 0#32)
    (r : Fin 8 → BitVec 32) (o : Operand) (hd : Decoded o) :
    (ea false true isZero segBase r o - segBase).toNat < 2 ^ 16 := by
  have h := C64_linear_address false isZero segBase hz r o hd
  simp only [linear, Bool.false_eq_true, if_false] at h
  rw [BitVec.toNat_sub]
  have := segBase.isLt
  omega

-- Non-trivial cases: [bx+si-1] wrapping, and [eax*4+ebp+0x80] with a segment base.
example : ea false true false 0x10000#32 (fun _ => 0#32) ⟨some 3, some (6, 0), some (-1), true⟩ = 0x1FFFF#32 := by decide
example : Decoded ⟨some 3, some (6, 0), some (-1), true⟩ := by intro _ d h; obtain rfl := Option.some.inj h; decide
example : ea true true false 0x1000#32 (fun i => BitVec.ofNat 32 (i.val + 1)) ⟨some 5, some (0, 2), some 0x80#64, false⟩ =
    0x108A#32 := by decide

end Verif.EffAddr
