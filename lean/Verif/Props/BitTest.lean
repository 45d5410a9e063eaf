import Verif.Model.BitTest
import Verif.Lemmas.GuestMem
import Verif.Lemmas.Flags
/-
C61: bit test instructions.
-/
namespace Verif.BitTest
open Guest Spec

theorem host_bit {n : Nat} (op : Op) (x : BitVec n) (off : Nat) (hn : 0 < n) (j : Nat) (hj : j < n) :
    (hostBit op x off).2.getLsbD j = if j = off % n then newBit op (x.getLsbD j) else x.getLsbD j := by
  have hi := Nat.mod_lt off hn
  have h1 : (1#n <<< (off % n)).getLsbD j = decide (j = off % n) := by
    rw [BitVec.getLsbD_shiftLeft, BitVec.getLsbD_one]
    have : decide (j < n) = true := by simp [hj]
    rw [this]
    by_cases h : j = off % n
    · simp [h, hn]
    · by_cases h2 : j < off % n
      · simp [h, h2]
      · have : j - off % n ≠ 0 := by omega
        simp [h, this]
  unfold hostBit
  cases op <;> simp only [newBit, BitVec.getLsbD_xor, BitVec.getLsbD_and, BitVec.getLsbD_not, BitVec.getLsbD_or, h1] <;>
    by_cases h : j = off % n <;> simp [h, hj]

theorem setCf_cf {s : Flags.St} (hc : Flags.Clean s) (c : Bool) :
    (Flags.flags (setCf s c)).cf = c ∧ (Flags.flags (setCf s c)).zf = (Flags.flags s).zf ∧
      (setCf s c).eflags = s.eflags := by
  have hc' : Flags.Clean (setCf s c) := by unfold Flags.Clean setCf; exact hc
  rw [Flags.flags_eq hc', Flags.flags_eq hc]
  cases c <;> simp [setCf]

/-- C61, register destination: CF is the bit at the offset modulo the operand size, exactly that bit
of the destination is changed as the instruction says, ZF and the non arithmetic flags stay. -/
theorem C61_register {n : Nat} (hn : n = 16 ∨ n = 32) (op : Op) (s : Flags.St) (hc : Flags.Clean s)
    (x : BitVec n) (off : Nat) :
    let r := bitReg op s x off
    (Flags.flags r.2).cf = x.getLsbD (off % n) ∧
    (∀ j, j < n → r.1.getLsbD j = if j = off % n then newBit op (x.getLsbD j) else x.getLsbD j) ∧
    (Flags.flags r.2).zf = (Flags.flags s).zf ∧ r.2.eflags = s.eflags := by
  intro r
  obtain ⟨h1, h2, h3⟩ := setCf_cf hc (hostBit op x off).1
  have hr1 : r.1 = (hostBit op x off).2 := rfl
  have hr2 : r.2 = setCf s (hostBit op x off).1 := rfl
  rw [hr1, hr2]
  exact ⟨h1, fun j hj => host_bit op x off (by omega) j hj, h2, h3⟩

theorem load_testBit (m : Mem) (a : BitVec 32) (k i : Nat) (hi : i < 8 * k) :
    (load m a k).testBit i = (m (a + BitVec.ofNat 32 (i / 8))).getLsbD (i % 8) := by
  induction k with
  | zero => omega
  | succ k ih =>
    have hl := load_lt m a k
    have hp : (256 : Nat) ^ k = 2 ^ (8 * k) := by rw [Nat.pow_mul]
    rw [hp] at hl
    rw [load, hp, Nat.mul_comm, Nat.add_comm, Nat.testBit_two_pow_mul_add _ hl]
    by_cases h : i < 8 * k
    · rw [if_pos h, ih h]
    · have h1 : i / 8 = k := by omega
      have h2 : i - 8 * k = i % 8 := by omega
      rw [if_neg h, h1, h2]; rfl

theorem byteOf_nat (a : BitVec 32) (i : Nat) : byteOf a (i : Int) = a + BitVec.ofNat 32 (i / 8) := by
  unfold byteOf
  congr 1

theorem slot_spec (ok : Ok) (op : Op) (k : Nat) (hk : k = 2 ∨ k = 4) (m m' : Mem) (s s' : Flags.St) (a : BitVec 32)
    (hc : Flags.Clean s) (i : Nat) (h : bitSlot ok op k m s a i = .done m' s') :
    let o : Int := ((i % (8 * k) : Nat) : Int)
    (Flags.flags s').cf = bitOf m a o ∧ Updated m m' a o (newBit op (bitOf m a o)) ∧
      (Flags.flags s').zf = (Flags.flags s).zf ∧ s'.eflags = s.eflags := by
  intro o
  have hpos : 0 < 8 * k := by omega
  have hi := Nat.mod_lt i hpos
  have hbit : (BitVec.ofNat (8 * k) (load m a k)).getLsbD (i % (8 * k)) = bitOf m a o := by
    rw [BitVec.getLsbD_ofNat, load_testBit m a k _ hi]
    simp only [hi, decide_true, Bool.true_and, bitOf, o]
    rw [byteOf_nat]; rfl
  have hb1 : (hostBit op (BitVec.ofNat (8 * k) (load m a k)) i).1 = bitOf m a o := hbit
  unfold bitSlot at h
  split at h
  · simp only at h
    by_cases hop : op = .bt
    · rw [if_pos hop] at h
      obtain ⟨rfl, rfl⟩ := Out.done.inj h
      rw [hb1]
      refine ⟨(setCf_cf hc _).1, ?_, (setCf_cf hc _).2⟩
      subst hop
      intro x j hj
      by_cases hx : x = byteOf a o ∧ (j : Int) = o % 8
      · rw [if_pos hx, newBit, bitOf, ← hx.1, ← hx.2]; rfl
      · rw [if_neg hx]
    · rw [if_neg hop] at h
      split at h
      · obtain ⟨rfl, rfl⟩ := Out.done.inj h
        rw [hb1]
        refine ⟨(setCf_cf hc _).1, ?_, (setCf_cf hc _).2⟩
        intro x j hj
        generalize hv : hostBit op (BitVec.ofNat (8 * k) (load m a k)) i = r
        unfold store
        by_cases hx : (x - a).toNat < k
        · rw [if_pos hx, BitVec.getLsbD_ofNat]
          have hp : (256 : Nat) ^ (x - a).toNat = 2 ^ (8 * (x - a).toNat) := by rw [Nat.pow_mul]
          rw [hp, Nat.testBit_div_two_pow]
          simp only [hj, decide_true, Bool.true_and]
          have hlt : j + 8 * (x - a).toNat < 8 * k := by omega
          rw [← BitVec.getLsbD, ← hv, host_bit op _ i hpos _ hlt, BitVec.getLsbD_ofNat, load_testBit m a k _ hlt]
          have hdiv : (j + 8 * (x - a).toNat) / 8 = (x - a).toNat := by omega
          have hmod : (j + 8 * (x - a).toNat) % 8 = j := by omega
          have hxa : a + BitVec.ofNat 32 (x - a).toNat = x := by
            simp only [BitVec.ofNat_toNat, BitVec.setWidth_eq]; grind
          rw [hdiv, hmod, hxa]
          simp only [hlt, decide_true, Bool.true_and]
          by_cases he : j + 8 * (x - a).toNat = i % (8 * k)
          · have hb : x = byteOf a o ∧ (j : Int) = o % 8 := by
              constructor
              · rw [byteOf_nat, ← he, hdiv, hxa]
              · simp only [o]; omega
            rw [if_pos he, if_pos hb]
            congr 1
            rw [bitOf, ← hb.1, ← hb.2]; rfl
          · rw [if_neg he, if_neg]
            rintro ⟨h1, h2⟩
            apply he
            rw [byteOf_nat] at h1
            have : (x - a).toNat = i % (8 * k) / 8 := by
              rw [h1]; exact sub_add_ofNat a _ (by omega)
            simp only [o] at h2
            omega
        · rw [if_neg hx, if_neg]
          rintro ⟨h1, _⟩
          apply hx
          rw [byteOf_nat] at h1
          rw [h1, sub_add_ofNat a _ (by omega)]; omega
      · exact absurd h (by simp)
  · exact absurd h (by simp)

/-- C61, memory destination with an immediate offset: the bit at the offset modulo the operand size
of the operand is tested and changed, and no other bit of memory is. -/
theorem C61_memory_immediate (ok : Ok) (op : Op) (k : Nat) (hk : k = 2 ∨ k = 4) (m m' : Mem) (s s' : Flags.St)
    (a : BitVec 32) (hc : Flags.Clean s) (imm : Nat) (h : bitMemImm ok op k m s a imm = .done m' s') :
    let o : Int := ((imm % (8 * k) : Nat) : Int)
    (Flags.flags s').cf = bitOf m a o ∧ Updated m m' a o (newBit op (bitOf m a o)) ∧
      (Flags.flags s').zf = (Flags.flags s).zf ∧ s'.eflags = s.eflags :=
  slot_spec ok op k hk m m' s s' a hc imm h

/-- C61, memory destination with a register offset, for offsets inside the operand: the addressed bit
of the bit string is tested and changed, and no other bit of memory is.
Missing: offsets outside the operand, for which the code leaves the guest's memory. -/
theorem C61_memory_register_partial (ok : Ok) (op : Op) (k : Nat) (hk : k = 2 ∨ k = 4) (m m' : Mem)
    (s s' : Flags.St) (a : BitVec 32) (hc : Flags.Clean s) (off : Int) (h0 : 0 ≤ off) (h1 : off < 8 * k)
    (h : bitMemReg ok op k m s a off = .done m' s') :
    (Flags.flags s').cf = bitOf m a off ∧ Updated m m' a off (newBit op (bitOf m a off)) ∧
      (Flags.flags s').zf = (Flags.flags s).zf ∧ s'.eflags = s.eflags := by
  unfold bitMemReg at h
  rw [if_pos ⟨h0, h1⟩] at h
  have := slot_spec ok op k hk m m' s s' a hc off.toNat h
  have he : ((off.toNat % (8 * k) : Nat) : Int) = off := by
    rw [Nat.mod_eq_of_lt (by omega)]; omega
  rw [he] at this
  exact this

/-- C61, violation: for every offset outside the operand (negative, or at least its size in bits) the
host's instruction works on the translator's own stack instead of the guest's memory. -/
theorem C61_memory_register_violation (ok : Ok) (op : Op) (k : Nat) (m : Mem) (s : Flags.St) (a : BitVec 32)
    (off : Int) (hoff : off < 0 ∨ 8 * k ≤ off) (hok : ok a k false = true) :
    bitMemReg ok op k m s a off = .hostOob := by
  unfold bitMemReg
  rw [if_neg (by omega), if_pos hok]

/-- C61: a page fault changes nothing, and one occurs exactly when the operand cannot be read or, for
the modifying instructions, written. -/
theorem C61_fault (ok : Ok) (op : Op) (k : Nat) (m : Mem) (s : Flags.St) (a : BitVec 32) (imm : Nat) :
    bitMemImm ok op k m s a imm = .fault ↔ (ok a k false = false ∨ (op ≠ .bt ∧ ok a k true = false)) := by
  unfold bitMemImm bitSlot
  by_cases h1 : ok a k false = true <;> by_cases h2 : op = .bt <;> by_cases h3 : ok a k true = true <;>
    simp [h1, h2, h3]

-- Non-trivial cases.
def m0 : Mem := fun a => if a = 0x101#32 then 0x10#8 else 0#8
def f0 : Flags.St := ⟨2#32, 0x100#32, 0#32⟩
example : Flags.Clean f0 := by unfold Flags.Clean; decide
example : (bitReg .btc f0 (0x8000#16) 31).1 = 0#16 ∧ (Flags.flags (bitReg .btc f0 (0x8000#16) 31).2).cf = true := by
  decide +kernel
example : ∃ m' s', bitMemReg (fun _ _ _ => true) .btr 4 m0 f0 0x100#32 12 = .done m' s' ∧ m' 0x101#32 = 0#8 :=
  ⟨_, _, rfl, by decide +kernel⟩
example : bitOf m0 0x102#32 (-4) = true := by decide +kernel
example : bitMemReg (fun _ _ _ => true) .bt 4 m0 f0 0x102#32 (-4) = .hostOob := rfl

end Verif.BitTest
