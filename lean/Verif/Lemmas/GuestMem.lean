import Verif.Model.GuestMem
namespace Verif.Guest

theorem sub_add_ofNat (a : BitVec 32) (i : Nat) (hi : i < 2 ^ 32) :
    (a + BitVec.ofNat 32 i - a).toNat = i := by
  have : a + BitVec.ofNat 32 i - a = BitVec.ofNat 32 i := by grind
  rw [this, BitVec.toNat_ofNat, Nat.mod_eq_of_lt hi]

theorem store_at (m : Mem) (a : BitVec 32) (k v i : Nat) (hi : i < k) (hk : k ≤ 2 ^ 32) :
    store m a k v (a + BitVec.ofNat 32 i) = BitVec.ofNat 8 (v / 256 ^ i) := by
  unfold store
  rw [sub_add_ofNat a i (by omega), if_pos hi]

theorem store_other (m : Mem) (a : BitVec 32) (k v : Nat) (x : BitVec 32) (h : k ≤ (x - a).toNat) :
    store m a k v x = m x := by
  unfold store
  rw [if_neg (by omega)]

/-- What is loaded is what was stored. -/
theorem load_store (m : Mem) (a : BitVec 32) (k v j : Nat) (hj : j ≤ k) (hk : k ≤ 2 ^ 32) :
    load (store m a k v) a j = v % 256 ^ j := by
  induction j with
  | zero => simp [load, Nat.mod_one]
  | succ j ih =>
    rw [load, ih (by omega), store_at m a k v j (by omega) hk, BitVec.toNat_ofNat]
    have : (256 : Nat) ^ (j + 1) = 256 ^ j * 256 := Nat.pow_succ ..
    rw [this, Nat.mod_mul, Nat.mul_comm]

theorem load_congr (m m' : Mem) (a : BitVec 32) (k : Nat)
    (h : ∀ i, i < k → m (a + BitVec.ofNat 32 i) = m' (a + BitVec.ofNat 32 i)) :
    load m a k = load m' a k := by
  induction k with
  | zero => rfl
  | succ k ih => rw [load, load, ih (fun i hi => h i (by omega)), h k (by omega)]

theorem load_lt (m : Mem) (a : BitVec 32) (k : Nat) : load m a k < 256 ^ k := by
  induction k with
  | zero => simp [load]
  | succ k ih =>
    rw [load, Nat.pow_succ]
    have := (m (a + BitVec.ofNat 32 k)).isLt
    have h2 : (m (a + BitVec.ofNat 32 k)).toNat * 256 ^ k ≤ 255 * 256 ^ k :=
      Nat.mul_le_mul_right _ (by omega)
    omega

end Verif.Guest
