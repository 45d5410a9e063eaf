import Verif.Props.Frames
/-
Lemmas on PUSHA and POPA: which items are accessed, and that nothing else is written.
-/
namespace Verif.Stack
open Guest

theorem pushaLoop_opt (ok : Ok) (k : Nat) (g : Gp) : ∀ (is : List Nat) (v : St),
    (pushaLoop ok k g is v).toOption = pushAll ok v (is.map fun i => (k, item g k i))
  | [], v => rfl
  | i :: is, v => by
    simp only [List.map_cons, pushAll]
    show Except.toOption (match push ok v k (item g k i) with
      | none => Except.error v
      | some v => pushaLoop ok k g is v) = _
    cases hp : push ok v k (item g k i) with
    | none => rfl
    | some v' => exact pushaLoop_opt ok k g is v'

theorem push_isSome (ok : Ok) {s : St} (hf : Flat s) {k : Nat} (hk : k ≤ 4) (v : Nat) :
    (push ok s k v).isSome = ok (lin s (below s k)) k true := by
  have he := s.esp.isLt
  unfold push
  cases h32 : s.ss32 with
  | true =>
    have e : (s.esp - BitVec.ofNat 32 k).toNat = below s k := by
      unfold below off modulus
      rw [h32, BitVec.toNat_sub, BitVec.toNat_ofNat]; simp only [if_true]; omega
    simp only [if_true]
    rw [addr_lin hf, e]
    split
    · rename_i h; rw [h]; rfl
    · rename_i h; simp only [Bool.not_eq_true] at h; rw [h]; rfl
  | false =>
    have e : ((s.esp.setWidth 16 - BitVec.ofNat 16 k : BitVec 16).setWidth 32).toNat = below s k := by
      unfold below off modulus
      rw [h32, BitVec.toNat_setWidth, BitVec.toNat_sub, BitVec.toNat_setWidth, BitVec.toNat_ofNat]
      simp only [Bool.false_eq_true, if_false]; omega
    simp only [Bool.false_eq_true, if_false]
    rw [addr_lin hf, e]
    split
    · rename_i h; rw [h]; rfl
    · rename_i h; simp only [Bool.not_eq_true] at h; rw [h]; rfl

/-- If all items may be written, all are pushed. -/
theorem pushAll_some (ok : Ok) (k : Nat) (hk : k ≤ 4) : ∀ (l : List Nat) (s : St), Flat s → k * l.length ≤ modulus s →
    (∀ j, j < l.length → ok (lin s (below s (k * (j + 1)))) k true = true) → ∃ t, pushAll ok s (l.map fun v => (k, v)) = some t
  | [], s, _, _, _ => ⟨s, rfl⟩
  | v :: l, s, hf, hl, ha => by
    simp only [List.map_cons, pushAll]
    rw [List.length_cons, Nat.mul_add, Nat.mul_one] at hl
    cases hp : push ok s k v with
    | none =>
      have := ha 0 (by simp)
      exfalso
      rw [Nat.zero_add, Nat.mul_one, ← push_isSome ok hf hk v, hp] at this
      cases this
    | some t =>
      obtain ⟨h1, h2, h3, h4⟩ := C66_push ok hf hk hp
      have hM := h3.modulus
      have hL : ∀ o, lin t o = lin s o := fun o => by unfold lin; rw [h3.1]
      refine pushAll_some ok k hk l t (h3.flat hf) (by rw [hM]; omega) fun j hj => ?_
      have hm : k * (j + 1) ≤ k * l.length := Nat.mul_le_mul_left k hj
      rw [hL, below_below s t hM k (k * (j + 1)) h1 (by omega), show k + k * (j + 1) = k * (j + 1 + 1) by rw [Nat.mul_add k (j + 1) 1]; omega]
      exact ha (j + 1) (by simpa using hj)

/-- Nothing outside the items is written. -/
theorem pushAll_outside (ok : Ok) (k : Nat) (hk : k ≤ 4) (a : BitVec 32) : ∀ (l : List Nat) (s t : St), Flat s → k * l.length ≤ modulus s →
    pushAll ok s (l.map fun v => (k, v)) = some t →
    (∀ j b, j < l.length → b < k → a ≠ lin s (below s (k * (j + 1))) + BitVec.ofNat 32 b) → t.mem a = s.mem a
  | [], s, t, _, _, h, _ => by cases h; rfl
  | v :: l, s, t, hf, hl, h, ha => by
    simp only [List.map_cons, pushAll] at h
    rw [List.length_cons, Nat.mul_add, Nat.mul_one] at hl
    cases hp : push ok s k v with
    | none => rw [hp] at h; cases h
    | some u =>
      rw [hp] at h
      obtain ⟨h1, h2, h3, h4⟩ := C66_push ok hf hk hp
      have hM := h3.modulus
      have hL : ∀ o, lin u o = lin s o := fun o => by unfold lin; rw [h3.1]
      rw [pushAll_outside ok k hk a l u t (h3.flat hf) (by rw [hM]; omega) h fun j b hj hb => ?_, h2]
      · apply store_other
        apply Decidable.byContradiction
        intro hlt
        have := ha 0 (a - lin s (off u)).toNat (by simp) (by omega)
        rw [BitVec.ofNat_toNat, BitVec.setWidth_eq, Nat.zero_add, Nat.mul_one] at this
        apply this
        have e : below s k = off u := h1.symm
        rw [e]; grind
      · have hm : k * (j + 1) ≤ k * l.length := Nat.mul_le_mul_left k hj
        rw [hL, below_below s u hM k (k * (j + 1)) h1 (by omega), show k + k * (j + 1) = k * (j + 1 + 1) by rw [Nat.mul_add k (j + 1) 1]; omega]
        exact ha (j + 1) b (by simpa using hj) hb

/-- POPA reads every item but one. -/
theorem popaLoop_reads (ok : Ok) (k : Nat) (hk : k ≤ 4) : ∀ (is : List Nat) (bx : BitVec 32) (g : Gp) (x : BitVec 32 × Gp), Flat g.st →
    popaLoop ok k is bx g = .ok x → ∀ (j : Nat) (hj : j < is.length), is[j] ≠ 4 → ok (lin g.st ((offB g.st bx + k * j) % modulus g.st)) k false = true
  | [], bx, g, x, _, _, j, hj, _ => absurd hj (by simp)
  | i :: is, bx, g, x, hf, h, j, hj, h4 => by
    have step : ∀ g1 : Gp, SameSt g.st g1.st → popaLoop ok k is (bump g.st bx k) g1 = .ok x → ∀ (j : Nat) (hj : j < is.length), is[j] ≠ 4 →
        ok (lin g.st ((offB g.st bx + k * (j + 1)) % modulus g.st)) k false = true := by
      intro g1 hs hg j hj h4
      obtain ⟨s1, s2, s3, s4, s5⟩ := hs
      have hM : modulus g1.st = modulus g.st := by unfold modulus; rw [s3]
      have hl : ∀ o, lin g1.st o = lin g.st o := fun o => by unfold lin; rw [s2]
      have ho : ∀ b, offB g1.st b = offB g.st b := fun b => by unfold offB; rw [s3]
      have := popaLoop_reads ok k hk is _ g1 x (by intro e; rw [s2]; exact hf (s4 ▸ e)) hg j hj h4
      rw [hl, ho, hM, (bump_off g.st bx k hk).1, Nat.mod_add_mod, Nat.add_assoc, show k + k * j = k * (j + 1) by rw [Nat.mul_add]; omega] at this
      exact this
    rw [popaLoop] at h
    by_cases hi : i = 4
    · rw [if_pos hi] at h
      cases j with
      | zero => exact absurd hi h4
      | succ j => exact step g ⟨rfl, rfl, rfl, rfl, rfl⟩ h j (by simpa using hj) h4
    · rw [if_neg hi] at h
      dsimp only at h
      rw [popa_lin hf] at h
      by_cases hr : ok (lin g.st (offB g.st bx)) k false = true
      · rw [if_pos hr] at h
        cases j with
        | zero =>
          have : offB g.st bx % modulus g.st = offB g.st bx := by
            apply Nat.mod_eq_of_lt
            unfold offB modulus
            have := bx.isLt
            split <;> omega
          rw [Nat.mul_zero, Nat.add_zero, this]; exact hr
        | succ j => exact step _ (set_same _ _ _) h j (by simpa using hj) h4
      · rw [if_neg hr] at h; cases h

end Verif.Stack
