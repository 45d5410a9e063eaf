import Verif.Spec.Frame
import Verif.Lemmas.GuestMem
import Verif.Lemmas.Oks
import Verif.Props.Seg
/- Pushing a frame and popping it again. -/
namespace Verif.Seg
open Guest (load store load_store store_other load_congr)
open Spec (AgreeCore mode level stackAddr stackItem stack32)

theorem low16_toNat (x : BitVec 32) : ((x.setWidth 16 : BitVec 16).setWidth 32 : BitVec 32).toNat = x.toNat % 65536 := by
  rw [BitVec.toNat_setWidth, BitVec.toNat_setWidth]; omega

theorem mask_eq (b : Bool) (x : BitVec 32) :
    x &&& stackMask b = if b then x else (x.setWidth 16 : BitVec 16).setWidth 32 := by
  cases b
  · apply BitVec.eq_of_toNat_eq
    show (x &&& 0xFFFF#32).toNat = _
    rw [if_neg (by simp), low16_toNat, BitVec.toNat_and]
    exact Nat.and_two_pow_sub_one_eq_mod x.toNat 16
  · show x &&& 0xFFFFFFFF#32 = _
    rw [if_pos rfl]
    apply BitVec.eq_of_toNat_eq
    rw [BitVec.toNat_and]
    have := Nat.and_two_pow_sub_one_eq_mod x.toNat 32
    have h := x.isLt
    simp at this ⊢
    omega

/-- Distance between two items of a stack. -/
theorem item_apart (b : Bool) (base x : BitVec 32) (o w i : Nat) (h1 : w ≤ o) (h2 : o + i < 65536) (h3 : 0 < w) :
    w ≤ (base + ((x + BitVec.ofNat 32 o) &&& stackMask b) + BitVec.ofNat 32 i - (base + (x &&& stackMask b))).toNat := by
  rw [mask_eq, mask_eq]
  cases b
  · simp only [Bool.false_eq_true, if_false]
    have e1 := low16_toNat (x + BitVec.ofNat 32 o)
    have e2 := low16_toNat x
    generalize ((x + BitVec.ofNat 32 o).setWidth 16 : BitVec 16).setWidth 32 = u at *
    generalize ((x.setWidth 16 : BitVec 16).setWidth 32 : BitVec 32) = v at *
    have e : base + u + BitVec.ofNat 32 i - (base + v) = u + BitVec.ofNat 32 i - v := by grind
    rw [e]
    simp only [BitVec.toNat_add, BitVec.toNat_sub, BitVec.toNat_ofNat] at *
    have hx := x.isLt
    omega
  · simp only [if_true]
    have e : base + (x + BitVec.ofNat 32 o) + BitVec.ofNat 32 i - (base + x) = BitVec.ofNat 32 (o + i) := by
      rw [BitVec.ofNat_add]; grind
    rw [e, BitVec.toNat_ofNat]
    omega

theorem pushRaw_ok {acc : Acc} {k p : Nat} {base mask sp v sp' : BitVec 32} {s s' : Cpu}
    (h : pushRaw acc k base mask p sp v s = .ok sp' s') :
    sp' = sp - BitVec.ofNat 32 k ∧ s'.r = s.r ∧ s'.mem = store s.mem (base + (sp' &&& mask)) k v.toNat := by
  unfold pushRaw at h
  simp only [bind_ok] at h
  obtain ⟨_, s1, hw, hp⟩ := h
  cases hp
  unfold wr at hw
  split at hw
  · cases hw; exact ⟨rfl, rfl, rfl⟩
  · cases hw

/-- A push below the stack pointer leaves what is above it. -/
theorem push_above {m : Guest.Mem} {b : Bool} {base sp : BitVec 32} {k w v o : Nat} (hk : 0 < k) (ho : o + k + w ≤ 65536) :
    load (store m (base + ((sp - BitVec.ofNat 32 k) &&& stackMask b)) k v) (base + ((sp + BitVec.ofNat 32 o) &&& stackMask b)) w =
      load m (base + ((sp + BitVec.ofNat 32 o) &&& stackMask b)) w := by
  apply load_congr
  intro i hi
  apply store_other
  have e : sp + BitVec.ofNat 32 o = (sp - BitVec.ofNat 32 k) + BitVec.ofNat 32 (o + k) := by
    rw [BitVec.ofNat_add]; grind
  rw [e]
  exact item_apart b base _ (o + k) k i (by omega) (by omega) hk

theorem pushAll_ok {acc : Acc} {k p : Nat} {base : BitVec 32} {b : Bool} (hk : 0 < k) :
    ∀ (vs : List (BitVec 32)) {sp sp' : BitVec 32} {s s' : Cpu}, k * vs.length ≤ 4096 → k ≤ 16 →
    pushAll acc k base (stackMask b) p vs sp s = .ok sp' s' →
    sp' = sp - BitVec.ofNat 32 (k * vs.length) ∧ s'.r = s.r ∧
    (∀ o w, o + w + k * vs.length ≤ 65536 → load s'.mem (base + ((sp + BitVec.ofNat 32 o) &&& stackMask b)) w =
      load s.mem (base + ((sp + BitVec.ofNat 32 o) &&& stackMask b)) w) ∧
    (∀ i (h : i < vs.length), load s'.mem (base + ((sp' + BitVec.ofNat 32 (k * i)) &&& stackMask b)) k =
      (vs[vs.length - 1 - i]).toNat % 256 ^ k) := by
  intro vs
  induction vs with
  | nil =>
    intro sp sp' s s' _ _ h
    cases h
    refine ⟨by simp, rfl, fun _ _ _ => rfl, fun i h => by simp at h⟩
  | cons v vs ih =>
    intro sp sp' s s' hl hk16 h
    unfold pushAll at h
    simp only [bind_ok] at h
    obtain ⟨sp1, s1, h1, h2⟩ := h
    obtain ⟨e1, r1, m1⟩ := pushRaw_ok h1
    have hl2 : k * (vs.length + 1) = k * vs.length + k := Nat.mul_succ ..
    simp only [List.length_cons] at hl ⊢
    obtain ⟨e2, r2, a2, b2⟩ := ih (by omega) hk16 h2
    refine ⟨?_, r2.trans r1, fun o w ho => ?_, fun i hi => ?_⟩
    · rw [e2, e1, hl2, BitVec.ofNat_add]; grind
    · have e : sp + BitVec.ofNat 32 o = sp1 + BitVec.ofNat 32 (o + k) := by
        rw [e1, BitVec.ofNat_add]; grind
      rw [e, a2 (o + k) w (by omega), m1, ← e, e1]
      exact push_above hk (by omega)
    · by_cases hi2 : i < vs.length
      · rw [b2 i hi2]
        have : vs.length + 1 - 1 - i = (vs.length - 1 - i) + 1 := by omega
        simp only [this, List.getElem_cons_succ]
      · have hie : i = vs.length := by omega
        subst hie
        have e : sp' + BitVec.ofNat 32 (k * vs.length) = sp1 + BitVec.ofNat 32 0 := by
          rw [e2, BitVec.sub_add_cancel]; simp
        rw [e, a2 0 k (by omega), m1]
        simp only [BitVec.add_zero]
        rw [load_store _ _ _ _ _ (Nat.le_refl k) (by omega)]
        simp

theorem stackAddr_eq (r : Regs) (w i : Nat) :
    stackAddr r w i = r.ss.base + ((r.esp + BitVec.ofNat 32 (w * i)) &&& stackMask (stack32 r)) := by
  unfold stackAddr; rw [mask_eq]

theorem ss32_eq {r : Regs} (h : AgreeCore r) : (r.hflags &&& H_SS32 != 0#32) = stack32 r := by
  have h1 := h.stack32
  have h2 := and_ne_zero_bit r.hflags H_SS32 3 (by omega) rfl
  rw [← h1]
  cases hh : r.hflags[3]
  · rw [hh] at h2; simp at h2; simp [h2]
  · rw [hh] at h2; simp at h2; simp [h2]

theorem load32_lt (m : Guest.Mem) (a : BitVec 32) : load m a 4 < 2 ^ 32 := by
  have := Guest.load_lt m a 4; omega

/-- Popping a double word: it faults or gives the item. -/
theorem bind_popV4 {β : Type} (acc : Acc) (sp : BitVec 32) (f : BitVec 32 × BitVec 32 → M β) (s : Cpu) (h : AgreeCore s.r) :
    (popV acc 4 sp >>= f) s =
      if acc s (s.r.ss.base + (sp &&& stackMask (stack32 s.r))) 4 false 0 = true then
        f (BitVec.ofNat 32 (load s.mem (s.r.ss.base + (sp &&& stackMask (stack32 s.r))) 4),
          (sp &&& stackMask (stack32 s.r)) + 4#32) s
      else .stop .fault s := by
  have e : (if s.r.hflags &&& H_SS32 ≠ 0#32 ∧ (4 : Nat) = 4 then sp else (sp.setWidth 16 : BitVec 16).setWidth 32) =
      sp &&& stackMask (stack32 s.r) := by
    rw [mask_eq, ← ss32_eq h]
    by_cases h0 : s.r.hflags &&& H_SS32 = 0#32
    · simp [h0]
    · simp [h0]
  have hb : (popV acc 4 sp) s = if acc s (s.r.ss.base + (sp &&& stackMask (stack32 s.r))) 4 false 0 = true then
        .ok (BitVec.ofNat 32 (load s.mem (s.r.ss.base + (sp &&& stackMask (stack32 s.r))) 4),
          (sp &&& stackMask (stack32 s.r)) + 4#32) s
      else .stop .fault s := by
    unfold popV
    rw [bind_getR, e]
    have c : (sp &&& stackMask (stack32 s.r)) + s.r.ss.base = s.r.ss.base + (sp &&& stackMask (stack32 s.r)) := BitVec.add_comm ..
    rw [c]
    simp only [bind, rd, pure]
    cases acc s (s.r.ss.base + (sp &&& stackMask (stack32 s.r))) 4 false 0 <;> rfl
  by_cases ha : acc s (s.r.ss.base + (sp &&& stackMask (stack32 s.r))) 4 false 0 = true
  · rw [if_pos ha] at hb ⊢; exact bind_of_ok hb
  · rw [if_neg ha] at hb ⊢; exact bind_of_stop hb

/-- The stack pointer after a pop, masked, is the next item. -/
theorem pop_next (b : Bool) (x : BitVec 32) (n : Nat) :
    ((((x + BitVec.ofNat 32 (4 * n)) &&& stackMask b) + 4#32) &&& stackMask b) =
      (x + BitVec.ofNat 32 (4 * (n + 1))) &&& stackMask b := by
  have e : x + BitVec.ofNat 32 (4 * (n + 1)) = (x + BitVec.ofNat 32 (4 * n)) + 4#32 := by
    rw [Nat.mul_succ, BitVec.ofNat_add]; grind
  rw [e]
  generalize x + BitVec.ofNat 32 (4 * n) = y
  cases b
  · simp only [mask_eq, Bool.false_eq_true, if_false]
    apply BitVec.eq_of_toNat_eq
    rw [low16_toNat, low16_toNat, BitVec.toNat_add, BitVec.toNat_add, low16_toNat]
    simp
  · simp only [mask_eq, if_true]

end Verif.Seg
