import Verif.Model.Stack
import Verif.Lemmas.GuestMem
import Verif.Lemmas.Bits
/-
C66 (emitted stack instructions) and C39 (stack helpers).
-/
namespace Verif.Stack
open Guest

/-- The stack offset the architecture uses: ESP on 32 bit stacks, SP on 16 bit stacks. -/
def off (s : St) : Nat := if s.ss32 then s.esp.toNat else s.esp.toNat % 65536

/-- The size of the offset space. -/
def modulus (s : St) : Nat := if s.ss32 then 2 ^ 32 else 65536

/-- The linear address of stack offset `o`. -/
def lin (s : St) (o : Nat) : BitVec 32 := BitVec.ofNat 32 o + s.base

/-- HFLG_SS_IS_ZERO is only set when the base is zero. -/
def Flat (s : St) : Prop := s.ssZero = true → s.base = 0#32

/-- Everything but ESP's offset part and memory is the same. -/
def SameSeg (s t : St) : Prop :=
  t.base = s.base ∧ t.ss32 = s.ss32 ∧ t.ssZero = s.ssZero ∧ t.ebp = s.ebp ∧
  (s.ss32 = false → t.esp.toNat / 65536 = s.esp.toNat / 65536)

theorem SameSeg.refl (s : St) : SameSeg s s := ⟨rfl, rfl, rfl, rfl, fun _ => rfl⟩
theorem SameSeg.trans {s t u : St} (h : SameSeg s t) (h' : SameSeg t u) : SameSeg s u :=
  ⟨h'.1.trans h.1, h'.2.1.trans h.2.1, h'.2.2.1.trans h.2.2.1, h'.2.2.2.1.trans h.2.2.2.1,
   fun e => (h'.2.2.2.2 (h.2.1.trans e)).trans (h.2.2.2.2 e)⟩
theorem SameSeg.symm {s t : St} (h : SameSeg s t) : SameSeg t s :=
  ⟨h.1.symm, h.2.1.symm, h.2.2.1.symm, h.2.2.2.1.symm, fun e => (h.2.2.2.2 (h.2.1.symm.trans e)).symm⟩
theorem SameSeg.flat {s t : St} (h : SameSeg s t) (hf : Flat s) : Flat t := by
  intro e; rw [h.1]; exact hf (h.2.2.1 ▸ e)
theorem SameSeg.modulus {s t : St} (h : SameSeg s t) : modulus t = modulus s := by
  unfold Stack.modulus; rw [h.2.1]

theorem esp_ext {s t : St} (h : SameSeg s t) (ho : off t = off s) : t.esp = s.esp := by
  apply BitVec.eq_of_toNat_eq
  unfold off at ho
  rw [h.2.1] at ho
  cases h32 : s.ss32 with
  | true => simpa [h32] using ho
  | false =>
    have := h.2.2.2.2 h32
    simp [h32] at ho
    omega

theorem setLow_toNat (r : BitVec 32) (v : BitVec 16) :
    (setLow r v).toNat = r.toNat / 65536 * 65536 + v.toNat := by
  have hr := r.isLt
  have hv := v.isLt
  have e1 : (r &&& 0xFFFF0000#32).toNat = r.toNat / 65536 * 65536 := by
    have : r &&& 0xFFFF0000#32 = (r >>> 16) <<< 16 := by bits32
    rw [this, BitVec.toNat_shiftLeft, BitVec.toNat_ushiftRight, Nat.shiftRight_eq_div_pow,
      Nat.shiftLeft_eq]
    omega
  have e2 : (v.setWidth 32).toNat = v.toNat := by
    rw [BitVec.toNat_setWidth]; omega
  unfold setLow
  rw [BitVec.toNat_or, e1, e2, show r.toNat / 65536 * 65536 = 2 ^ 16 * (r.toNat / 65536) by omega,
    ← Nat.two_pow_add_eq_or_of_lt (by omega)]

theorem ofNat_self (x : BitVec 32) : BitVec.ofNat 32 x.toNat = x := by simp

theorem addr_lin {s : St} (hf : Flat s) (o : BitVec 32) : addr s o = lin s o.toNat := by
  unfold addr lin
  have : BitVec.ofNat 32 o.toNat = o := by simp
  rw [this]
  cases h : s.ssZero with
  | true => rw [hf h]; simp
  | false => simp

/-- C66, PUSH: the new stack pointer is the old one minus the operand size in the stack's width, the
value is stored there, and nothing else changes. -/
theorem C66_push (ok : Ok) {s s' : St} (hf : Flat s) {k v : Nat} (hk : k ≤ 4)
    (h : push ok s k v = some s') :
    off s' = (off s + modulus s - k) % modulus s ∧ s'.mem = store s.mem (lin s (off s')) k v ∧
    SameSeg s s' ∧ ok (lin s (off s')) k true = true := by
  have he := s.esp.isLt
  cases h32 : s.ss32 with
  | true =>
    unfold push at h
    simp only [h32, if_true] at h
    split at h
    · rename_i hok
      obtain rfl := Option.some.inj h
      have e : (s.esp - BitVec.ofNat 32 k).toNat = (s.esp.toNat + 2 ^ 32 - k) % 2 ^ 32 := by
        rw [BitVec.toNat_sub, BitVec.toNat_ofNat]; omega
      rw [addr_lin hf] at hok ⊢
      refine ⟨?_, ?_, ⟨rfl, h32.symm, rfl, rfl, ?_⟩, ?_⟩
      · simp only [off, modulus, h32, if_true]; exact e
      · simp [off, h32, lin]
      · intro h; rw [h32] at h; exact absurd h (by simp)
      · simpa [off, h32, lin] using hok
    · exact absurd h (by simp)
  | false =>
    unfold push at h
    simp only [h32, Bool.false_eq_true, if_false] at h
    split at h
    · rename_i hok
      obtain rfl := Option.some.inj h
      have e : (s.esp.setWidth 16 - BitVec.ofNat 16 k : BitVec 16).toNat =
          (s.esp.toNat % 65536 + 65536 - k) % 65536 := by
        rw [BitVec.toNat_sub, BitVec.toNat_setWidth, BitVec.toNat_ofNat]; omega
      have e2 : (setLow s.esp (s.esp.setWidth 16 - BitVec.ofNat 16 k)).toNat % 65536 =
          (s.esp.setWidth 16 - BitVec.ofNat 16 k : BitVec 16).toNat := by
        rw [setLow_toNat]; omega
      have e3 : ((s.esp.setWidth 16 - BitVec.ofNat 16 k : BitVec 16).setWidth 32).toNat =
          (s.esp.setWidth 16 - BitVec.ofNat 16 k : BitVec 16).toNat := by
        rw [BitVec.toNat_setWidth]; omega
      rw [addr_lin hf, e3] at hok ⊢
      refine ⟨?_, ?_, ⟨rfl, h32.symm, rfl, rfl, ?_⟩, ?_⟩
      · simp only [off, modulus, h32, Bool.false_eq_true, if_false]; rw [e2, e]
      · simp only [off, h32, Bool.false_eq_true, if_false, e2, lin]
      · intro _; show (setLow _ _).toNat / 65536 = _; rw [setLow_toNat]; omega
      · simp only [off, h32, Bool.false_eq_true, if_false, e2]; exact hok
    · exact absurd h (by simp)

/-- C66, POP: reads at the stack pointer and adds the operand size in the stack's width. -/
theorem C66_pop (ok : Ok) {s : St} (hf : Flat s) {k : Nat} (hk : k ≤ 4)
    (hok : ok (lin s (off s)) k false = true) :
    ∃ s', pop ok s k = some (load s.mem (lin s (off s)) k, s') ∧
      off s' = (off s + k) % modulus s ∧ s'.mem = s.mem ∧ SameSeg s s' := by
  have he := s.esp.isLt
  cases h32 : s.ss32 with
  | true =>
    have ho : off s = s.esp.toNat := by simp [off, h32]
    refine ⟨{ s with esp := s.esp + BitVec.ofNat 32 k }, ?_, ?_, rfl, ⟨rfl, rfl, rfl, rfl, ?_⟩⟩
    · unfold pop popVal
      simp only [h32, if_true, addr_lin hf, ← ho, hok, Option.map_some]
    · simp only [off, modulus, h32, if_true, BitVec.toNat_add, BitVec.toNat_ofNat]; omega
    · intro h; rw [h32] at h; exact absurd h (by simp)
  | false =>
    have ho : off s = s.esp.toNat % 65536 := by simp [off, h32]
    have e3 : ((s.esp.setWidth 16 : BitVec 16).setWidth 32 : BitVec 32).toNat = off s := by
      rw [BitVec.toNat_setWidth, BitVec.toNat_setWidth, ho]; omega
    have e2 : (s.esp.setWidth 16 + BitVec.ofNat 16 k : BitVec 16).toNat =
        (s.esp.toNat % 65536 + k) % 65536 := by
      rw [BitVec.toNat_add, BitVec.toNat_setWidth, BitVec.toNat_ofNat]; omega
    refine ⟨{ s with esp := setLow s.esp (s.esp.setWidth 16 + BitVec.ofNat 16 k) }, ?_, ?_, rfl,
      ⟨rfl, rfl, rfl, rfl, ?_⟩⟩
    · unfold pop popVal
      simp only [h32, Bool.false_eq_true, if_false, addr_lin hf, e3, hok, if_true, Option.map_some]
    · simp only [off, modulus, h32, Bool.false_eq_true, if_false]
      rw [setLow_toNat, e2]; omega
    · intro _; show (setLow _ _).toNat / 65536 = _; rw [setLow_toNat]; omega

/-- Push a list of (size, value) items, first item first. -/
def pushAll (ok : Ok) : St → List (Nat × Nat) → Option St
  | s, [] => some s
  | s, (k, v) :: l => match push ok s k v with
    | none => none
    | some s' => pushAll ok s' l

/-- Pop values of the given sizes. -/
def popAll (ok : Ok) : St → List Nat → Option (List Nat × St)
  | s, [] => some ([], s)
  | s, k :: l => match pop ok s k with
    | none => none
    | some (v, s') => match popAll ok s' l with
      | none => none
      | some (vs, s'') => some (v :: vs, s'')

/-- The bytes pushed. -/
def total (l : List (Nat × Nat)) : Nat := (l.map Prod.fst).sum

theorem total_cons (k v : Nat) (l : List (Nat × Nat)) : total ((k, v) :: l) = k + total l := by
  simp [total]

theorem lin_sub (s : St) (a b i : Nat) :
    (lin s a + BitVec.ofNat 32 i - lin s b) = BitVec.ofNat 32 (a + i) - BitVec.ofNat 32 b := by
  unfold lin
  rw [BitVec.ofNat_add]
  grind

/-- Bytes of an earlier item are not touched by later pushes. -/
theorem pushAll_frame (ok : Ok) (l : List (Nat × Nat)) (hl : ∀ p ∈ l, p.1 ≤ 4) (s s' : St)
    (hf : Flat s) (o S k0 i : Nat) (ho : o < modulus s) (hS : S ≤ modulus s)
    (hoff : off s = (o + modulus s - S) % modulus s)
    (hlim : S + total l + k0 ≤ modulus s) (hi : i < k0) (h : pushAll ok s l = some s') :
    s'.mem (lin s o + BitVec.ofNat 32 i) = s.mem (lin s o + BitVec.ofNat 32 i) := by
  induction l generalizing s S with
  | nil => rw [pushAll] at h; obtain rfl := Option.some.inj h; rfl
  | cons p l ih =>
    obtain ⟨k, v⟩ := p
    rw [total_cons] at hlim
    rw [pushAll] at h
    cases hp : push ok s k v with
    | none => rw [hp] at h; exact absurd h (by simp)
    | some s1 =>
      rw [hp] at h
      have hk : k ≤ 4 := hl (k, v) (by simp)
      obtain ⟨h1, h2, h3, _⟩ := C66_push ok hf hk hp
      have hM := h3.modulus
      have hMle : modulus s ≤ 2 ^ 32 := by unfold modulus; split <;> omega
      have hMge : 65536 ≤ modulus s := by unfold modulus; split <;> omega
      have hlin : lin s1 o = lin s o := by unfold lin; rw [h3.1]
      have := ih (fun q hq => hl q (by simp [hq])) s1 (h3.flat hf) (S + k) (by omega) (by omega)
        (by rw [h1, hoff, hM]; generalize modulus s = M at *; 
            have : (o + M - S) % M = if S ≤ o then o - S else o + M - S := by
              split
              · rw [show o + M - S = o - S + M by omega, Nat.add_mod_right, Nat.mod_eq_of_lt (by omega)]
              · exact Nat.mod_eq_of_lt (by omega)
            rw [this]
            split
            · congr 1; omega
            · rw [show o + M - S + M - k = o + M - (S + k) + M by omega, Nat.add_mod_right]) (by omega) h
      rw [hlin] at this
      rw [this, h2]
      apply store_other
      rw [lin_sub, BitVec.toNat_sub, BitVec.toNat_ofNat, BitVec.toNat_ofNat, h1, hoff]
      generalize hm : modulus s = M at *
      have e1 : (o + M - S) % M = if S ≤ o then o - S else o + M - S := by
        split
        · rw [show o + M - S = o - S + M by omega, Nat.add_mod_right, Nat.mod_eq_of_lt (by omega)]
        · exact Nat.mod_eq_of_lt (by omega)
      have e2 : ((o + M - S) % M + M - k) % M = if S + k ≤ o then o - (S + k) else o + M - (S + k) := by
        rw [e1]
        split <;> split
        · rw [show o - S + M - k = o - (S + k) + M by omega, Nat.add_mod_right, Nat.mod_eq_of_lt (by omega)]
        · rw [Nat.mod_eq_of_lt (by omega)]; omega
        · omega
        · rw [show o + M - S + M - k = o + M - (S + k) + M by omega, Nat.add_mod_right,
            Nat.mod_eq_of_lt (by omega)]
      rw [e2]
      unfold modulus at hm
      split at hm <;> subst hm <;> split <;> omega

theorem pushAll_same (ok : Ok) (l : List (Nat × Nat)) (hl : ∀ p ∈ l, p.1 ≤ 4) (s s' : St) (hf : Flat s)
    (h : pushAll ok s l = some s') : SameSeg s s' := by
  induction l generalizing s with
  | nil => rw [pushAll] at h; obtain rfl := Option.some.inj h; exact SameSeg.refl _
  | cons p l ih =>
    obtain ⟨k, v⟩ := p
    rw [pushAll] at h
    cases hp : push ok s k v with
    | none => rw [hp] at h; exact absurd h (by simp)
    | some s1 =>
      rw [hp] at h
      obtain ⟨_, _, h3, _⟩ := C66_push ok hf (hl (k, v) (by simp)) hp
      exact h3.trans (ih (fun q hq => hl q (by simp [hq])) s1 (h3.flat hf) h)

theorem popAll_append (ok : Ok) (a b : List Nat) (s : St) :
    popAll ok s (a ++ b) = match popAll ok s a with
      | none => none
      | some (v, s') => match popAll ok s' b with
        | none => none
        | some (w, s'') => some (v ++ w, s'') := by
  induction a generalizing s with
  | nil =>
    simp only [List.nil_append, popAll]
    cases popAll ok s b with
    | none => rfl
    | some p => rfl
  | cons k a ih =>
    simp only [List.cons_append, popAll]
    cases pop ok s k with
    | none => rfl
    | some p =>
      obtain ⟨v, s'⟩ := p
      simp only [ih]
      cases popAll ok s' a with
      | none => rfl
      | some q =>
        obtain ⟨w, s''⟩ := q
        simp only []
        cases popAll ok s'' b with
        | none => rfl
        | some r => rfl

/-- C66: pushing any list of items and popping the same sizes in reverse order returns the values in
reverse order and restores the stack pointer, on 16 and 32 bit stacks, through any wrap-around, as
long as the items fit in the stack's offset space. -/
theorem C66_lifo (ok : Ok) (hrw : ∀ a k, ok a k true = true → ok a k false = true)
    (l : List (Nat × Nat)) (hl : ∀ p ∈ l, p.1 ≤ 4) (s s' : St) (hf : Flat s)
    (hlim : total l ≤ modulus s) (h : pushAll ok s l = some s') :
    popAll ok s' (l.reverse.map Prod.fst) =
      some (l.reverse.map (fun p => p.2 % 256 ^ p.1), { s with mem := s'.mem }) := by
  induction l generalizing s with
  | nil => rw [pushAll] at h; obtain rfl := Option.some.inj h; rfl
  | cons p l ih =>
    obtain ⟨k, v⟩ := p
    rw [total_cons] at hlim
    rw [pushAll] at h
    cases hp : push ok s k v with
    | none => rw [hp] at h; exact absurd h (by simp)
    | some s1 =>
      rw [hp] at h
      have hk : k ≤ 4 := hl (k, v) (by simp)
      have hl' : ∀ q ∈ l, q.1 ≤ 4 := fun q hq => hl q (by simp [hq])
      obtain ⟨h1, h2, h3, h4⟩ := C66_push ok hf hk hp
      have hf1 := h3.flat hf
      have hM := h3.modulus
      have hMle : modulus s ≤ 2 ^ 32 := by unfold modulus; split <;> omega
      have hMge : 65536 ≤ modulus s := by unfold modulus; split <;> omega
      have hlt1 : off s1 < modulus s := by rw [h1]; exact Nat.mod_lt _ (by omega)
      have hlt : off s < modulus s := by
        unfold off modulus
        split
        · exact s.esp.isLt
        · omega
      have := ih hl' s1 hf1 (by omega) h
      simp only [List.reverse_cons, List.map_append, List.map_cons, List.map_nil]
      rw [popAll_append, this]
      simp only []
      -- the last pop
      have hlin : ∀ o, lin { s1 with mem := s'.mem } o = lin s o := by
        intro o; unfold lin; simp only; rw [h3.1]
      have hoff : off { s1 with mem := s'.mem } = off s1 := rfl
      have hf2 : Flat { s1 with mem := s'.mem } := hf1
      obtain ⟨t, e1, e2, e3, e4⟩ := C66_pop ok (s := { s1 with mem := s'.mem }) hf2 hk
        (by rw [hlin, hoff]; exact hrw _ _ h4)
      simp only [popAll, e1]
      have hmod : modulus { s1 with mem := s'.mem } = modulus s := hM
      have hval : load s'.mem (lin s (off s1)) k = v % 256 ^ k := by
        rw [← load_store s.mem (lin s (off s1)) k v k (Nat.le_refl _) (by omega), ← h2]
        apply load_congr
        intro i hi
        have hl1 : lin s (off s1) = lin s1 (off s1) := by unfold lin; rw [h3.1]
        rw [hl1]
        exact pushAll_frame ok l hl' s1 s' hf1 (off s1) 0 k i (by omega) (by omega)
          (by rw [Nat.sub_zero, Nat.add_mod_right, Nat.mod_eq_of_lt (by omega)]) (by omega) hi h
      have hsame : SameSeg s t := h3.trans (show SameSeg s1 t from e4)
      have hofft : off t = off s := by
        rw [e2, hmod, hoff, h1]
        generalize modulus s = M at *
        by_cases hc : k ≤ off s
        · rw [show off s + M - k = off s - k + M by omega, Nat.add_mod_right,
            Nat.mod_eq_of_lt (show off s - k < M by omega), Nat.sub_add_cancel hc, Nat.mod_eq_of_lt hlt]
        · rw [Nat.mod_eq_of_lt (show off s + M - k < M by omega), Nat.sub_add_cancel (by omega),
            Nat.add_mod_right, Nat.mod_eq_of_lt hlt]
      have hesp : t.esp = s.esp := esp_ext hsame hofft
      have ht : t = { s with mem := s'.mem } := by
        obtain ⟨b1, b2, b3, b4, _⟩ := hsame
        cases t; cases s
        simp only at b1 b2 b3 b4 hesp e3 ⊢
        subst b1 b2 b3 b4 hesp e3
        rfl
      rw [ht, hlin, hoff, hval]

/-- C66: only SP changes on a 16 bit stack. -/
theorem C66_high_half (ok : Ok) {s s' : St} (hf : Flat s) {k v : Nat} (hk : k ≤ 4) (h16 : s.ss32 = false)
    (h : push ok s k v = some s') : s'.esp >>> 16 = s.esp >>> 16 := by
  have := (C66_push ok hf hk h).2.2.1.2.2.2.2 h16
  apply BitVec.eq_of_toNat_eq
  rw [BitVec.toNat_ushiftRight, BitVec.toNat_ushiftRight, Nat.shiftRight_eq_div_pow,
    Nat.shiftRight_eq_div_pow]
  exact this

/-- C66, LEAVE: it completes if the stack can be read at EBP (BP on a 16 bit stack); the stack pointer becomes EBP plus the operand
size, in the stack's width, and EBP (BP) the value found there.  Nothing else changes. -/
theorem C66_leave (ok : Ok) (s : St) (hf : Flat s) (k : Nat) (hk : k = 2 ∨ k = 4)
    (hok : ok (lin s (s.ebp.toNat % modulus s)) k false = true) :
    ∃ t, leave ok s k = .done t ∧ off t = (s.ebp.toNat % modulus s + k) % modulus s ∧
      t.ebp.toNat = (if k = 2 then s.ebp.toNat / 65536 * 65536 else 0) + load s.mem (lin s (s.ebp.toNat % modulus s)) k ∧
      t.mem = s.mem ∧ t.base = s.base ∧ t.ss32 = s.ss32 ∧ t.ssZero = s.ssZero ∧
      (s.ss32 = false → t.esp.toNat / 65536 = s.esp.toNat / 65536) := by
  unfold leave
  generalize hs1 : (if s.ss32 then { s with esp := s.ebp } else { s with esp := setLow s.esp (s.ebp.setWidth 16) }) = s1
  have hb : s1.base = s.base ∧ s1.ss32 = s.ss32 ∧ s1.ssZero = s.ssZero ∧ s1.ebp = s.ebp ∧ s1.mem = s.mem := by
    rw [← hs1]; split <;> exact ⟨rfl, rfl, rfl, rfl, rfl⟩
  obtain ⟨b1, b2, b3, b4, b5⟩ := hb
  have hM : modulus s1 = modulus s := by unfold modulus; rw [b2]
  have ho : off s1 = s.ebp.toNat % modulus s := by
    unfold off modulus
    rw [b2, ← hs1]
    cases h32 : s.ss32 with
    | true => simp only [if_true]; have := s.ebp.isLt; omega
    | false => simp only [Bool.false_eq_true, if_false]; rw [setLow_toNat, BitVec.toNat_setWidth]; omega
  have hh : s.ss32 = false → s1.esp.toNat / 65536 = s.esp.toNat / 65536 := by
    intro h32
    rw [← hs1, h32]
    simp only [Bool.false_eq_true, if_false]
    rw [setLow_toNat, BitVec.toNat_setWidth]; omega
  have hl : ∀ o, lin s1 o = lin s o := fun o => by unfold lin; rw [b1]
  have hf1 : Flat s1 := by intro e; rw [b1]; exact hf (b3 ▸ e)
  obtain ⟨s2, p1, p2, p3, p4⟩ := C66_pop ok hf1 (show k ≤ 4 by omega) (by rw [hl, ho]; exact hok)
  simp only [p1]
  refine ⟨_, rfl, ?_, ?_, p3.trans b5, p4.1.trans b1, p4.2.1.trans b2, p4.2.2.1.trans b3, ?_⟩
  · show off s2 = _
    rw [p2, ho, hM]
  · show (setSized s2.ebp k _).toNat = _
    rw [p4.2.2.2.1, b4, hl, ho, b5]
    have := load_lt s.mem (lin s (s.ebp.toNat % modulus s)) k
    rcases hk with rfl | rfl
    · simp only [setSized, show ¬ (2 : Nat) = 4 by decide, if_false, if_true]
      rw [setLow_toNat, BitVec.toNat_ofNat]
      omega
    · simp only [setSized, if_true, BitVec.toNat_ofNat, show ¬ (4 : Nat) = 2 by decide, if_false]
      omega
  · intro h32
    exact (p4.2.2.2.2 (b2.trans h32)).trans (hh h32)

/-- An example state: 32 bit flat stack. -/
def sEx : St := { esp := 0x1000#32, ebp := 0x2000#32, base := 0#32, ss32 := true, ssZero := true,
                  mem := fun _ => 0#8 }

/-- The code violates C66 (1): when the pop of LEAVE faults, ESP has already been overwritten with
EBP. -/
theorem C66_leave_fault_violation :
    ∃ (ok : Ok) (s t : St), leave ok s 4 = .fault t ∧ t.esp ≠ s.esp :=
  ⟨fun _ _ _ => false, sEx, { sEx with esp := 0x2000#32 }, rfl, by decide⟩

/-- What the SDM says of POP to memory: the destination address uses the incremented ESP. -/
def popMemSpec (ok : Ok) (s : St) (k : Nat) (dst : BitVec 32 → BitVec 32) : Option St :=
  match popVal ok s k with
  | none => none
  | some (v, e) => if ok (dst e) k true then some { s with esp := e, mem := store s.mem (dst e) k v } else none

/-- C66, POP to memory: right whenever the address does not depend on ESP. -/
theorem C66_pop_mem_partial (ok : Ok) (s : St) (k : Nat) (dst : BitVec 32 → BitVec 32)
    (hd : ∀ e e', dst e = dst e') : popMem ok s k dst = popMemSpec ok s k dst := by
  unfold popMem popMemSpec
  cases popVal ok s k with
  | none => rfl
  | some p =>
    obtain ⟨v, e⟩ := p
    simp only [hd s.esp e]

/-- The code violates C66 (2): `POP [ESP]` stores to the old top of the stack. -/
theorem C66_pop_mem_violation :
    ∃ (ok : Ok) (s t u : St) (dst : BitVec 32 → BitVec 32),
      popMem ok s 4 dst = some t ∧ popMemSpec ok s 4 dst = some u ∧
      t.mem 0x1004#32 ≠ u.mem 0x1004#32 := by
  refine ⟨fun _ _ _ => true, { sEx with mem := fun a => if a = 0x1000#32 then 7#8 else 0#8 }, _, _, id, rfl, rfl, ?_⟩
  decide +kernel

-- Non-trivial case: a 16 bit stack that wraps.
example : ∃ s', pushAll (fun _ _ _ => true) { sEx with esp := 0x12340002#32, ss32 := false }
    [(4, 0xAABBCCDD), (2, 0x1122)] = some s' ∧ s'.esp = 0x1234FFFC#32 := ⟨_, rfl, by decide⟩

/-! ### C39 -/

/-- The stack offset as the helpers keep it in their local variable. -/
def offH (s : St) (sp : BitVec 32) : Nat := if s.ss32 then sp.toNat else sp.toNat % 65536

/-- C39: the helper pushes at the stack pointer minus the operand size in the stack's width, except
that 16 bit pushes on a 32 bit stack are excluded (the code truncates the pointer there). -/
theorem C39_push_partial (ok : Ok) (s t : St) (sp sp' : BitVec 32) (k v : Nat) (hk : k = 2 ∨ k = 4)
    (hx : ¬ (s.ss32 = true ∧ k = 2)) (h : pushH ok s sp k v = some (sp', t)) :
    offH s sp' = (offH s sp + modulus s - k) % modulus s ∧
    t = { s with mem := store s.mem (lin s (offH s sp')) k v } := by
  have hsp := sp.isLt
  unfold pushH at h
  simp only at h
  cases h32 : s.ss32 with
  | true =>
    have hk4 : k = 4 := by
      rcases hk with h2 | h2
      · exact absurd ⟨h32, h2⟩ hx
      · exact h2
    subst hk4
    simp only [h32, and_self, if_true] at h
    split at h
    · obtain ⟨rfl, rfl⟩ := Prod.mk.inj (Option.some.inj h)
      refine ⟨?_, ?_⟩
      · simp only [offH, modulus, h32, if_true, BitVec.toNat_sub, BitVec.toNat_ofNat]; omega
      · simp only [offH, lin, h32, if_true, ofNat_self]
    · exact absurd h (by simp)
  | false =>
    simp only [h32, Bool.false_eq_true, false_and, if_false] at h
    have e : ((sp.setWidth 16 : BitVec 16) - BitVec.ofNat 16 k).toNat =
        (sp.toNat % 65536 + 65536 - k) % 65536 := by
      rw [BitVec.toNat_sub, BitVec.toNat_setWidth, BitVec.toNat_ofNat]; omega
    have e2 : (((sp.setWidth 16 : BitVec 16) - BitVec.ofNat 16 k).setWidth 32 : BitVec 32).toNat =
        (sp.toNat % 65536 + 65536 - k) % 65536 := by
      rw [BitVec.toNat_setWidth, e]; omega
    split at h
    · obtain ⟨rfl, rfl⟩ := Prod.mk.inj (Option.some.inj h)
      refine ⟨?_, ?_⟩
      · simp only [offH, modulus, h32, Bool.false_eq_true, if_false, e2]; omega
      · have : BitVec.ofNat 32 (((sp.setWidth 16 : BitVec 16) - BitVec.ofNat 16 k).setWidth 32 : BitVec 32).toNat =
            ((sp.setWidth 16 : BitVec 16) - BitVec.ofNat 16 k).setWidth 32 := ofNat_self _
        simp only [offH, lin, h32, Bool.false_eq_true, if_false]
        rw [Nat.mod_eq_of_lt (by rw [e2]; omega), this]
    · exact absurd h (by simp)

/-- C39: the helper pops at the stack pointer; the returned pointer is right in the stack's width. -/
theorem C39_pop_partial (ok : Ok) (s : St) (sp sp' : BitVec 32) (k v : Nat) (hk : k = 2 ∨ k = 4)
    (hx : ¬ (s.ss32 = true ∧ k = 2)) (h : popH ok s sp k = some (v, sp')) :
    v = load s.mem (lin s (offH s sp)) k ∧ offH s sp' = (offH s sp + k) % modulus s := by
  have hsp := sp.isLt
  unfold popH at h
  simp only at h
  cases h32 : s.ss32 with
  | true =>
    have hk4 : k = 4 := by
      rcases hk with h2 | h2
      · exact absurd ⟨h32, h2⟩ hx
      · exact h2
    subst hk4
    simp only [h32, and_self, if_true] at h
    split at h
    · obtain ⟨rfl, rfl⟩ := Prod.mk.inj (Option.some.inj h)
      refine ⟨?_, ?_⟩
      · simp [offH, lin, h32]
      · simp only [offH, modulus, h32, if_true, BitVec.toNat_add, BitVec.toNat_ofNat]
    · exact absurd h (by simp)
  | false =>
    simp only [h32, Bool.false_eq_true, false_and, if_false] at h
    have e2 : ((sp.setWidth 16 : BitVec 16).setWidth 32 : BitVec 32).toNat = sp.toNat % 65536 := by
      rw [BitVec.toNat_setWidth, BitVec.toNat_setWidth]; omega
    split at h
    · obtain ⟨rfl, rfl⟩ := Prod.mk.inj (Option.some.inj h)
      refine ⟨?_, ?_⟩
      · have : BitVec.ofNat 32 ((sp.setWidth 16 : BitVec 16).setWidth 32 : BitVec 32).toNat =
            ((sp.setWidth 16 : BitVec 16).setWidth 32 : BitVec 32) := ofNat_self _
        simp only [offH, lin, h32, Bool.false_eq_true, if_false, ← e2, this]
      · simp only [offH, modulus, h32, Bool.false_eq_true, if_false, BitVec.toNat_add, e2,
          BitVec.toNat_ofNat]
        rcases hk with h | h <;> subst h <;> omega
    · exact absurd h (by simp)

/-- C39: a helper push followed by a helper pop of the same size returns the value and the pointer,
for every stack size and operand size (including the truncating case). -/
theorem C39_push_pop (ok : Ok) (hrw : ∀ a k, ok a k true = true → ok a k false = true) (s t : St)
    (sp sp' : BitVec 32) (k v : Nat) (hk : k = 2 ∨ k = 4)
    (h : pushH ok s sp k v = some (sp', t)) :
    ∃ sp'', popH ok t sp' k = some (v % 256 ^ k, sp'') ∧
      sp''.toNat % 65536 = sp.toNat % 65536 ∧
      (s.ss32 = true → k = 4 → sp'' = sp) := by
  have hsp := sp.isLt
  have hk32 : k ≤ 2 ^ 32 := by rcases hk with h | h <;> omega
  unfold pushH at h
  simp only at h
  unfold popH
  by_cases hc : s.ss32 = true ∧ k = 4
  · simp only [hc, and_self, if_true] at h
    split at h
    · rename_i hok
      obtain ⟨rfl, rfl⟩ := Prod.mk.inj (Option.some.inj h)
      simp only [hc, and_self, if_true, hrw _ _ hok]
      rw [load_store _ _ _ _ _ (Nat.le_refl _) (by omega)]
      refine ⟨_, rfl, ?_, ?_⟩
      · rw [show sp - 4#32 + BitVec.ofNat 32 4 = sp by grind]
      · intro _ _; grind
    · exact absurd h (by simp)
  · simp only [hc, if_false] at h
    split at h
    · rename_i hok
      obtain ⟨rfl, rfl⟩ := Prod.mk.inj (Option.some.inj h)
      have e : (((sp.setWidth 16 : BitVec 16) - BitVec.ofNat 16 k).setWidth 32 : BitVec 32).setWidth 16 =
          ((sp.setWidth 16 : BitVec 16) - BitVec.ofNat 16 k) := by
        apply BitVec.eq_of_toNat_eq
        rw [BitVec.toNat_setWidth, BitVec.toNat_setWidth]
        have := ((sp.setWidth 16 : BitVec 16) - BitVec.ofNat 16 k).isLt
        omega
      simp only [hc, if_false, e, hrw _ _ hok, if_true]
      rw [load_store _ _ _ _ _ (Nat.le_refl _) hk32]
      refine ⟨_, rfl, ?_, ?_⟩
      · rw [BitVec.toNat_add, BitVec.toNat_setWidth, BitVec.toNat_sub, BitVec.toNat_setWidth,
          BitVec.toNat_ofNat, BitVec.toNat_ofNat]
        rcases hk with h | h <;> subst h <;> omega
      · intro h1 h2; exact absurd ⟨h1, h2⟩ hc
    · exact absurd h (by simp)

/-- The code violates C39 (1): a 16 bit push on a 32 bit stack with ESP = 0x12345678 goes to 0x5676
and the pointer loses its upper half. -/
theorem C39_push16_violation :
    ∃ (s t : St) (sp sp' : BitVec 32) (v : Nat), s.ss32 = true ∧ s.base = 0#32 ∧
      pushH (fun _ _ _ => true) s sp 2 v = some (sp', t) ∧
      sp = 0x12345678#32 ∧ sp' = 0x5676#32 ∧ t.mem 0x12345676#32 = s.mem 0x12345676#32 ∧
      t.mem 0x5676#32 ≠ s.mem 0x5676#32 :=
  ⟨sEx, _, 0x12345678#32, _, 0xAB, rfl, rfl, rfl, rfl, by decide, by decide +kernel, by decide +kernel⟩

/-- instructions.cpp 509-515: the far call of protected mode (same privilege) pushes CS and EIP with
the helper and then stores the helper's variable in ESP without masking. -/
def lcallEsp (ok : Ok) (s : St) (k cs eip : Nat) : Option St :=
  match pushH ok s s.esp k cs with
  | none => none
  | some (sp1, s1) => match pushH ok s1 sp1 k eip with
    | none => none
    | some (sp2, s2) => some { s2 with esp := sp2 }

/-- The code violates C39 (2): a protected mode far call on a 16 bit stack clears the upper half of
ESP. -/
theorem C39_lcall_high_half_violation :
    ∃ (s t : St), s.ss32 = false ∧ lcallEsp (fun _ _ _ => true) s 2 0x10 0x20 = some t ∧
      t.esp >>> 16 ≠ s.esp >>> 16 :=
  ⟨{ sEx with esp := 0x00121000#32, ss32 := false }, _, rfl, rfl, by decide +kernel⟩

/-- C39: on a 32 bit stack with 32 bit operands the far call leaves ESP eight lower and the return
address on the stack. -/
theorem C39_lcall_partial (s t : St) (ok : Ok) (cs eip : Nat) (h32 : s.ss32 = true)
    (h : lcallEsp ok s 4 cs eip = some t) :
    t.esp = s.esp - 8#32 ∧ load t.mem (t.esp + s.base) 4 = eip % 2 ^ 32 ∧
    load t.mem (t.esp + 4#32 + s.base) 4 = cs % 2 ^ 32 := by
  unfold lcallEsp at h
  split at h
  · exact absurd h (by simp)
  · rename_i sp1 s1 h1
    split at h
    · exact absurd h (by simp)
    · rename_i sp2 s2 h2
      obtain rfl := Option.some.inj h
      unfold pushH at h1
      simp only [h32, and_self, if_true] at h1
      split at h1
      · obtain ⟨rfl, rfl⟩ := Prod.mk.inj (Option.some.inj h1)
        unfold pushH at h2
        simp only [h32, and_self, if_true] at h2
        split at h2
        · obtain ⟨rfl, rfl⟩ := Prod.mk.inj (Option.some.inj h2)
          refine ⟨?_, ?_, ?_⟩
          · show s.esp - 4#32 - 4#32 = s.esp - 8#32; grind
          · exact load_store _ _ 4 _ 4 (Nat.le_refl _) (by omega)
          · show load (store (store s.mem (s.esp - 4#32 + s.base) 4 cs) (s.esp - 4#32 - 4#32 + s.base) 4 eip)
              (s.esp - 4#32 - 4#32 + 4#32 + s.base) 4 = _
            rw [← load_store s.mem (s.esp - 4#32 + s.base) 4 cs 4 (Nat.le_refl _) (by omega)]
            rw [show s.esp - 4#32 - 4#32 + 4#32 + s.base = s.esp - 4#32 + s.base by grind]
            apply load_congr
            intro i hi
            apply store_other
            rw [show s.esp - 4#32 + s.base + BitVec.ofNat 32 i - (s.esp - 4#32 - 4#32 + s.base) =
              BitVec.ofNat 32 i + 4#32 by grind, BitVec.toNat_add, BitVec.toNat_ofNat, BitVec.toNat_ofNat]
            omega
        · exact absurd h2 (by simp)
      · exact absurd h1 (by simp)

end Verif.Stack
