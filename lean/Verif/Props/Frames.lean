import Verif.Model.Frames
import Verif.Props.Stack
/-
C76: procedure frames and register frames (ENTER, LEAVE, PUSHA, POPA).
-/
namespace Verif.Stack
open Guest

theorem modulus_ge (s : St) : 65536 ≤ modulus s := by unfold modulus; split <;> omega
theorem modulus_le (s : St) : modulus s ≤ 2 ^ 32 := by unfold modulus; split <;> omega
theorem off_lt (s : St) : off s < modulus s := by
  unfold off modulus
  split
  · exact s.esp.isLt
  · omega

/-- Stack offset `n` bytes below the top. -/
def below (s : St) (n : Nat) : Nat := (off s + modulus s - n) % modulus s

theorem below_below (s t : St) (hm : modulus t = modulus s) (a b : Nat) (ho : off t = below s a) (h : a + b ≤ modulus s) :
    below t b = below s (a + b) := by
  unfold below at *
  rw [ho, hm]
  have := off_lt s
  generalize modulus s = M at *
  by_cases hc : a ≤ off s
  · rw [show off s + M - a = off s - a + M by omega, Nat.add_mod_right, Nat.mod_eq_of_lt (show off s - a < M by omega)]
    congr 1; omega
  · rw [Nat.mod_eq_of_lt (show off s + M - a < M by omega), show off s + M - a + M - b = off s + M - (a + b) + M by omega,
      Nat.add_mod_right]

/-- After pushing items, the stack pointer has moved by their sizes and item `j` is found below the top before. -/
theorem pushAll_read (ok : Ok) (l : List (Nat × Nat)) : ∀ (s s' : St), (∀ p ∈ l, p.1 ≤ 4) → Flat s → total l ≤ modulus s →
    pushAll ok s l = some s' →
    off s' = below s (total l) ∧
    ∀ (j : Nat) (hj : j < l.length), load s'.mem (lin s (below s (total (l.take (j + 1))))) l[j].1 = l[j].2 % 256 ^ l[j].1 ∧
      ok (lin s (below s (total (l.take (j + 1))))) l[j].1 true = true := by
  induction l with
  | nil =>
    intro s s' _ _ _ h
    rw [pushAll] at h
    obtain rfl := Option.some.inj h
    refine ⟨?_, fun j hj => absurd hj (by simp)⟩
    have := off_lt s
    simp only [below, total, List.map_nil, List.sum_nil, Nat.sub_zero, Nat.add_mod_right, Nat.mod_eq_of_lt this]
  | cons p l ih =>
    intro s s' hl hf hlim h
    obtain ⟨k, v⟩ := p
    rw [total_cons] at hlim
    rw [pushAll] at h
    cases hp : push ok s k v with
    | none => rw [hp] at h; exact absurd h (by simp)
    | some s1 =>
      rw [hp] at h
      simp only at h
      have hk : k ≤ 4 := hl (k, v) (by simp)
      have hl' : ∀ q ∈ l, q.1 ≤ 4 := fun q hq => hl q (by simp [hq])
      obtain ⟨h1, h2, h3, h4⟩ := C66_push ok hf hk hp
      have hf1 := h3.flat hf
      have hM := h3.modulus
      have hMg := modulus_ge s
      have hMl := modulus_le s
      have hlin : ∀ o, lin s1 o = lin s o := fun o => by unfold lin; rw [h3.1]
      obtain ⟨i1, i2⟩ := ih s1 s' hl' hf1 (by omega) h
      have hb : ∀ n, k + n ≤ modulus s → below s1 n = below s (k + n) := fun n hn => below_below s s1 hM k n h1 hn
      have htake : ∀ j, total (l.take j) ≤ total l := by
        intro j
        have : total l = total (l.take j) + total (l.drop j) := by
          unfold total; rw [← List.sum_append, ← List.map_append, List.take_append_drop]
        omega
      refine ⟨?_, ?_⟩
      · rw [total_cons, i1, hb _ (by omega)]
      · intro j hj
        cases j with
        | zero =>
          simp only [List.take_succ_cons, List.take_zero, total_cons, List.getElem_cons_zero]
          rw [show total ([] : List (Nat × Nat)) = 0 from rfl, Nat.add_zero]
          have ho : below s k = off s1 := h1.symm
          rw [ho]
          refine ⟨?_, h4⟩
          rw [← load_store s.mem (lin s (off s1)) k v k (Nat.le_refl _) (by omega), ← h2]
          apply load_congr
          intro i hi
          rw [← hlin]
          have := off_lt s1
          exact pushAll_frame ok l hl' s1 s' hf1 (off s1) 0 k i (by omega) (by omega)
            (by rw [Nat.sub_zero, Nat.add_mod_right, Nat.mod_eq_of_lt (by omega)]) (by omega) hi h
        | succ j =>
          simp only [List.take_succ_cons, total_cons, List.getElem_cons_succ]
          have := i2 j (by simpa using hj)
          rw [hb _ (by have := htake (j + 1); omega), hlin] at this
          exact this

theorem pushAll_append (ok : Ok) (a b : List (Nat × Nat)) : ∀ s : St, pushAll ok s (a ++ b) = (pushAll ok s a).bind fun t => pushAll ok t b := by
  induction a with
  | nil => intro s; rfl
  | cons p a ih =>
    intro s
    obtain ⟨k, v⟩ := p
    simp only [List.cons_append, pushAll]
    cases push ok s k v with
    | none => rfl
    | some s1 => exact ih s1

theorem total_const {k : Nat} : ∀ {l : List (Nat × Nat)}, (∀ p ∈ l, p.1 = k) → total l = k * l.length
  | [], _ => rfl
  | (a, v) :: l, h => by
    rw [total_cons, total_const fun p hp => h p (by simp [hp]), List.length_cons, Nat.mul_add, show a = k from h (a, v) (by simp)]
    omega

/-- The linear address of the enclosing procedure's frame pointer number `i`, as the loop computes it. -/
def srcAddr (v : St) (k i : Nat) : BitVec 32 :=
  addr v ((if v.ss32 then v.ebp else (v.ebp.setWidth 16 : BitVec 16).setWidth 32) - BitVec.ofNat 32 (k * i))

theorem srcAddr_same {v w : St} (h : SameSeg v w) (k i : Nat) : srcAddr w k i = srcAddr v k i := by
  unfold srcAddr addr
  rw [h.1, h.2.1, h.2.2.1, h.2.2.2.1]

theorem displays_succ (ok : Ok) (k n i : Nat) (v : St) : displays ok k (n + 1) i v =
    if ok (srcAddr v k i) k false then
      match push ok v k (load v.mem (srcAddr v k i) k) with
      | none => .error v
      | some v' => displays ok k n (i + 1) v'
    else .error v := rfl

theorem displays_push (ok : Ok) (k : Nat) (hk : k ≤ 4) : ∀ (n i : Nat) (v w : St), Flat v → displays ok k n i v = .ok w →
    ∃ l : List (Nat × Nat), l.length = n ∧ (∀ p ∈ l, p.1 = k) ∧ pushAll ok v l = some w ∧
      ∀ (j : Nat) (hj : j < l.length), ∃ u, pushAll ok v (l.take j) = some u ∧ l[j].2 = load u.mem (srcAddr v k (i + j)) k := by
  intro n
  induction n with
  | zero =>
    intro i v w _ h
    rw [displays] at h
    cases h
    exact ⟨[], rfl, by simp, rfl, fun j hj => absurd hj (by simp)⟩
  | succ n ih =>
    intro i v w hf h
    rw [displays_succ] at h
    split at h
    · cases hp : push ok v k (load v.mem (srcAddr v k i) k) with
      | none => rw [hp] at h; cases h
      | some v' =>
        rw [hp] at h
        obtain ⟨_, _, h3, _⟩ := C66_push ok hf hk hp
        obtain ⟨l, l1, l2, l3, l4⟩ := ih (i + 1) v' w (h3.flat hf) h
        refine ⟨(k, load v.mem (srcAddr v k i) k) :: l, by simp [l1], by
          intro p hp; rcases List.mem_cons.1 hp with rfl | hp; rfl; exact l2 p hp, ?_, ?_⟩
        · simp only [pushAll, hp]; exact l3
        · intro j hj
          cases j with
          | zero => exact ⟨v, rfl, rfl⟩
          | succ j =>
            obtain ⟨u, u1, u2⟩ := l4 j (by simpa using hj)
            refine ⟨u, ?_, ?_⟩
            · simp only [List.take_succ_cons, pushAll, hp]; exact u1
            · simp only [List.getElem_cons_succ]
              rw [u2, srcAddr_same h3, show i + 1 + j = i + (j + 1) by omega]
    · cases h

theorem nested_push (ok : Ok) (k : Nat) (hk : k ≤ 4) (nest : Nat) (tmp : BitVec 32) (v w : St) (hf : Flat v) (h : nested ok k nest tmp v = .ok w) :
    ∃ l : List (Nat × Nat), l.length = nest ∧ (∀ p ∈ l, p.1 = k) ∧ pushAll ok v l = some w ∧
      (∀ (_ : 0 < nest) (hj : nest - 1 < l.length), l[nest - 1].2 = if k = 4 then tmp.toNat else tmp.toNat % 65536) ∧
      ∀ (j : Nat) (hj : j < l.length), j < nest - 1 → ∃ u, pushAll ok v (l.take j) = some u ∧ l[j].2 = load u.mem (srcAddr v k (j + 1)) k := by
  unfold nested at h
  split at h
  · next h0 =>
    cases h
    exact ⟨[], h0.symm, by simp, rfl, fun hn => absurd hn (by omega), fun j hj => absurd hj (by simp)⟩
  · next h0 =>
    cases hd : displays ok k (nest - 1) 1 v with
    | error x => rw [hd] at h; cases h
    | ok v1 =>
      rw [hd] at h
      dsimp only at h
      obtain ⟨l, l1, l2, l3, l4⟩ := displays_push ok k hk _ _ _ _ hf hd
      generalize hv : (if k = 4 then tmp.toNat else tmp.toNat % 65536) = x at h
      cases hp : push ok v1 k x with
      | none => rw [hp] at h; cases h
      | some v2 =>
        rw [hp] at h
        cases h
        refine ⟨l ++ [(k, x)], by simp [l1]; omega, ?_, ?_, ?_, ?_⟩
        · intro p hp
          rcases List.mem_append.1 hp with hp | hp
          · exact l2 p hp
          · rw [List.mem_singleton] at hp; rw [hp]
        · rw [pushAll_append, l3]
          simp only [Option.bind_some, pushAll, hp]
        · intro _ hj
          rw [List.getElem_append_right (by omega)]
          simp [l1]
        · intro j hj hjn
          have hj' : j < l.length := by omega
          obtain ⟨u, u1, u2⟩ := l4 j hj'
          refine ⟨u, ?_, ?_⟩
          · rw [List.take_append_of_le_length (by omega)]; exact u1
          · rw [List.getElem_append_left hj', u2, show 1 + j = j + 1 by omega]

/-- The scratch state in which EBX is the stack pointer. -/
theorem start_off (s : St) : off { s with esp := startPtr s } = off s := by
  unfold off startPtr
  cases h : s.ss32 with
  | true => simp
  | false =>
    simp only [Bool.false_eq_true, if_false, BitVec.toNat_setWidth]
    omega

/-- What a completed ENTER did, step by step. -/
structure Entered (ok : Ok) (s : St) (k size nest : Nat) (t v : St) (l : List (Nat × Nat)) (w : St) : Prop where
  same : v.base = s.base ∧ v.ss32 = s.ss32 ∧ v.ssZero = s.ssZero ∧ v.ebp = s.ebp
  off : off v = below s k
  mem : v.mem = store s.mem (lin s (below s k)) k s.ebp.toNat
  can : ok (lin s (below s k)) k true = true
  high : s.ss32 = false → k = 4 → v.esp.toNat / 65536 = s.esp.toNat / 65536
  len : l.length = nest
  sizes : ∀ p ∈ l, p.1 = k
  pushed : pushAll ok v l = some w
  frame : ∀ (_ : 0 < nest) (hj : nest - 1 < l.length), l[nest - 1].2 = if k = 4 then v.esp.toNat else v.esp.toNat % 65536
  copies : ∀ (j : Nat) (hj : j < l.length), j < nest - 1 → ∃ u, pushAll ok v (l.take j) = some u ∧ l[j].2 = load u.mem (srcAddr v k (j + 1)) k
  last : allocate ok s k size v.esp w = .done t

theorem or_high (a b : BitVec 32) (hb : b.toNat < 65536) : ((a &&& 0xFFFF0000#32) ||| b).toNat = a.toNat / 65536 * 65536 + b.toNat := by
  have : (a &&& 0xFFFF0000#32) ||| b = setLow a (b.setWidth 16) := by
    unfold setLow
    congr 1
    apply BitVec.eq_of_toNat_eq
    rw [BitVec.toNat_setWidth, BitVec.toNat_setWidth]
    omega
  rw [this, setLow_toNat, BitVec.toNat_setWidth]
  omega

theorem enter_inv {ok : Ok} {s : St} (hf : Flat s) {k size nest : Nat} (hk : k ≤ 4) {t : St} (h : enter ok s k size nest = .done t) :
    ∃ v l w, Entered ok s k size nest t v l w := by
  unfold enter at h
  cases hp : push ok { s with esp := startPtr s } k s.ebp.toNat with
  | none => rw [hp] at h; cases h
  | some v1 =>
    rw [hp] at h
    dsimp only at h
    have hf0 : Flat { s with esp := startPtr s } := hf
    obtain ⟨h1, h2, h3, h4⟩ := C66_push ok hf0 hk hp
    rw [start_off] at h1
    have h1 : off v1 = below s k := h1
    obtain ⟨g1, g2, g3, g4, g5⟩ := h3
    simp only at g1 g2 g3 g4 g5
    rw [h1] at h2 h4
    have key : ∀ v : St, v.base = s.base ∧ v.ss32 = s.ss32 ∧ v.ssZero = s.ssZero ∧ v.ebp = s.ebp → off v = below s k → v.mem = v1.mem →
        (s.ss32 = false → k = 4 → v.esp.toNat / 65536 = s.esp.toNat / 65536) →
        enterBody ok s k size nest v = .done t → ∃ v l w, Entered ok s k size nest t v l w := by
      intro v hv ho hm hh h
      unfold enterBody at h
      cases hn : nested ok k nest v.esp v with
      | error w => rw [hn] at h; cases h
      | ok w =>
        rw [hn] at h
        have hfv : Flat v := by intro e; rw [hv.1]; exact hf (hv.2.2.1 ▸ e)
        obtain ⟨l, l1, l2, l3, l4, l5⟩ := nested_push ok k hk nest _ v w hfv hn
        exact ⟨v, l, w, hv, ho, by rw [hm, h2]; rfl, h4, hh, l1, l2, l3, l4, l5, h⟩
    by_cases hc : k = 4 ∧ s.ss32 = false
    · rw [if_pos hc] at h
      have hlow : v1.esp.toNat < 65536 := by
        have := g5 hc.2
        simp only [startPtr, hc.2, Bool.false_eq_true, if_false, BitVec.toNat_setWidth] at this
        omega
      refine key { v1 with esp := (s.esp &&& 0xFFFF0000#32) ||| v1.esp } ⟨g1, g2, g3, g4⟩ ?_ rfl ?_ h
      · rw [← h1]
        unfold off
        rw [show ({ v1 with esp := (s.esp &&& 0xFFFF0000#32) ||| v1.esp } : St).ss32 = v1.ss32 from rfl, g2, hc.2]
        simp only [Bool.false_eq_true, if_false]
        rw [or_high _ _ hlow]
        omega
      · intro _ _
        show ((s.esp &&& 0xFFFF0000#32) ||| v1.esp).toNat / 65536 = _
        rw [or_high _ _ hlow]
        omega
    · rw [if_neg hc] at h
      exact key v1 ⟨g1, g2, g3, g4⟩ h1 rfl (fun a b => absurd ⟨b, a⟩ hc) h

/-- C76, ENTER: the procedure's frame pointer is the address of the saved EBP, one item below the old top; below it are the
`nest` frame pointers of the display, the last being the frame pointer itself, and then `size` bytes of locals.  The upper half of
ESP is kept on 16 bit stacks.  Missing: 16 bit operands on 32 bit stacks (`C76_enter16_violation`). -/
theorem C76_enter_partial (ok : Ok) (s t : St) (hf : Flat s) (k size nest : Nat) (hk : k = 2 ∨ k = 4) (hx : ¬ (k = 2 ∧ s.ss32 = true))
    (hn : nest ≤ 31) (h : enter ok s k size nest = .done t) :
    (off t + (k * (nest + 1) + size)) % modulus s = off s ∧
    t.ebp.toNat % modulus s = below s k ∧
    load t.mem (lin s (below s k)) k = s.ebp.toNat % 256 ^ k ∧
    (0 < nest → load t.mem (lin s (below s (k * (nest + 1)))) k = t.ebp.toNat % 256 ^ k) ∧
    t.base = s.base ∧ t.ss32 = s.ss32 ∧ t.ssZero = s.ssZero ∧
    (s.ss32 = false → t.esp.toNat / 65536 = s.esp.toNat / 65536) ∧
    (k = 2 → t.ebp.toNat / 65536 = s.ebp.toNat / 65536) ∧
    ok (lin s (below s k)) k true = true := by
  obtain ⟨v, l, w, E⟩ := enter_inv hf (show k ≤ 4 by omega) h
  obtain ⟨b1, b2, b3, b4⟩ := E.same
  have hfv : Flat v := by intro e; rw [b1]; exact hf (b3 ▸ e)
  have hl4 : ∀ p ∈ l, p.1 ≤ 4 := fun p hp => by rw [E.sizes p hp]; omega
  have hMg := modulus_ge s
  have hMl := modulus_le s
  have hMv : modulus v = modulus s := by unfold modulus; rw [b2]
  have htot : total l = k * nest := by rw [total_const E.sizes, E.len]
  have hkn : k * nest ≤ 124 := by rcases hk with rfl | rfl <;> omega
  have hW := pushAll_same ok l hl4 v w hfv E.pushed
  have hread := pushAll_read ok l v w hl4 hfv (by omega) E.pushed
  have hlinv : ∀ o, lin v o = lin s o := fun o => by unfold lin; rw [b1]
  have hbel : ∀ n, k + n ≤ modulus s → below v n = below s (k + n) := fun n hn => below_below s v hMv k n E.off hn
  have hoffw : off w = below s (k * (nest + 1)) := by
    rw [hread.1, hbel _ (by omega), htot, Nat.mul_add]; congr 1; omega
  have hMw : modulus w = modulus s := by rw [hW.modulus, hMv]
  -- the value of EBP
  have hlast := E.last
  unfold allocate at hlast
  extract_lets e at hlast
  split at hlast
  case isFalse => cases hlast
  have ht := (Out.done.inj hlast).symm
  clear hlast
  have hebp : t.ebp = setSized s.ebp k v.esp.toNat := by rw [ht]
  have hmem : t.mem = w.mem := by rw [ht]
  have hesp : t.esp = if s.ss32 then w.esp - BitVec.ofNat 32 size else
      setLow s.esp ((w.esp.setWidth 16 : BitVec 16) - BitVec.ofNat 16 size) := by
    rw [ht]
    show (if s.ss32 = true then e else setLow s.esp (e.setWidth 16)) = _
    simp only [e]
    cases s.ss32 with
    | true => simp
    | false => simp
  have hseg : t.base = s.base ∧ t.ss32 = s.ss32 ∧ t.ssZero = s.ssZero := by
    rw [ht]; exact ⟨hW.1.trans b1, hW.2.1.trans b2, hW.2.2.1.trans b3⟩
  clear ht
  clear_value e
  have hoffv : off v = below s k := E.off
  have hframe : t.ebp.toNat % modulus s = below s k := by
    rw [hebp, ← hoffv]
    unfold off modulus
    rw [b2]
    cases h32 : s.ss32 with
    | true =>
      have : k = 4 := by rcases hk with rfl | rfl; exact absurd ⟨rfl, h32⟩ hx; rfl
      simp only [this, setSized, if_true]
      have := v.esp.isLt
      rw [BitVec.toNat_ofNat]
      omega
    | false =>
      simp only [Bool.false_eq_true, if_false]
      rcases hk with rfl | rfl
      · simp only [setSized, show ¬ (2 : Nat) = 4 by decide, if_false]
        rw [setLow_toNat, BitVec.toNat_ofNat]
        omega
      · simp only [setSized, if_true, BitVec.toNat_ofNat]
        have := v.esp.isLt
        omega
  refine ⟨?_, hframe, ?_, ?_, hseg.1, hseg.2.1, hseg.2.2, ?_, ?_, E.can⟩
  · have hlt := off_lt s
    have e : (off w + k * (nest + 1)) % modulus s = off s := by
      rw [hoffw]
      unfold below
      rw [Nat.mod_add_mod]
      have hk1 : k * (nest + 1) ≤ 128 := by rw [Nat.mul_add]; rcases hk with rfl | rfl <;> omega
      generalize k * (nest + 1) = q at *
      rw [show off s + modulus s - q + q = off s + modulus s by omega, Nat.add_mod_right, Nat.mod_eq_of_lt hlt]
    have e2 : (off t + size) % modulus s = off w := by
      unfold off modulus
      rw [hseg.2.1, hesp, hW.2.1, b2]
      cases h32 : s.ss32 with
      | true =>
        simp only [if_true]
        have := w.esp.isLt
        rw [BitVec.toNat_sub, BitVec.toNat_ofNat]
        omega
      | false =>
        simp only [Bool.false_eq_true, if_false]
        rw [setLow_toNat, BitVec.toNat_sub, BitVec.toNat_setWidth, BitVec.toNat_ofNat]
        omega
    rw [← e, ← e2, Nat.mod_add_mod]
    congr 1
    omega
  · rw [hmem, ← load_store s.mem (lin s (below s k)) k s.ebp.toNat k (Nat.le_refl _) (by omega), ← E.mem]
    apply load_congr
    intro i hi
    rw [← hlinv, ← hoffv]
    have := off_lt v
    exact pushAll_frame ok l hl4 v w hfv (off v) 0 k i (by omega) (by omega)
      (by rw [Nat.sub_zero, Nat.add_mod_right, Nat.mod_eq_of_lt (by omega)]) (by omega) hi E.pushed
  · intro hn0
    have hj : nest - 1 < l.length := by rw [E.len]; omega
    have hr := (hread.2 (nest - 1) hj).1
    rw [show nest - 1 + 1 = nest by omega, List.take_of_length_le (by rw [E.len]; omega), htot, E.sizes _ (List.getElem_mem hj), E.frame hn0 hj,
      hlinv, hbel _ (by omega), ← hmem] at hr
    rw [Nat.mul_add, Nat.mul_one, Nat.add_comm (k * nest), hr, hebp]
    rcases hk with rfl | rfl
    · simp only [setSized, show ¬ (2 : Nat) = 4 by decide, if_false]
      rw [setLow_toNat, BitVec.toNat_ofNat]
      omega
    · simp only [setSized, if_true, BitVec.toNat_ofNat]
      have := v.esp.isLt
      omega
  · intro h32
    rw [hesp, h32]
    simp only [Bool.false_eq_true, if_false]
    rw [setLow_toNat]
    have := ((w.esp.setWidth 16 : BitVec 16) - BitVec.ofNat 16 size).isLt
    omega
  · rintro rfl
    rw [hebp]
    simp only [setSized, show ¬ (2 : Nat) = 4 by decide, if_false]
    rw [setLow_toNat, BitVec.toNat_ofNat]
    omega

/-- C76, ENTER and LEAVE: a procedure that ends with EBP, the saved EBP in memory, the stack segment and the upper half of ESP as ENTER left
them returns ESP and EBP to what they were before ENTER. -/
theorem C76_enter_leave_partial (ok ok' : Ok) (s t u : St) (hf : Flat s) (k size nest : Nat) (hk : k = 2 ∨ k = 4) (hx : ¬ (k = 2 ∧ s.ss32 = true))
    (hn : nest ≤ 31) (h : enter ok s k size nest = .done t)
    (hu : u.ebp = t.ebp ∧ u.base = t.base ∧ u.ss32 = t.ss32 ∧ u.ssZero = t.ssZero ∧ u.esp.toNat / 65536 = t.esp.toNat / 65536)
    (hm : load u.mem (lin s (below s k)) k = load t.mem (lin s (below s k)) k) (hok : ok' (lin s (below s k)) k false = true) :
    ∃ w, leave ok' u k = .done w ∧ w.esp = s.esp ∧ w.ebp = s.ebp ∧ w.mem = u.mem := by
  obtain ⟨e1, e2, e3, e4, e5, e6, e7, e8, e9, e10⟩ := C76_enter_partial ok s t hf k size nest hk hx hn h
  obtain ⟨u1, u2, u3, u4, u5⟩ := hu
  have hfu : Flat u := by intro e; rw [u2, e5]; exact hf (by rw [← e7, ← u4]; exact e)
  have hMu : modulus u = modulus s := by unfold modulus; rw [u3, e6]
  have hl : ∀ o, lin u o = lin s o := fun o => by unfold lin; rw [u2, e5]
  have hb : u.ebp.toNat % modulus u = below s k := by rw [u1, hMu]; exact e2
  obtain ⟨w, w1, w2, w3, w4, w5, w6, w7, w8⟩ := C66_leave ok' u hfu k hk (by rw [hb, hl]; exact hok)
  refine ⟨w, w1, ?_, ?_, w4⟩
  · have hlt := off_lt s
    have hoff : off w = off s := by
      rw [w2, hb, hMu]
      unfold below
      have := modulus_ge s
      rw [Nat.mod_add_mod, show off s + modulus s - k + k = off s + modulus s by omega, Nat.add_mod_right, Nat.mod_eq_of_lt hlt]
    have h32w : w.ss32 = s.ss32 := w6.trans (u3.trans e6)
    apply BitVec.eq_of_toNat_eq
    unfold off at hoff
    rw [h32w] at hoff
    cases h32 : s.ss32 with
    | true => simpa [h32] using hoff
    | false =>
      have a := w8 ((u3.trans e6).trans h32)
      rw [u5, e8 h32] at a
      simp only [h32, Bool.false_eq_true, if_false] at hoff
      omega
  · apply BitVec.eq_of_toNat_eq
    rw [w3, hb, hl, hm, e3, u1]
    have := s.ebp.isLt
    rcases hk with rfl | rfl
    · have := e9 rfl
      simp only [if_true]
      omega
    · simp only [show ¬ (4 : Nat) = 2 by decide, if_false]
      omega

/-- C76, the display: if the frame pointers of the enclosing procedures are not in the area ENTER writes to, ENTER copies them:
number `i` is taken from `i` items below EBP and stored `i` items below the new frame pointer.  Missing: a BP so small that the
subtraction wraps around in 16 bits (`C76_display_violation`). -/
theorem C76_display_partial (ok : Ok) (s t : St) (hf : Flat s) (k size nest : Nat) (hk : k = 2 ∨ k = 4) (hn : nest ≤ 31)
    (h : enter ok s k size nest = .done t) (i : Nat) (hi : 1 ≤ i) (hin : i < nest) (hw : s.ss32 = true ∨ k * i ≤ s.ebp.toNat % 65536)
    (hsep : ∀ b j c, b < k → j ≤ nest → c < k →
      lin s ((s.ebp.toNat + modulus s - k * i) % modulus s) + BitVec.ofNat 32 b ≠ lin s (below s (k * (j + 1))) + BitVec.ofNat 32 c) :
    load t.mem (lin s (below s (k * (i + 1)))) k = load s.mem (lin s ((s.ebp.toNat + modulus s - k * i) % modulus s)) k := by
  obtain ⟨v, l, w, E⟩ := enter_inv hf (show k ≤ 4 by omega) h
  obtain ⟨b1, b2, b3, b4⟩ := E.same
  have hfv : Flat v := by intro e; rw [b1]; exact hf (b3 ▸ e)
  have hl4 : ∀ p ∈ l, p.1 ≤ 4 := fun p hp => by rw [E.sizes p hp]; omega
  have hMg := modulus_ge s
  have hMv : modulus v = modulus s := by unfold modulus; rw [b2]
  have hkn : k * nest ≤ 124 := by rcases hk with rfl | rfl <;> omega
  have hlinv : ∀ o, lin v o = lin s o := fun o => by unfold lin; rw [b1]
  have hbel : ∀ n, k + n ≤ modulus s → below v n = below s (k + n) := fun n hn => below_below s v hMv k n E.off hn
  have hread := pushAll_read ok l v w hl4 hfv (by rw [total_const E.sizes, E.len]; omega) E.pushed
  have hmem : t.mem = w.mem := by
    have hlast := E.last
    unfold allocate at hlast
    extract_lets e at hlast
    split at hlast
    · rw [← Out.done.inj hlast]
    · cases hlast
  have hj : i - 1 < l.length := by rw [E.len]; omega
  have htt : ∀ j, j ≤ nest → total (l.take j) = k * j := by
    intro j hjn
    rw [total_const (fun p hp => E.sizes p (List.mem_of_mem_take hp)), List.length_take, E.len, Nat.min_eq_left hjn]
  have hki : k * i ≤ 124 := Nat.le_trans (Nat.mul_le_mul_left k (by omega)) hkn
  have hr := (hread.2 (i - 1) hj).1
  rw [show i - 1 + 1 = i by omega, htt i (by omega), E.sizes _ (List.getElem_mem hj), hlinv, hbel _ (by omega), ← hmem] at hr
  rw [Nat.mul_add, Nat.mul_one, Nat.add_comm (k * i), hr]
  obtain ⟨u, u1, u2⟩ := E.copies (i - 1) hj (by omega)
  rw [show i - 1 + 1 = i by omega] at u2
  have hsrc : srcAddr v k i = lin s ((s.ebp.toNat + modulus s - k * i) % modulus s) := by
    unfold srcAddr
    rw [addr_lin hfv, hlinv, b2, b4]
    congr 1
    unfold modulus at hMg ⊢
    have := s.ebp.isLt
    cases h32 : s.ss32 with
    | true =>
      simp only [if_true]
      rw [BitVec.toNat_sub, BitVec.toNat_ofNat]
      omega
    | false =>
      have hw' := hw.resolve_left (by simp [h32])
      simp only [Bool.false_eq_true, if_false]
      rw [BitVec.toNat_sub, BitVec.toNat_ofNat, BitVec.toNat_setWidth, BitVec.toNat_setWidth]
      omega
  rw [u2, hsrc, Nat.mod_eq_of_lt (load_lt _ _ _)]
  apply load_congr
  intro b hb
  generalize hA : lin s ((s.ebp.toNat + modulus s - k * i) % modulus s) = A at *
  -- the pushes did not touch the source
  have out : ∀ (a : List (Nat × Nat)) (x y : St) (n : Nat), (∀ p ∈ a, p.1 = k) → Flat x → (∀ o, lin x o = lin s o) → modulus x = modulus s →
      off x = below s (k * n) → n + a.length ≤ nest + 1 → pushAll ok x a = some y → y.mem (A + BitVec.ofNat 32 b) = x.mem (A + BitVec.ofNat 32 b) := by
    intro a
    induction a with
    | nil => intro x y n _ _ _ _ _ _ h; rw [pushAll] at h; rw [Option.some.inj h]
    | cons p a ih =>
      intro x y n ha hfx hlx hMx hox hlen hpa
      obtain ⟨k', val⟩ := p
      have hk' : k' = k := ha (k', val) (by simp)
      subst hk'
      simp only [pushAll] at hpa
      cases hp : push ok x k' val with
      | none => rw [hp] at hpa; cases hpa
      | some x1 =>
        rw [hp] at hpa
        obtain ⟨h1, h2, h3, h4⟩ := C66_push ok hfx (show k' ≤ 4 by omega) hp
        rw [List.length_cons] at hlen
        have hkk : k' * n ≤ k' * nest := Nat.mul_le_mul_left k' (by omega)
        have hb1 : off x1 = below s (k' * (n + 1)) := by
          rw [h1, Nat.mul_add, Nat.mul_one]
          exact below_below s x hMx (k' * n) k' hox (by omega)
        have := ih x1 y (n + 1) (fun p hp => ha p (by simp [hp])) (h3.flat hfx) (fun o => by rw [← hlx]; unfold lin; rw [h3.1])
          (h3.modulus.trans hMx) hb1 (by omega) hpa
        rw [this, h2, hlx, hb1]
        apply store_other
        refine Nat.le_of_not_lt fun hlt => ?_
        apply hsep b n (A + BitVec.ofNat 32 b - lin s (below s (k' * (n + 1)))).toNat hb (by omega) hlt
        rw [BitVec.ofNat_toNat, BitVec.setWidth_eq]
        grind
  have hu := out (l.take (i - 1)) v u 1 (fun p hp => E.sizes p (List.mem_of_mem_take hp)) hfv hlinv hMv (by rw [Nat.mul_one]; exact E.off)
    (by rw [List.length_take, E.len]; omega) u1
  rw [hu, E.mem]
  apply store_other
  refine Nat.le_of_not_lt fun hlt => ?_
  apply hsep b 0 (A + BitVec.ofNat 32 b - lin s (below s k)).toNat hb (by omega) hlt
  rw [BitVec.ofNat_toNat, BitVec.setWidth_eq, Nat.zero_add, Nat.mul_one]
  grind

/-! ### PUSHA and POPA -/

/-- What PUSHA stores of register `i`. -/
def item (g : Gp) (k i : Nat) : Nat := if k = 4 then (g.get i).toNat else (g.get i).toNat % 65536

theorem pushaLoop_push (ok : Ok) (k : Nat) (g : Gp) : ∀ (is : List Nat) (v w : St), pushaLoop ok k g is v = .ok w →
    pushAll ok v (is.map fun i => (k, item g k i)) = some w
  | [], v, w, h => by rw [pushaLoop] at h; cases h; rfl
  | i :: is, v, w, h => by
    rw [pushaLoop] at h
    simp only [List.map_cons, pushAll]
    change (match push ok v k (item g k i) with
      | none => Except.error v
      | some v => pushaLoop ok k g is v) = .ok w at h
    cases hp : push ok v k (item g k i) with
    | none => rw [hp] at h; cases h
    | some v' => rw [hp] at h; exact pushaLoop_push ok k g is v' w h

/-- The offset the pointer `bx` stands for. -/
def offB (s : St) (bx : BitVec 32) : Nat := if s.ss32 then bx.toNat else bx.toNat % 65536

theorem bump_off (s : St) (bx : BitVec 32) (k : Nat) (_hk : k ≤ 4) : offB s (bump s bx k) = (offB s bx + k) % modulus s ∧
    (s.ss32 = false → (bump s bx k).toNat / 65536 = bx.toNat / 65536) := by
  unfold offB bump modulus
  cases s.ss32 with
  | true =>
    simp only [if_true, BitVec.toNat_add, BitVec.toNat_ofNat]
    exact ⟨by omega, fun h => by cases h⟩
  | false =>
    simp only [Bool.false_eq_true, if_false]
    rw [setLow_toNat, BitVec.toNat_add, BitVec.toNat_setWidth, BitVec.toNat_ofNat]
    omega

theorem popa_lin {s : St} (hf : Flat s) (bx : BitVec 32) :
    addr s (if s.ss32 then bx else (bx.setWidth 16 : BitVec 16).setWidth 32) = lin s (offB s bx) := by
  rw [addr_lin hf]
  congr 1
  unfold offB
  cases s.ss32 with
  | true => simp
  | false =>
    simp only [Bool.false_eq_true, if_false, BitVec.toNat_setWidth]
    omega

theorem get_set_same (g : Gp) (i : Nat) (v : BitVec 32) (h : i ≠ 4) : (g.set i v).get i = v := by
  unfold Gp.set Gp.get
  by_cases h5 : i = 5
  · simp [h5]
  · simp [h5, h]

theorem get_set_other (g : Gp) (i j : Nat) (v : BitVec 32) (h : j ≠ i) : (g.set i v).get j = g.get j := by
  unfold Gp.set Gp.get
  by_cases h5 : i = 5
  · subst h5; simp [h]
  · by_cases h4 : j = 4
    · simp [h5, h4]
    · by_cases h5' : j = 5
      · simp [h5, h5']
      · simp [h5, h4, h5', h]

/-- Equal but for EBP. -/
def SameSt (a b : St) : Prop := b.esp = a.esp ∧ b.base = a.base ∧ b.ss32 = a.ss32 ∧ b.ssZero = a.ssZero ∧ b.mem = a.mem

theorem set_same (g : Gp) (i : Nat) (v : BitVec 32) : SameSt g.st (g.set i v).st := by
  unfold Gp.set
  split <;> exact ⟨rfl, rfl, rfl, rfl, rfl⟩

theorem popaLoop_run (ok : Ok) (k : Nat) (hk : k ≤ 4) (val : Nat → Nat) : ∀ (is : List Nat) (bx : BitVec 32) (g : Gp), Flat g.st → is.Nodup →
    (∀ (j : Nat) (hj : j < is.length), is[j] ≠ 4 → ok (lin g.st ((offB g.st bx + k * j) % modulus g.st)) k false = true ∧
      load g.st.mem (lin g.st ((offB g.st bx + k * j) % modulus g.st)) k = val is[j]) →
    ∃ bx' g', popaLoop ok k is bx g = .ok (bx', g') ∧ offB g.st bx' = (offB g.st bx + k * is.length) % modulus g.st ∧
      (g.st.ss32 = false → bx'.toNat / 65536 = bx.toNat / 65536) ∧ SameSt g.st g'.st ∧
      ∀ i, g'.get i = if i ∈ is ∧ i ≠ 4 then setSized (g.get i) k (val i) else g.get i := by
  intro is
  induction is with
  | nil =>
    intro bx g _ _ _
    refine ⟨bx, g, rfl, ?_, fun _ => rfl, ⟨rfl, rfl, rfl, rfl, rfl⟩, by simp⟩
    unfold offB modulus
    have := bx.isLt
    cases g.st.ss32 with
    | true => simp only [if_true, List.length_nil]; omega
    | false => simp only [Bool.false_eq_true, if_false, List.length_nil]; omega
  | cons i is ih =>
    intro bx g hf hnd hall
    rw [List.nodup_cons] at hnd
    have hb := bump_off g.st bx k hk
    have shift : ∀ j, (offB g.st (bump g.st bx k) + k * j) % modulus g.st = (offB g.st bx + k * (j + 1)) % modulus g.st := by
      intro j
      rw [hb.1, Nat.mod_add_mod, Nat.mul_add, Nat.mul_one]
      congr 1
      omega
    have go : ∀ g1 : Gp, SameSt g.st g1.st → popaLoop ok k (i :: is) bx g = popaLoop ok k is (bump g.st bx k) g1 →
        (∀ j, g1.get j = if j = i ∧ j ≠ 4 then setSized (g.get j) k (val j) else g.get j) →
        ∃ bx' g', popaLoop ok k (i :: is) bx g = .ok (bx', g') ∧ offB g.st bx' = (offB g.st bx + k * (i :: is).length) % modulus g.st ∧
          (g.st.ss32 = false → bx'.toNat / 65536 = bx.toNat / 65536) ∧ SameSt g.st g'.st ∧
          ∀ j, g'.get j = if j ∈ i :: is ∧ j ≠ 4 then setSized (g.get j) k (val j) else g.get j := by
      intro g1 hs heq hget
      obtain ⟨s1, s2, s3, s4, s5⟩ := hs
      have hM : modulus g1.st = modulus g.st := by unfold modulus; rw [s3]
      have hl : ∀ o, lin g1.st o = lin g.st o := fun o => by unfold lin; rw [s2]
      have ho : ∀ b, offB g1.st b = offB g.st b := fun b => by unfold offB; rw [s3]
      obtain ⟨bx', g', r1, r2, r3, r4, r5⟩ := ih (bump g.st bx k) g1 (by intro e; rw [s2]; exact hf (s4 ▸ e)) hnd.2 (by
        intro j hj hne
        rw [hl, ho, hM, s5, shift]
        have := hall (j + 1) (by simpa using hj) (by simpa using hne)
        simpa using this)
      refine ⟨bx', g', heq.trans r1, ?_, ?_, ?_, ?_⟩
      · rw [ho, ho, hM] at r2
        rw [r2, shift, List.length_cons]
      · intro h32
        rw [r3 (s3.trans h32), hb.2 h32]
      · exact ⟨r4.1.trans s1, r4.2.1.trans s2, r4.2.2.1.trans s3, r4.2.2.2.1.trans s4, r4.2.2.2.2.trans s5⟩
      · intro j
        rw [r5 j]
        by_cases hji : j = i
        · subst hji
          rw [if_neg (fun h => hnd.1 h.1), hget j]
          simp
        · have hgj : g1.get j = g.get j := by rw [hget j, if_neg (fun h => hji h.1)]
          rw [hgj]
          simp [hji]
    by_cases h4 : i = 4
    · refine go g ⟨rfl, rfl, rfl, rfl, rfl⟩ ?_ ?_
      · rw [popaLoop, if_pos h4]
      · intro j
        rw [if_neg]
        rintro ⟨h, h'⟩
        exact h' (h.trans h4)
    · obtain ⟨a1, a2⟩ := hall 0 (by simp) (by simpa using h4)
      have e0 : (offB g.st bx + k * 0) % modulus g.st = offB g.st bx := by
        rw [Nat.mul_zero, Nat.add_zero]
        apply Nat.mod_eq_of_lt
        unfold offB modulus
        have := bx.isLt
        split <;> omega
      rw [e0] at a1 a2
      refine go (g.set i (setSized (g.get i) k (val i))) (set_same _ _ _) ?_ ?_
      · rw [popaLoop, if_neg h4]
        dsimp only
        rw [popa_lin hf, if_pos a1, a2]
        rfl
      · intro j
        by_cases hj : j = i
        · subst hj
          rw [get_set_same _ _ _ h4, if_pos ⟨rfl, h4⟩]
        · rw [get_set_other _ _ _ _ hj, if_neg (fun h => hj h.1)]

/-- C76, PUSHA and POPA: if PUSHA completes and POPA is executed with the same stack pointer and the eight items unchanged in memory, the
registers (with 16 bit operands their low halves) and the stack pointer are what they were before PUSHA, whatever was in them. -/
theorem C76_pusha_popa (ok ok' : Ok) (hrw : ∀ a k, ok a k true = true → ok' a k false = true) (g g1 g2 : Gp) (hf : Flat g.st) (k : Nat)
    (hk : k = 2 ∨ k = 4) (h : pusha ok g k = .done g1)
    (hs : g2.st.esp = g1.st.esp ∧ g2.st.base = g.st.base ∧ g2.st.ss32 = g.st.ss32 ∧ g2.st.ssZero = g.st.ssZero)
    (hm : ∀ j, 1 ≤ j → j ≤ 8 → load g2.st.mem (lin g.st (below g.st (k * j))) k = load g1.st.mem (lin g.st (below g.st (k * j))) k) :
    ∃ g3, popa ok' g2 k = .done g3 ∧ g3.st.esp = g.st.esp ∧ g3.st.mem = g2.st.mem ∧
      ∀ i, i < 8 → i ≠ 4 → (g3.get i).toNat = if k = 4 then (g.get i).toNat else (g2.get i).toNat / 65536 * 65536 + (g.get i).toNat % 65536 := by
  unfold pusha at h
  cases hp : pushaLoop ok k g [0, 1, 2, 3, 4, 5, 6, 7] g.st with
  | error v => rw [hp] at h; cases h
  | ok v =>
    rw [hp] at h
    cases h
    have hpa := pushaLoop_push ok k g _ _ _ hp
    have hl4 : ∀ p ∈ ([0, 1, 2, 3, 4, 5, 6, 7].map fun i => (k, item g k i)), p.1 = k := by
      intro p hp; rw [List.mem_map] at hp; obtain ⟨i, -, rfl⟩ := hp; rfl
    have hMg := modulus_ge g.st
    obtain ⟨r1, r2⟩ := pushAll_read ok _ g.st v (fun p hp => by rw [hl4 p hp]; omega) hf (by
      rw [total_const hl4]; simp only [List.length_map, List.length_cons, List.length_nil]; omega) hpa
    have hsame := pushAll_same ok _ (fun p hp => by rw [hl4 p hp]; omega) g.st v hf hpa
    rw [total_const hl4] at r1
    simp only [List.length_map, List.length_cons, List.length_nil, Nat.zero_add] at r1
    obtain ⟨s1, s2, s3, s4⟩ := hs
    simp only at s1 hm
    have hM2 : modulus g2.st = modulus g.st := by unfold modulus; rw [s3]
    have hl2 : ∀ o, lin g2.st o = lin g.st o := fun o => by unfold lin; rw [s2]
    have hoff : offB g2.st g2.st.esp = below g.st (k * 8) := by
      rw [← r1]
      unfold offB off
      rw [s1, s3, hsame.2.1]
    have hlt := off_lt g.st
    have hpos : ∀ j, j < 8 → (offB g2.st g2.st.esp + k * j) % modulus g2.st = below g.st (k * (8 - j)) := by
      intro j hj
      rw [hoff, hM2]
      unfold below
      rw [Nat.mod_add_mod]
      congr 1
      have : k * (8 - j) + k * j = k * 8 := by rw [← Nat.mul_add]; congr 1; omega
      have hk8 : k * 8 ≤ 32 := by rcases hk with rfl | rfl <;> omega
      omega
    have hval : ∀ j, j < 8 → load v.mem (lin g.st (below g.st (k * (j + 1)))) k = item g k j % 256 ^ k ∧
        ok (lin g.st (below g.st (k * (j + 1)))) k true = true := by
      intro j hj
      have := r2 j (by simpa using hj)
      rw [total_const (fun p hp => hl4 p (List.mem_of_mem_take hp)), List.length_take] at this
      simp only [List.length_map, List.length_cons, List.length_nil, List.getElem_map] at this
      rw [Nat.min_eq_left (by omega)] at this
      have hg : ([0, 1, 2, 3, 4, 5, 6, 7] : List Nat)[j]'(by simpa using hj) = j := by
        rcases j with _ | _ | _ | _ | _ | _ | _ | _ | j <;> first | rfl | omega
      rw [hg] at this
      exact this
    obtain ⟨bx', g', q1, q2, q3, q4, q5⟩ := popaLoop_run ok' k (by omega) (fun i => item g k i % 256 ^ k) [7, 6, 5, 4, 3, 2, 1, 0] g2.st.esp g2
      (by intro e; rw [s2]; exact hf (s4 ▸ e)) (by decide) (by
        intro j hj hne
        have hj8 : j < 8 := by simpa using hj
        rw [hl2, hpos j hj8]
        have hg : ([7, 6, 5, 4, 3, 2, 1, 0] : List Nat)[j] = 7 - j := by
          rcases j with _ | _ | _ | _ | _ | _ | _ | _ | j <;> first | rfl | omega
        rw [hg, hm (8 - j) (by omega) (by omega), show 8 - j = 7 - j + 1 by omega]
        have := hval (7 - j) (by omega)
        exact ⟨hrw _ _ this.2, this.1⟩)
    refine ⟨{ g' with st := { g'.st with esp := bx' } }, ?_, ?_, q4.2.2.2.2, ?_⟩
    · unfold popa
      rw [q1]
    · show bx' = g.st.esp
      rw [hoff, hM2] at q2
      simp only [List.length_cons, List.length_nil, Nat.zero_add] at q2
      have e : offB g2.st bx' = off g.st := by
        rw [q2]
        unfold below
        have hk8 : k * 8 ≤ 32 := by rcases hk with rfl | rfl <;> omega
        rw [Nat.mod_add_mod, show off g.st + modulus g.st - k * 8 + k * 8 = off g.st + modulus g.st by omega, Nat.add_mod_right, Nat.mod_eq_of_lt hlt]
      apply BitVec.eq_of_toNat_eq
      unfold offB off at e
      rw [s3] at e
      cases h32 : g.st.ss32 with
      | true => simpa [h32] using e
      | false =>
        have a := q3 (s3.trans h32)
        rw [s1, hsame.2.2.2.2 h32] at a
        simp only [h32, Bool.false_eq_true, if_false] at e
        omega
    · intro i hi hi4
      have hgi : (Gp.get { g' with st := { g'.st with esp := bx' } } i) = g'.get i := by
        unfold Gp.get; simp [hi4]
      rw [hgi, q5 i, if_pos ⟨by simp; omega, hi4⟩]
      have := (g.get i).isLt
      rcases hk with rfl | rfl
      · simp only [setSized, item, show ¬ (2 : Nat) = 4 by decide, if_false]
        rw [setLow_toNat, BitVec.toNat_ofNat]
        omega
      · simp only [setSized, item, if_true, BitVec.toNat_ofNat]
        omega

/-- C76: an ENTER that faults has changed neither the stack pointer nor the frame pointer. -/
theorem C76_enter_fault (ok : Ok) (s t : St) (k size nest : Nat) (h : enter ok s k size nest = .fault t) : t.esp = s.esp ∧ t.ebp = s.ebp := by
  have pe : ∀ {v w : St} {k x : Nat}, push ok v k x = some w → w.ebp = v.ebp := by
    intro v w k x hp
    unfold push at hp
    split at hp <;> (dsimp only at hp; split at hp) <;> first | (cases hp; rfl) | cases hp
  have de : ∀ (n i : Nat) (v : St), (∀ w, displays ok k n i v = .error w → w.ebp = v.ebp) ∧ ∀ w, displays ok k n i v = .ok w → w.ebp = v.ebp := by
    intro n
    induction n with
    | zero => intro i v; exact ⟨fun w h => (by rw [displays] at h; cases h), fun w h => (by rw [displays] at h; cases h; rfl)⟩
    | succ n ih =>
      intro i v
      rw [displays_succ]
      constructor <;> intro w h <;> split at h
      · split at h
        · cases h; rfl
        · rename_i v' hp
          rw [(ih _ _).1 w h, pe hp]
      · cases h; rfl
      · split at h
        · cases h
        · rename_i v' hp
          rw [(ih _ _).2 w h, pe hp]
      · cases h
  have ne : ∀ (tmp : BitVec 32) (v : St), (∀ w, nested ok k nest tmp v = .error w → w.ebp = v.ebp) ∧ ∀ w, nested ok k nest tmp v = .ok w → w.ebp = v.ebp := by
    intro tmp v
    unfold nested
    split
    · exact ⟨fun w h => (by cases h), fun w h => (by cases h; rfl)⟩
    · cases hd : displays ok k (nest - 1) 1 v with
      | error u => exact ⟨fun w h => (by cases h; exact (de _ _ _).1 _ hd), fun w h => (by cases h)⟩
      | ok u =>
        have := (de _ _ _).2 _ hd
        dsimp only
        split
        · exact ⟨fun w h => (by cases h; exact this), fun w h => (by cases h)⟩
        · rename_i hp
          exact ⟨fun w h => (by cases h), fun w h => (by cases h; rw [pe hp, this])⟩
  unfold enter at h
  split at h
  · cases h; exact ⟨rfl, rfl⟩
  · rename_i v1 hp
    have e1 := pe hp
    unfold enterBody at h
    have e2 : (if k = 4 ∧ s.ss32 = false then { v1 with esp := (s.esp &&& 0xFFFF0000#32) ||| v1.esp } else v1).ebp = s.ebp := by
      split <;> exact e1
    generalize (if k = 4 ∧ s.ss32 = false then { v1 with esp := (s.esp &&& 0xFFFF0000#32) ||| v1.esp } else v1) = v at h e2
    split at h
    · rename_i w hw
      cases h
      exact ⟨rfl, ((ne _ _).1 _ hw).trans e2⟩
    · rename_i w hw
      unfold allocate at h
      extract_lets e at h
      split at h
      · cases h
      · cases h
        exact ⟨rfl, ((ne _ _).2 _ hw).trans e2⟩

/-- C76: a PUSHA that faults has changed no register. -/
theorem C76_pusha_fault (ok : Ok) (g g' : Gp) (k : Nat) (h : pusha ok g k = .fault g') : ∀ i, g'.get i = g.get i := by
  have pe : ∀ (is : List Nat) (v w : St), pushaLoop ok k g is v = .error w → w.ebp = v.ebp := by
    intro is
    induction is with
    | nil => intro v w h; rw [pushaLoop] at h; cases h
    | cons i is ih =>
      intro v w h
      rw [pushaLoop] at h
      split at h
      · cases h; rfl
      · rename_i u hp
        rw [ih _ _ h]
        unfold push at hp
        split at hp <;> (dsimp only at hp; split at hp) <;> first | (cases hp; rfl) | cases hp
  unfold pusha at h
  split at h
  · rename_i v hv
    cases h
    intro i
    unfold Gp.get
    dsimp only
    rw [pe _ _ _ hv]
  · cases h

/-- `h` differs from `g` only in registers of `is` that loading another value of `k` bytes makes equal again. -/
structure Redo (k : Nat) (is : List Nat) (g h : Gp) : Prop where
  st : h.st = { g.st with ebp := h.st.ebp }
  r4 : h.r 4 = g.r 4
  r5 : h.r 5 = g.r 5
  other : ∀ i, i ∉ is → h.get i = g.get i
  again : ∀ i, ∀ v, setSized (h.get i) k v = setSized (g.get i) k v

theorem Redo.refl (k : Nat) (is : List Nat) (g : Gp) : Redo k is g g := ⟨rfl, rfl, rfl, fun _ _ => rfl, fun _ _ => rfl⟩
theorem Redo.trans {k : Nat} {is : List Nat} {g h l : Gp} (a : Redo k is g h) (b : Redo k is h l) : Redo k is g l :=
  ⟨by rw [b.st, a.st], b.r4.trans a.r4, b.r5.trans a.r5, fun i hi => (b.other i hi).trans (a.other i hi), fun i v => (b.again i v).trans (a.again i v)⟩
theorem Redo.mono {k : Nat} {is js : List Nat} (hs : ∀ i, i ∈ is → i ∈ js) {g h : Gp} (a : Redo k is g h) : Redo k js g h :=
  ⟨a.st, a.r4, a.r5, fun i hi => a.other i fun hm => hi (hs i hm), a.again⟩

theorem setSized_again (k : Nat) (r : BitVec 32) (v w : Nat) : setSized (setSized r k v) k w = setSized r k w := by
  unfold setSized
  split
  · rfl
  · apply BitVec.eq_of_toNat_eq
    rw [setLow_toNat, setLow_toNat, setLow_toNat, BitVec.toNat_ofNat, BitVec.toNat_ofNat]
    omega

theorem Redo.step (k : Nat) (g : Gp) (i v : Nat) (h4 : i ≠ 4) : Redo k [i] g (g.set i (setSized (g.get i) k v)) := by
  refine ⟨?_, ?_, ?_, ?_, ?_⟩
  · unfold Gp.set; split <;> rfl
  · unfold Gp.set; split
    · rfl
    · exact if_neg (Ne.symm h4)
  · unfold Gp.set; split
    · rfl
    · rename_i h5; exact if_neg (Ne.symm h5)
  · intro j hj
    exact get_set_other _ _ _ _ (by simpa using hj)
  · intro j w
    by_cases hj : j = i
    · subst hj; rw [get_set_same _ _ _ h4, setSized_again]
    · rw [get_set_other _ _ _ _ hj]

theorem popaLoop_error (ok : Ok) (k : Nat) : ∀ (is : List Nat) (bx : BitVec 32) (g h : Gp), popaLoop ok k is bx g = .error h → Redo k is g h := by
  intro is
  induction is with
  | nil => intro bx g h e; rw [popaLoop] at e; cases e
  | cons i is ih =>
    intro bx g h e
    rw [popaLoop] at e
    split at e
    · exact (ih _ _ _ e).mono fun j hj => by simp [hj]
    · rename_i h4
      dsimp only at e
      generalize (if g.st.ss32 = true then bx else BitVec.setWidth 32 (BitVec.setWidth 16 bx)) = ee at e
      split at e
      · exact ((Redo.step k g i _ h4).mono fun j hj => by simpa using .inl (by simpa using hj)).trans
          ((ih _ _ _ e).mono fun j hj => by simp [hj])
      · cases e; exact Redo.refl k _ g

theorem Redo.eq {k : Nat} {g h : Gp} (a : Redo k [] g h) : h = g := by
  have hr : h.r = g.r := by
    funext i
    by_cases h4 : i = 4
    · rw [h4, a.r4]
    · by_cases h5 : i = 5
      · rw [h5, a.r5]
      · simpa [Gp.get, h4, h5] using a.other i (by simp)
  have hb : h.st.ebp = g.st.ebp := by simpa [Gp.get] using a.other 5 (by simp)
  have hst : h.st = g.st := by rw [a.st, hb]
  cases g; cases h
  simp only at hr hst
  rw [hr, hst]

theorem popaLoop_redo (ok : Ok) (k : Nat) : ∀ (is : List Nat) (bx : BitVec 32) (g h : Gp), Redo k is g h →
    ∀ x, popaLoop ok k is bx h = .ok x ↔ popaLoop ok k is bx g = .ok x := by
  intro is
  induction is with
  | nil =>
    intro bx g h a x
    rw [a.eq]
  | cons i is ih =>
    intro bx g h a x
    rw [popaLoop, popaLoop]
    have eb : bump h.st bx k = bump g.st bx k := by rw [a.st]; rfl
    by_cases h4 : i = 4
    · rw [if_pos h4, if_pos h4, eb]
      refine ih _ _ _ ⟨a.st, a.r4, a.r5, ?_, a.again⟩ x
      intro j hj
      by_cases hj4 : j = 4
      · subst hj4
        simp only [Gp.get, if_true]
        rw [a.st]
      · exact a.other j (by simp [hj, h4, hj4])
    · rw [if_neg h4, if_neg h4, eb]
      dsimp only
      have ea : ∀ e, addr h.st e = addr g.st e := fun e => by rw [a.st]; rfl
      have es : h.st.ss32 = g.st.ss32 := by rw [a.st]
      have em : h.st.mem = g.st.mem := by rw [a.st]
      rw [ea, es, em, a.again]
      generalize (if g.st.ss32 = true then bx else BitVec.setWidth 32 (BitVec.setWidth 16 bx)) = ee
      split
      · rename_i hok
        generalize setSized (g.get i) k (load g.st.mem (addr g.st ee) k) = v
        apply ih
        have hset : ∀ j, (h.set i v).get j = if j = i then v else h.get j := by
          intro j
          by_cases hj : j = i
          · subst hj; rw [get_set_same _ _ _ h4, if_pos rfl]
          · rw [get_set_other _ _ _ _ hj, if_neg hj]
        have gset : ∀ j, (g.set i v).get j = if j = i then v else g.get j := by
          intro j
          by_cases hj : j = i
          · subst hj; rw [get_set_same _ _ _ h4, if_pos rfl]
          · rw [get_set_other _ _ _ _ hj, if_neg hj]
        refine ⟨?_, ?_, ?_, ?_, ?_⟩
        · unfold Gp.set
          split
          · dsimp only; rw [a.st]
          · exact a.st
        · unfold Gp.set; split
          · exact a.r4
          · dsimp only; rw [if_neg (Ne.symm h4), if_neg (Ne.symm h4), a.r4]
        · unfold Gp.set; split
          · exact a.r5
          · rename_i h5; dsimp only; rw [if_neg (Ne.symm h5), if_neg (Ne.symm h5), a.r5]
        · intro j hj
          rw [hset, gset]
          by_cases hji : j = i
          · rw [if_pos hji, if_pos hji]
          · rw [if_neg hji, if_neg hji]
            exact a.other j (by simp [hj, hji])
        · intro j w
          rw [hset, gset]
          split
          · rfl
          · exact a.again j w
      · exact ⟨fun h => (by cases h), fun h => (by cases h)⟩

/-- C76: POPA writes each register as soon as it is loaded, but can be restarted: when it faults, the stack pointer and memory are
unchanged and executing it again, with whatever access rights the handler established, completes with exactly the result it would have
had without the first attempt. -/
theorem C76_popa_restart (ok : Ok) (g g' : Gp) (k : Nat) (h : popa ok g k = .fault g') :
    g'.st.esp = g.st.esp ∧ g'.st.mem = g.st.mem ∧ ∀ ok2 x, popa ok2 g' k = .done x ↔ popa ok2 g k = .done x := by
  unfold popa at h
  split at h
  · rename_i v hv
    cases h
    have a := popaLoop_error ok k _ _ _ _ hv
    have e : g'.st.esp = g.st.esp := by rw [a.st]
    refine ⟨e, by rw [a.st], fun ok2 x => ?_⟩
    have b := popaLoop_redo ok2 k [7, 6, 5, 4, 3, 2, 1, 0] g.st.esp g g' a
    unfold popa
    rw [e]
    generalize popaLoop ok2 k [7, 6, 5, 4, 3, 2, 1, 0] g.st.esp g' = p at b
    generalize popaLoop ok2 k [7, 6, 5, 4, 3, 2, 1, 0] g.st.esp g = q at b
    cases p with
    | error p =>
      cases q with
      | error q => exact ⟨fun h => (by cases h), fun h => (by cases h)⟩
      | ok q => exact absurd ((b q).2 rfl) (by intro h; cases h)
    | ok p =>
      have := (b p).1 rfl
      rw [this]
  · cases h

/-! Cases that meet the hypotheses, and the two that are left out. -/

namespace FramesP

def allOk : Ok := fun _ _ _ => true
/-- A 32 bit stack at 0x20000010 in a segment with base 0x1000, EBP 0x20000100, with the byte `7` at every address. -/
def big : St := ⟨0x20000010#32, 0x20000100#32, 0x1000#32, true, false, fun _ => 7⟩
/-- A 16 bit stack at 0x0100, EBP 0, where the bytes of the first 64K of the segment are `7` and all others `9`. -/
def small : St := ⟨0x00000100#32, 0#32, 0x1000#32, false, false, fun a => if a.toNat < 0x11000 then 7 else 9⟩

def done? : Out → Option St
  | .done s => some s
  | .fault _ => none

theorem done_iff {o : Out} {s : St} (h : done? o = some s) : o = .done s := by
  cases o with
  | done t => cases h; rfl
  | fault t => cases h

example : ∃ t, enter allOk big 4 24 3 = .done t ∧ t.ebp = 0x2000000C#32 ∧ t.esp = 0x1FFFFFE8#32 := by
  refine ⟨_, done_iff (by unfold enter done?; rfl), ?_, ?_⟩ <;> decide +kernel

example : Flat big ∧ ¬ (4 = 2 ∧ big.ss32 = true) := by unfold Flat; decide

example : ∃ t, enter (fun a _ _ => decide (a ≠ 0x20001000#32)) big 4 24 3 = .fault t := by
  have : done? (enter (fun a _ _ => decide (a ≠ 0x20001000#32)) big 4 24 3) = none := by
    unfold enter
    rfl
  cases h : enter (fun a _ _ => decide (a ≠ 0x20001000#32)) big 4 24 3 with
  | done t => rw [h] at this; cases this
  | fault t => exact ⟨t, rfl⟩

/-- Registers with distinct values on a 16 bit stack whose pointer wraps. -/
def regs : Gp := ⟨fun i => BitVec.ofNat 32 (0x11110000 * i + i), { small with esp := 0xABCD0006#32 }⟩

example : ∃ g, pusha allOk regs 4 = .done g ∧ g.st.esp = 0xABCDFFE6#32 := by
  refine ⟨_, by unfold pusha; rfl, ?_⟩
  decide +kernel

example : ∃ g, pusha (fun a _ _ => decide (a ≠ 0x10FFE#32)) regs 4 = .fault g := ⟨_, by unfold pusha; rfl⟩

/-- The fourth load faults when EDI, ESI and EBP are already written. -/
example : ∃ g, popa (fun a _ _ => decide (a ≠ 0x20001020#32)) ⟨fun _ => 0#32, big⟩ 4 = .fault g ∧ g.get 7 = 0x07070707#32 ∧ g.get 3 = 0#32 := by
  refine ⟨_, by unfold popa; rfl, ?_, ?_⟩ <;> decide +kernel

end FramesP

open FramesP in
/-- What `C76_enter_partial` leaves out: with 16 bit operands on a 32 bit stack only BP is written, so that LEAVE continues in another part of
memory when EBP was in another 64K of the address space than ESP (jit.cpp 5989-5991). -/
theorem C76_enter16_violation : ∃ (s t u : St), Flat s ∧ enter allOk s 2 0 0 = .done t ∧ leave allOk t 2 = .done u ∧
    s.esp = 0x20000010#32 ∧ u.esp = 0x00000010#32 :=
  ⟨{ big with ebp := 0x100#32 }, _, _, by unfold Flat; decide, by unfold enter; rfl, by unfold leave; rfl, rfl, by decide +kernel⟩

open FramesP in
/-- What `C76_display_partial` leaves out: on a 16 bit stack with BP 0 the enclosing frame pointer is 2 below BP, at offset 0xFFFE, but is read
from offset 0xFFFFFFFE (jit.cpp 5960-5969). -/
theorem C76_display_violation : ∃ (s t : St), Flat s ∧ s.ss32 = false ∧ enter allOk s 2 0 2 = .done t ∧
    load s.mem (lin s ((s.ebp.toNat + modulus s - 2 * 1) % modulus s)) 2 = 0x0909 ∧
    load t.mem (lin s (below s (2 * (1 + 1)))) 2 = 0x0707 :=
  ⟨{ small with mem := fun a => if a.toNat < 0x10000 then 7 else 9 }, _, by unfold Flat; decide, rfl, by unfold enter; rfl, by decide +kernel, by decide +kernel⟩

end Verif.Stack
