import Verif.Model.Fxsave
import Verif.Lemmas.GuestMem
import Verif.Props.FpuStack
/-
C30: FXSAVE and FXRSTOR.
-/
namespace Verif.Fxsave
open Verif.Guest

/-! ### Sequences of stores -/

/-- All stores of a list, in order. -/
def storeAll (a : BitVec 32) (l : List (Nat × Nat × Nat)) (m : Mem) : Mem :=
  l.foldl (fun m w => store m (a + BitVec.ofNat 32 w.1) w.2.1 w.2.2) m

/-- The byte the last store covering offset `d` leaves there. -/
def lookup (d : Nat) : List (Nat × Nat × Nat) → Option (BitVec 8)
  | [] => none
  | w :: l => (lookup d l).or (if w.1 ≤ d ∧ d < w.1 + w.2.1 then some (BitVec.ofNat 8 (w.2.2 / 256 ^ (d - w.1))) else none)

theorem lookup_cons (d : Nat) (w : Nat × Nat × Nat) (l : List (Nat × Nat × Nat)) : lookup d (w :: l) =
    (lookup d l).or (if w.1 ≤ d ∧ d < w.1 + w.2.1 then some (BitVec.ofNat 8 (w.2.2 / 256 ^ (d - w.1))) else none) := rfl

/-- The store stays within the 512 byte image. -/
def InImage (w : Nat × Nat × Nat) : Prop := w.1 + w.2.1 ≤ 512

theorem sub_off (x a : BitVec 32) (off : Nat) (ho : off ≤ 512) :
    (x - (a + BitVec.ofNat 32 off)).toNat = if off ≤ (x - a).toNat then (x - a).toNat - off else (x - a).toNat + 2 ^ 32 - off := by
  have h : x - (a + BitVec.ofNat 32 off) = (x - a) - BitVec.ofNat 32 off := by grind
  rw [h]
  generalize x - a = d
  rw [BitVec.toNat_sub, BitVec.toNat_ofNat]
  have := d.isLt
  split <;> omega

theorem storeAll_lookup (a : BitVec 32) (l : List (Nat × Nat × Nat)) (hl : ∀ w ∈ l, InImage w) (m : Mem) (x : BitVec 32) :
    storeAll a l m x = (lookup (x - a).toNat l).getD (m x) := by
  induction l generalizing m with
  | nil => rfl
  | cons w l ih =>
    have hw : InImage w := hl w (by simp)
    unfold InImage at hw
    have : storeAll a (w :: l) m = storeAll a l (store m (a + BitVec.ofNat 32 w.1) w.2.1 w.2.2) := rfl
    rw [this, ih (fun w hw => hl w (by simp [hw]))]
    rw [lookup_cons]
    cases lookup (x - a).toNat l with
    | some b => rfl
    | none =>
      simp only [Option.getD_none, Option.none_or]
      unfold store
      rw [sub_off x a w.1 (by omega)]
      have := (x - a).isLt
      by_cases hd : w.1 ≤ (x - a).toNat
      · by_cases hk : (x - a).toNat < w.1 + w.2.1
        · rw [if_pos hd, if_pos (by omega), if_pos ⟨hd, hk⟩]; rfl
        · rw [if_pos hd, if_neg (by omega), if_neg (by omega)]; rfl
      · rw [if_neg hd, if_neg (by omega), if_neg (by omega)]; rfl

/-- Two stores do not overlap. -/
def Disjoint (w v : Nat × Nat × Nat) : Prop := w.1 + w.2.1 ≤ v.1 ∨ v.1 + v.2.1 ≤ w.1

theorem lookup_none (d : Nat) (l : List (Nat × Nat × Nat)) (h : ∀ w ∈ l, ¬ (w.1 ≤ d ∧ d < w.1 + w.2.1)) : lookup d l = none := by
  induction l with
  | nil => rfl
  | cons w l ih =>
    rw [lookup_cons]
    rw [ih (fun w hw => h w (by simp [hw])), if_neg (h w (by simp))]; rfl

theorem lookup_mem (d : Nat) (l : List (Nat × Nat × Nat)) (hp : l.Pairwise Disjoint) (w : Nat × Nat × Nat) (hw : w ∈ l)
    (hd : w.1 ≤ d ∧ d < w.1 + w.2.1) : lookup d l = some (BitVec.ofNat 8 (w.2.2 / 256 ^ (d - w.1))) := by
  induction l with
  | nil => simp at hw
  | cons v l ih =>
    rw [List.pairwise_cons] at hp
    rw [lookup_cons]
    rcases List.mem_cons.mp hw with h | h
    · subst h
      rw [lookup_none d l, if_pos hd]; · rfl
      intro u hu hc
      have := hp.1 u hu
      unfold Disjoint at this; omega
    · rw [ih hp.2 h]; rfl

/-- What is stored by a list of disjoint stores is what is loaded. -/
theorem load_storeAll (a : BitVec 32) (l : List (Nat × Nat × Nat)) (hl : ∀ w ∈ l, InImage w) (hp : l.Pairwise Disjoint)
    (m : Mem) (off k v : Nat) (hw : (off, k, v) ∈ l) :
    load (storeAll a l m) (a + BitVec.ofNat 32 off) k = v % 256 ^ k := by
  have hin : off + k ≤ 512 := hl _ hw
  rw [← load_store m (a + BitVec.ofNat 32 off) k v k (Nat.le_refl _) (by omega)]
  apply load_congr
  intro i hi
  rw [storeAll_lookup a l hl, store_at m _ k v i hi (by omega)]
  have hx : a + BitVec.ofNat 32 off + BitVec.ofNat 32 i = a + BitVec.ofNat 32 (off + i) := by
    rw [BitVec.ofNat_add]; grind
  rw [hx, sub_add_ofNat a (off + i) (by omega), lookup_mem (off + i) l hp _ hw ⟨by simp, by simp; omega⟩]
  simp

/-! ### The image -/

/-- The offsets and sizes of the stores. -/
def shape (os : Bool) : List (Nat × Nat) :=
  [(0, 2), (2, 2), (4, 1), (6, 2), (8, 4), (12, 2), (16, 4), (20, 2)] ++ (if os then [(24, 4), (28, 4)] else []) ++
  [(32, 10), (48, 10), (64, 10), (80, 10), (96, 10), (112, 10), (128, 10), (144, 10)] ++
  (if os then [(160, 16), (176, 16), (192, 16), (208, 16), (224, 16), (240, 16), (256, 16), (272, 16)] else [])

theorem writes_shape (s : St) (os : Bool) : (writes s os).map (fun w => (w.1, w.2.1)) = shape os := by
  cases os <;> rfl

theorem writes_in (s : St) (os : Bool) : ∀ w ∈ writes s os, w.1 + w.2.1 ≤ 288 := by
  intro w hw
  have h : (w.1, w.2.1) ∈ shape os := by rw [← writes_shape s os]; exact List.mem_map_of_mem (f := fun w => (w.1, w.2.1)) hw
  have key : ∀ b : Bool, ∀ r ∈ shape b, r.1 + r.2 ≤ 288 := by decide
  exact key os _ h

theorem writes_inImage (s : St) (os : Bool) : ∀ w ∈ writes s os, InImage w := by
  intro w hw
  have := writes_in s os w hw
  unfold InImage; omega

theorem writes_disjoint (s : St) (os : Bool) : (writes s os).Pairwise Disjoint := by
  have key : ∀ b : Bool, (shape b).Pairwise (fun r q => r.1 + r.2 ≤ q.1 ∨ q.1 + q.2 ≤ r.1) := by decide
  have h := key os
  rw [← writes_shape s os, List.pairwise_map] at h
  exact h

/-! ### Accessibility -/

/-- Access rights are those of 4K pages. -/
def PageWise (ok : Acc) : Prop := ∀ x y : BitVec 32, x.toNat / 4096 = y.toNat / 4096 → ok x = ok y

/-- Every byte of the 288 that are used is accessible. -/
def AllOk (ok : Acc) (a : BitVec 32) : Prop := ∀ i, i < 288 → ok (a + BitVec.ofNat 32 i) = true

theorem accOk_of {ok : Acc} {a : BitVec 32} {k : Nat} (h : ∀ i, i < k → ok (a + BitVec.ofNat 32 i) = true) : accOk ok a k = true := by
  induction k with
  | zero => rfl
  | succ k ih => unfold accOk; rw [ih (fun i hi => h i (by omega)), h k (by omega)]; rfl

theorem accOk_in {ok : Acc} {a : BitVec 32} (h : AllOk ok a) (off k : Nat) (hk : off + k ≤ 288) :
    accOk ok (a + BitVec.ofNat 32 off) k = true := by
  apply accOk_of
  intro i hi
  have hx : a + BitVec.ofNat 32 off + BitVec.ofNat 32 i = a + BitVec.ofNat 32 (off + i) := by
    rw [BitVec.ofNat_add]; grind
  rw [hx]; exact h _ (by omega)

theorem allOk_of_ends {ok : Acc} (hp : PageWise ok) (a : BitVec 32) (h0 : ok a = true) (h1 : ok (a + 287#32) = true) : AllOk ok a := by
  intro i hi
  have e1 : (a + BitVec.ofNat 32 i).toNat = (a.toNat + i) % 4294967296 := by
    rw [BitVec.toNat_add, BitVec.toNat_ofNat, Nat.mod_eq_of_lt (show i < 2 ^ 32 by omega)]
  have e2 : (a + 287#32).toNat = (a.toNat + 287) % 4294967296 := by
    rw [BitVec.toNat_add]; rfl
  have := a.isLt
  by_cases h : (a.toNat + i) % 4294967296 / 4096 = a.toNat / 4096
  · rw [hp (a + BitVec.ofNat 32 i) a (by rw [e1]; exact h)]; exact h0
  · rw [hp (a + BitVec.ofNat 32 i) (a + 287#32) (by rw [e1, e2]; omega)]; exact h1

theorem doWrites_ok {ok : Acc} {a : BitVec 32} (h : AllOk ok a) (l : List (Nat × Nat × Nat)) (hl : ∀ w ∈ l, w.1 + w.2.1 ≤ 288) (m : Mem) :
    doWrites ok a l m = (storeAll a l m, false) := by
  induction l generalizing m with
  | nil => rfl
  | cons w l ih =>
    obtain ⟨off, k, v⟩ := w
    unfold doWrites
    rw [if_pos (accOk_in h off k (hl (off, k, v) (by simp))), ih (fun w hw => hl w (by simp [hw]))]
    rfl

/-- Any execution of the stores did a prefix of them. -/
theorem doWrites_prefix (ok : Acc) (a : BitVec 32) (l : List (Nat × Nat × Nat)) (m : Mem) :
    ∃ n, (doWrites ok a l m).1 = storeAll a (l.take n) m := by
  induction l generalizing m with
  | nil => exact ⟨0, rfl⟩
  | cons w l ih =>
    obtain ⟨off, k, v⟩ := w
    unfold doWrites
    split
    · obtain ⟨n, hn⟩ := ih (store m (a + BitVec.ofNat 32 off) k v)
      exact ⟨n + 1, hn⟩
    · exact ⟨0, rfl⟩

/-! ### The layout of the image -/

/-- The field of `k` bytes at an offset holds a value. -/
def Field (m : Mem) (a : BitVec 32) (off k v : Nat) : Prop := load m (a + BitVec.ofNat 32 off) k = v

theorem or_lt_256 {x y : Nat} (hx : x < 256) (hy : y < 256) : x ||| y < 256 := Nat.or_lt_two_pow (n := 8) hx hy

theorem abridged_lt (tags : Nat → BitVec 8) : abridgedFrom tags 8 0 < 256 := by
  have hb : ∀ (i : Nat), i < 8 → (if tags i = 3#8 then 0 else 1) <<< i < 256 := by
    intro i hi
    split
    · simp
    · rw [Nat.one_shiftLeft]
      exact Nat.pow_lt_pow_right (a := 2) (n := 8) (by omega) hi
  have key : ∀ n i, i + n ≤ 8 → abridgedFrom tags n i < 256 := by
    intro n
    induction n with
    | zero => intro i _; simp [abridgedFrom]
    | succ n ih => intro i hi; exact or_lt_256 (hb i (by omega)) (ih (i + 1) (by omega))
  exact key 8 0 (by omega)

/-- Bit `j` of the abridged tag word tells whether register `j` is in use. -/
theorem abridged_bit (tags : Nat → BitVec 8) (j : Nat) (hj : j < 8) :
    (abridgedFrom tags 8 0).testBit j = !(tags j == 3#8) := by
  have hb : ∀ (i : Nat), ((if tags i = 3#8 then 0 else 1) <<< i).testBit j = (decide (i = j) && !(tags i == 3#8)) := by
    intro i
    by_cases h : tags i = 3#8
    · simp [h]
    · rw [if_neg h, Nat.one_shiftLeft, Nat.testBit_two_pow]; simp [h]
  have key : ∀ n i, (abridgedFrom tags n i).testBit j = (decide (i ≤ j) && decide (j < i + n) && !(tags j == 3#8)) := by
    intro n
    induction n with
    | zero =>
      intro i
      have : ¬ (i ≤ j ∧ j < i) := by omega
      simp [abridgedFrom]; omega
    | succ n ih =>
      intro i
      rw [abridgedFrom, Nat.testBit_or, hb i, ih (i + 1)]
      by_cases hij : i = j
      · subst hij; simp
      · have e1 : decide (i = j) = false := by simp [hij]
        have e2 : decide (i + 1 ≤ j) = decide (i ≤ j) := by simp only [decide_eq_decide]; omega
        have e3 : decide (j < i + 1 + n) = decide (j < i + (n + 1)) := by simp only [decide_eq_decide]; omega
        rw [e1, e2, e3]; simp
  rw [key 8 0]; simp [hj]

/-- C30, image: FXSAVE to an aligned accessible area completes, changes no byte outside the 288 bytes
it uses, and leaves the registers at the documented offsets (for the order of the stack registers see
C30_order_violation). -/
theorem C30_image (ok : Acc) (s : St) (os : Bool) (a : BitVec 32) (m : Mem) (ha : a &&& 15#32 = 0#32) (hok : AllOk ok a) :
    ∃ m', fxsave ok s os a m = .done m' ∧
      (∀ x : BitVec 32, 288 ≤ (x - a).toNat → m' x = m x) ∧
      Field m' a 0 2 s.fpu.fctrl.toNat ∧ Field m' a 2 2 (Fpu.readStatus s.fpu).toNat ∧
      (∀ i, i < 8 → (load m' (a + 4#32) 1).testBit i = !(s.fpu.tags i == 3#8)) ∧
      Field m' a 6 2 s.fop.toNat ∧ Field m' a 8 4 s.fip.toNat ∧ Field m' a 12 2 s.fcs.toNat ∧
      Field m' a 16 4 s.fdp.toNat ∧ Field m' a 20 2 s.fds.toNat ∧
      (os = true → Field m' a 24 4 s.mxcsr.toNat ∧ Field m' a 28 4 0xFFBF) ∧
      (∀ i, i < 8 → Field m' a (32 + 16 * i) 10 (s.fpu.fr i).toNat) ∧
      (os = true → ∀ i, i < 8 → Field m' a (160 + 16 * i) 16 (s.xmm i).toNat) := by
  have hl := writes_inImage s os
  have hd := writes_disjoint s os
  have key : ∀ (off k v : Nat), (off, k, v) ∈ writes s os → v < 256 ^ k → Field (storeAll a (writes s os) m) a off k v := by
    intro off k v hm hv
    unfold Field
    rw [load_storeAll a _ hl hd m off k v hm, Nat.mod_eq_of_lt hv]
  refine ⟨storeAll a (writes s os) m, ?_, ?_, ?_, ?_, ?_, ?_, ?_, ?_, ?_, ?_, ?_, ?_, ?_⟩
  · unfold fxsave
    rw [if_neg (by simp [ha]), doWrites_ok hok _ (writes_in s os)]; rfl
  · intro x hx
    rw [storeAll_lookup a _ hl, lookup_none]; · rfl
    intro w hw
    have := writes_in s os w hw
    omega
  · exact key _ _ _ (by simp [writes]) s.fpu.fctrl.isLt
  · exact key _ _ _ (by simp [writes]) (Fpu.readStatus s.fpu).isLt
  · intro i hi
    have := key 4 1 _ (by simp [writes]) (abridged_lt s.fpu.tags)
    unfold Field at this
    rw [this]; exact abridged_bit s.fpu.tags i hi
  · exact key _ _ _ (by simp [writes]) s.fop.isLt
  · exact key _ _ _ (by simp [writes]) s.fip.isLt
  · exact key _ _ _ (by simp [writes]) s.fcs.isLt
  · exact key _ _ _ (by simp [writes]) s.fdp.isLt
  · exact key _ _ _ (by simp [writes]) s.fds.isLt
  · intro hos
    exact ⟨key _ _ _ (by simp [writes, hos]) s.mxcsr.isLt, key _ _ _ (by simp [writes, hos]) (by decide)⟩
  · intro i hi
    refine key _ _ _ ?_ (s.fpu.fr i).isLt
    unfold writes
    exact List.mem_append_left _ (List.mem_append_right _ (List.mem_map.mpr ⟨i, List.mem_range.mpr hi, rfl⟩))
  · intro hos i hi
    refine key _ _ _ ?_ (s.xmm i).isLt
    unfold writes
    rw [if_pos hos, if_pos hos]
    exact List.mem_append_right _ (List.mem_map.mpr ⟨i, List.mem_range.mpr hi, rfl⟩)

/-- C30: FXSAVE interrupted by a page fault can be restarted: executing it again with the memory
accessible leaves exactly what an uninterrupted execution would have left. -/
theorem C30_restart (ok ok' : Acc) (s : St) (os : Bool) (a : BitVec 32) (m m1 : Mem) (ha : a &&& 15#32 = 0#32)
    (hok : AllOk ok' a) (h1 : fxsave ok s os a m = .pf m1) :
    fxsave ok' s os a m1 = fxsave ok' s os a m := by
  have hl := writes_inImage s os
  have hm1 : ∃ n, m1 = storeAll a ((writes s os).take n) m := by
    obtain ⟨n, hn⟩ := doWrites_prefix ok a (writes s os) m
    unfold fxsave at h1
    rw [if_neg (by simp [ha])] at h1
    simp only at h1
    split at h1
    · injection h1 with h; exact ⟨n, by rw [← h, hn]⟩
    · injection h1
  obtain ⟨n, hn⟩ := hm1
  unfold fxsave
  have hne : ¬ (a &&& 15#32 ≠ 0#32) := by simp [ha]
  simp only [if_neg hne, doWrites_ok hok _ (writes_in s os)]
  have : storeAll a (writes s os) m1 = storeAll a (writes s os) m := by
    funext x
    rw [storeAll_lookup a _ hl, storeAll_lookup a _ hl]
    cases hx : lookup (x - a).toNat (writes s os) with
    | some b => rfl
    | none =>
      simp only [Option.getD_none]
      rw [hn, storeAll_lookup a _ (fun w hw => hl w (List.mem_of_mem_take hw)), lookup_none]; · rfl
      intro w hw hc
      rw [lookup_mem _ _ (writes_disjoint s os) w (List.mem_of_mem_take hw) hc] at hx
      exact absurd hx (by simp)
  rw [this]

/-! ### Restoring -/

theorem doReads_ok {ok : Acc} {a : BitVec 32} (m : Mem) (h : AllOk ok a) (l : List Rd) (hl : ∀ r ∈ l, r.off + r.size ≤ 288) (s : St) :
    doReads ok m a l s = (l.foldl (fun s r => r.put (load m (a + BitVec.ofNat 32 r.off) r.size) s) s, false) := by
  induction l generalizing s with
  | nil => rfl
  | cons r l ih =>
    unfold doReads
    rw [if_pos (accOk_in h r.off r.size (hl _ (by simp))), ih (fun w hw => hl w (by simp [hw]))]
    rfl

theorem reads_in (os : Bool) : ∀ r ∈ reads os, r.off + r.size ≤ 288 := by
  have h : (reads os).map (fun r => r.off + r.size) = (if os then [2, 4, 8, 12, 14, 20, 22, 42, 58, 74, 90, 106, 122, 138, 154,
      176, 192, 208, 224, 240, 256, 272, 288] else [2, 4, 8, 12, 14, 20, 22, 42, 58, 74, 90, 106, 122, 138, 154]) := by
    cases os <;> rfl
  intro r hr
  have h2 : r.off + r.size ∈ (reads os).map (fun r => r.off + r.size) := List.mem_map_of_mem (f := fun r : Rd => r.off + r.size) hr
  rw [h] at h2
  revert h2
  generalize r.off + r.size = n
  cases os <;> simp <;> omega

theorem bit_test (x i : Nat) : (x &&& (1 <<< i) != 0) = x.testBit i := by
  cases h : x.testBit i with
  | true =>
    simp only [bne_iff_ne]
    intro hc
    have := congrArg (fun y => y.testBit i) hc
    simp [h] at this
  | false =>
    simp only [bne_eq_false_iff_eq]
    apply Nat.eq_of_testBit_eq
    intro j
    rw [Nat.testBit_and, Nat.one_shiftLeft, Nat.testBit_two_pow]
    by_cases hj : i = j
    · subst hj; simp [h]
    · simp [hj]

theorem tagLoop_eq (abr : Nat) (n i : Nat) (f : Fpu.St) (h0 : f.ftop = 0) (hn : i + n ≤ 8) :
    tagLoop abr n i f = { f with tags := fun j => if i ≤ j ∧ j < i + n then (if abr.testBit j then Fpu.tagOf (f.fr j) else 3#8) else f.tags j } := by
  induction n generalizing i f with
  | zero =>
    unfold tagLoop
    have : (fun j => if i ≤ j ∧ j < i + 0 then (if abr.testBit j then Fpu.tagOf (f.fr j) else 3#8) else f.tags j) = f.tags := by
      funext j; rw [if_neg (by omega)]
    rw [this]
  | succ n ih =>
    unfold tagLoop
    rw [bit_test, ih (i + 1) (Fpu.updateTag f (abr.testBit i) i) h0 (by omega)]
    have hi : Fpu.idx f i = i := by rw [Fpu.idx_eq, h0]; omega
    unfold Fpu.updateTag
    rw [hi]
    congr 1
    funext j
    show (if i + 1 ≤ j ∧ j < i + 1 + n then (if abr.testBit j then Fpu.tagOf (f.fr j) else 3#8) else Fpu.set f.tags i _ j) = _
    by_cases hj : j = i
    · subst hj
      rw [if_neg (by omega), if_pos (show j ≤ j ∧ j < j + (n + 1) by omega), Fpu.set_eq]
    · rw [Fpu.set_ne _ _ _ _ hj]
      by_cases hr : i + 1 ≤ j ∧ j < i + 1 + n
      · rw [if_pos hr, if_pos (show i ≤ j ∧ j < i + (n + 1) by omega)]
      · rw [if_neg hr, if_neg (show ¬ (i ≤ j ∧ j < i + (n + 1)) by omega)]

/-- What FXRSTOR loads, for any image in memory: the fields at the documented offsets, with the
reserved bit 6 of the control word set, the opcode cut to 11 bits, tags recomputed from the
contents, and the host's control words following the guest's. -/
theorem C30_restored (ok : Acc) (m : Mem) (os : Bool) (a : BitVec 32) (s : St) (ha : a &&& 15#32 = 0#32) (hok : AllOk ok a)
    (hmx : os = true → BitVec.ofNat 32 (load m (a + 24#32) 4) &&& ~~~0xFFBF#32 = 0#32) :
    ∃ t, fxrstor ok m os a s = .done t ∧
      t.fpu.fctrl = BitVec.ofNat 16 (load m (a + 0#32) 2) ||| 0x40#16 ∧ t.frp = t.fpu.fctrl ||| 0x3F#16 ∧
      Fpu.readStatus t.fpu = BitVec.ofNat 16 (load m (a + 2#32) 2) ∧
      t.fpu.ftop = (BitVec.ofNat 16 (load m (a + 2#32) 2)).toNat / 2048 % 8 ∧
      t.fop = BitVec.ofNat 16 (load m (a + 6#32) 2) &&& 0x7FF#16 ∧
      t.fip = BitVec.ofNat 32 (load m (a + 8#32) 4) ∧ t.fcs = BitVec.ofNat 16 (load m (a + 12#32) 2) ∧
      t.fdp = BitVec.ofNat 32 (load m (a + 16#32) 4) ∧ t.fds = BitVec.ofNat 16 (load m (a + 20#32) 2) ∧
      (∀ i, i < 8 → t.fpu.fr i = BitVec.ofNat 80 (load m (a + BitVec.ofNat 32 (32 + 16 * i)) 10)) ∧
      (∀ i, i < 8 → t.fpu.tags i = if (load m (a + 4#32) 1).testBit i then Fpu.tagOf (t.fpu.fr i) else 3#8) ∧
      (os = true → t.mxcsr = BitVec.ofNat 32 (load m (a + 24#32) 4) ∧ t.shadow = shadowOf t.mxcsr ∧
        ∀ i, i < 8 → t.xmm i = BitVec.ofNat 128 (load m (a + BitVec.ofNat 32 (160 + 16 * i)) 16)) ∧
      (os = false → t.mxcsr = s.mxcsr ∧ t.shadow = s.shadow ∧ t.xmm = s.xmm) := by
  have h0 : ok a = true := by have := hok 0 (by omega); simpa using this
  have h1 : ok (a + 287#32) = true := hok 287 (by omega)
  have h2 : accOk ok (a + 24#32) 4 = true := accOk_in hok 24 4 (by omega)
  have h3 : accOk ok (a + 4#32) 1 = true := accOk_in hok 4 1 (by omega)
  have hgp : ¬ (os = true ∧ BitVec.ofNat 32 (load m (a + 24#32) 4) &&& ~~~0xFFBF#32 ≠ 0#32) := fun hc => hc.2 (hmx hc.1)
  unfold fxrstor
  rw [if_neg (by simp [ha]), h0, h1, h2, h3]
  simp only [Bool.not_true, Bool.or_false, Bool.and_false, Bool.false_eq_true, if_false]
  rw [if_neg hgp, doReads_ok m hok _ (reads_in os)]
  simp only [Bool.false_eq_true, if_false]
  refine ⟨_, rfl, ?_⟩
  generalize hL : load m = L
  have htag : ∀ (abr : Nat) (f : Fpu.St), restoreTags abr f = { f with tags := fun j => if 0 ≤ j ∧ j < 0 + 8 then (if abr.testBit j then Fpu.tagOf (f.fr j) else 3#8) else f.tags j } := by
    intro abr f
    unfold restoreTags
    rw [tagLoop_eq abr 8 0 _ rfl (by omega)]
  rw [htag]
  have hst := Fpu.C28_status s.fpu (BitVec.ofNat 16 (L (a + 2#32) 2))
  have e8 : ∀ (P : Nat → Prop), P 0 → P 1 → P 2 → P 3 → P 4 → P 5 → P 6 → P 7 → ∀ i, i < 8 → P i := by
    intro P p0 p1 p2 p3 p4 p5 p6 p7 i hi
    match i, hi with
    | 0, _ => exact p0
    | 1, _ => exact p1
    | 2, _ => exact p2
    | 3, _ => exact p3
    | 4, _ => exact p4
    | 5, _ => exact p5
    | 6, _ => exact p6
    | 7, _ => exact p7
  refine ⟨?_, ?_, ?_, ?_, ?_, ?_, ?_, ?_, ?_, ?_, ?_, ?_, ?_⟩
  · cases os <;> rfl
  · cases os <;> rfl
  · cases os <;> exact hst.1
  · cases os <;> exact hst.2
  · cases os <;> rfl
  · cases os <;> rfl
  · cases os <;> rfl
  · cases os <;> rfl
  · cases os <;> rfl
  · apply e8 <;> cases os <;> rfl
  · intro i hi
    show (if 0 ≤ i ∧ i < 0 + 8 then _ else _) = _
    rw [if_pos ⟨by omega, by omega⟩]
  · intro hos
    subst hos
    refine ⟨rfl, rfl, ?_⟩
    apply e8 <;> rfl
  · intro hos
    subst hos
    exact ⟨rfl, rfl, rfl⟩

/-- C30: an FXRSTOR that faults (misaligned area, reserved bits of MXCSR, page fault at any byte of the
image) changes nothing. -/
theorem C30_fault (ok : Acc) (m : Mem) (os : Bool) (a : BitVec 32) (s t : St) (hp : PageWise ok)
    (h : fxrstor ok m os a s = .pf t ∨ fxrstor ok m os a s = .gp t) : t = s := by
  by_cases ha : a &&& 15#32 = 0#32
  · by_cases hb : ok a = true ∧ ok (a + 287#32) = true
    · have hok := allOk_of_ends hp a hb.1 hb.2
      by_cases hmx : os = true ∧ BitVec.ofNat 32 (load m (a + 24#32) 4) &&& ~~~0xFFBF#32 ≠ 0#32
      · have h2 : accOk ok (a + 24#32) 4 = true := accOk_in hok 24 4 (by omega)
        have e : fxrstor ok m os a s = .gp s := by
          unfold fxrstor
          rw [if_neg (by simp [ha]), hb.1, hb.2, h2]
          simp only [Bool.not_true, Bool.or_false, Bool.and_false, Bool.false_eq_true, if_false]
          rw [if_pos hmx]
        rw [e] at h
        rcases h with h | h
        · injection h
        · injection h with h; exact h.symm
      · obtain ⟨u, hu, _⟩ := C30_restored ok m os a s ha hok (fun ho => Decidable.byContradiction fun hc => hmx ⟨ho, hc⟩)
        rw [hu] at h
        rcases h with h | h <;> injection h
    · have e : fxrstor ok m os a s = .pf s := by
        unfold fxrstor
        rw [if_neg (by simp [ha]), if_pos]
        cases h1 : ok a <;> cases h2 : ok (a + 287#32) <;> simp_all
      rw [e] at h
      rcases h with h | h
      · injection h with h; exact h.symm
      · injection h
  · have e : fxrstor ok m os a s = .gp s := by unfold fxrstor; rw [if_pos ha]
    rw [e] at h
    rcases h with h | h
    · injection h
    · injection h with h; exact h.symm

/-- What a program can observe of the FPU and SSE state. -/
structure SameObs (os : Bool) (s t : St) : Prop where
  fctrl : t.fpu.fctrl = s.fpu.fctrl
  status : Fpu.readStatus t.fpu = Fpu.readStatus s.fpu
  top : t.fpu.ftop = s.fpu.ftop
  regs : ∀ i, i < 8 → t.fpu.fr i = s.fpu.fr i
  tags : ∀ i, i < 8 → t.fpu.tags i = s.fpu.tags i
  fop : t.fop = s.fop
  fip : t.fip = s.fip
  fcs : t.fcs = s.fcs
  fdp : t.fdp = s.fdp
  fds : t.fds = s.fds
  mxcsr : os = true → t.mxcsr = s.mxcsr
  xmm : os = true → ∀ i, i < 8 → t.xmm i = s.xmm i

/-- The registers hold values that the instructions writing them can leave there. -/
structure Valid (s : St) : Prop where
  top : s.fpu.ftop < 8
  coherent : Fpu.Coherent s.fpu
  bit6 : s.fpu.fctrl &&& 0x40#16 = 0x40#16
  fop : s.fop &&& 0x7FF#16 = s.fop
  mxcsr : s.mxcsr &&& ~~~0xFFBF#32 = 0#32

/-- C30: FXRSTOR of what FXSAVE stored reproduces the state, whatever the state `u` in between was.
Missing: states whose tags do not describe the registers (see C30_tags_violation). -/
theorem C30_roundtrip_partial (ok ok' : Acc) (s u : St) (os : Bool) (a : BitVec 32) (m : Mem) (hv : Valid s)
    (ha : a &&& 15#32 = 0#32) (hok : AllOk ok a) (hok' : AllOk ok' a) :
    ∃ m' t, fxsave ok s os a m = .done m' ∧ fxrstor ok' m' os a u = .done t ∧ SameObs os s t := by
  obtain ⟨m', hm, _, f0, f2, f4, f6, f8, f12, f16, f20, f24, f32, f160⟩ := C30_image ok s os a m ha hok
  unfold Field at *
  have hmx : os = true → BitVec.ofNat 32 (load m' (a + 24#32) 4) &&& ~~~0xFFBF#32 = 0#32 := by
    intro ho
    rw [show (24#32) = BitVec.ofNat 32 24 from rfl, (f24 ho).1, BitVec.ofNat_toNat, BitVec.setWidth_eq]; exact hv.mxcsr
  obtain ⟨t, ht, g1, g2, g3, g4, g5, g6, g7, g8, g9, g10, g11, g12, g13⟩ := C30_restored ok' m' os a u ha hok' hmx
  refine ⟨m', t, hm, ht, ?_⟩
  have c16 : ∀ x : BitVec 16, BitVec.ofNat 16 x.toNat = x := fun x => by rw [BitVec.ofNat_toNat, BitVec.setWidth_eq]
  have c32 : ∀ x : BitVec 32, BitVec.ofNat 32 x.toNat = x := fun x => by rw [BitVec.ofNat_toNat, BitVec.setWidth_eq]
  have hfr : ∀ i, i < 8 → t.fpu.fr i = s.fpu.fr i := by
    intro i hi
    rw [g10 i hi, f32 i hi, BitVec.ofNat_toNat, BitVec.setWidth_eq]
  have hs : Fpu.readStatus t.fpu = Fpu.readStatus s.fpu := by
    rw [g3, show (2#32) = BitVec.ofNat 32 2 from rfl, f2, c16]
  constructor
  · rw [g1, show (0#32) = BitVec.ofNat 32 0 from rfl, f0, c16]
    have := hv.bit6
    have hb : ∀ x : BitVec 16, x &&& 0x40#16 = 0x40#16 → x ||| 0x40#16 = x := by
      intro x hx
      have := congrArg (fun y => y.getLsbD 6) hx
      simp at this
      bits16 <;> simp [this]
    exact hb _ this
  · exact hs
  · rw [g4, show (2#32) = BitVec.ofNat 32 2 from rfl, f2, c16]
    have htop := hv.top
    have hpow : ∀ n : Nat, n < 8 → ∀ x : BitVec 16, ((x &&& ~~~0x3800#16) ||| (BitVec.ofNat 16 n <<< 11)).toNat / 2048 % 8 = n := by
      intro n hn x
      have e : ∀ y : BitVec 16, y.toNat / 2048 % 8 = ((y >>> 11) &&& 7#16).toNat := by
        intro y
        rw [BitVec.toNat_and, BitVec.toNat_ushiftRight, Nat.shiftRight_eq_div_pow]
        exact (Nat.and_two_pow_sub_one_eq_mod _ 3).symm
      rw [e]
      have e2 : (((x &&& ~~~0x3800#16) ||| (BitVec.ofNat 16 n <<< 11)) >>> 11) &&& 7#16 = BitVec.ofNat 16 n &&& 7#16 := by
        generalize BitVec.ofNat 16 n = k
        bits16
      rw [e2, BitVec.toNat_and, BitVec.toNat_ofNat]
      have := Nat.and_two_pow_sub_one_eq_mod (n % 2 ^ 16) 3
      show n % 2 ^ 16 &&& 7 = n
      rw [this]; omega
    exact hpow _ htop _
  · exact hfr
  · intro i hi
    rw [g11 i hi, f4 i hi, hfr i hi]
    rcases hv.coherent i hi with h | h
    · simp [h]
    · have hl := Fpu.tagOf_lt (s.fpu.fr i)
      have : Fpu.tagOf (s.fpu.fr i) ≠ 3#8 := by intro hc; rw [hc] at hl; exact absurd hl (by decide)
      rw [h]; simp [this]
  · rw [g5, show (6#32) = BitVec.ofNat 32 6 from rfl, f6, c16, hv.fop]
  · rw [g6, show (8#32) = BitVec.ofNat 32 8 from rfl, f8, c32]
  · rw [g7, show (12#32) = BitVec.ofNat 32 12 from rfl, f12, c16]
  · rw [g8, show (16#32) = BitVec.ofNat 32 16 from rfl, f16, c32]
  · rw [g9, show (20#32) = BitVec.ofNat 32 20 from rfl, f20, c16]
  · intro ho
    rw [(g12 ho).1, show (24#32) = BitVec.ofNat 32 24 from rfl, (f24 ho).1, c32]
  · intro ho i hi
    rw [(g12 ho).2.2 i hi, f160 ho i hi, BitVec.ofNat_toNat, BitVec.setWidth_eq]

/-! ### What goes wrong -/

/-- Everything accessible. -/
def allAcc : Acc := fun _ => true
/-- An FPU state with the rest of the registers zero. -/
def plain (f : Fpu.St) : St :=
  { fpu := f, frp := f.fctrl ||| 0x3F#16, fop := 0#16, fip := 0#32, fcs := 0#16, fdp := 0#32, fds := 0#16,
    mxcsr := 0x1F80#32, shadow := 0x1F80#32, xmm := fun _ => 0#128 }

/-- After FXCH of a zero and a non zero register. -/
def exchanged : Fpu.St := Fpu.run Fpu.init [.fninit, .ldConst 0x3FFF8000000000000000#80, .ldConst 0#80, .fxch 1]

/-- C30, violation: the tag word a program reads changes across FXSAVE and FXRSTOR when FXCH left it
stale. -/
theorem C30_tags_violation (m : Mem) :
    ∃ m' t, fxsave allAcc (plain exchanged) false 0#32 m = .done m' ∧ fxrstor allAcc m' false 0#32 (plain Fpu.init) = .done t ∧
      Fpu.readTags t.fpu ≠ Fpu.readTags (plain exchanged).fpu := by
  have hok : AllOk allAcc 0#32 := fun _ _ => rfl
  obtain ⟨m', hm, _, _, _, f4, _, _, _, _, _, _, f32, _⟩ := C30_image allAcc (plain exchanged) false 0#32 m (by decide) hok
  obtain ⟨t, ht, _, _, _, _, _, _, _, _, _, g10, g11, _, _⟩ := C30_restored allAcc m' false 0#32 (plain Fpu.init) (by decide) hok (by simp)
  refine ⟨m', t, hm, ht, ?_⟩
  have h6 : t.fpu.tags 6 = 0#8 := by
    rw [g11 6 (by omega), f4 6 (by omega), g10 6 (by omega), f32 6 (by omega), BitVec.ofNat_toNat, BitVec.setWidth_eq]
    decide +kernel
  have h3 : ∀ i, i < 6 → t.fpu.tags i = 3#8 := by
    intro i hi
    have he : (plain exchanged).fpu.tags i = 3#8 := by
      have : ∀ k : Fin 6, (plain exchanged).fpu.tags k = 3#8 := by decide +kernel
      exact this ⟨i, hi⟩
    rw [g11 i (by omega), f4 i (by omega), he]; rfl
  intro hc
  have hr := congrArg (fun x => (x.getLsbD 12, x.getLsbD 13)) hc
  have hrhs : ((Fpu.readTags (plain exchanged).fpu).getLsbD 12, (Fpu.readTags (plain exchanged).fpu).getLsbD 13) = (true, false) := by decide +kernel
  rw [hrhs] at hr
  simp [Fpu.readTags, Fpu.readTagsFrom, h6, h3] at hr

/-- C30, violation of the image's layout: the slot at offset 32 is to hold ST(0); FXSAVE stores physical
register 0 there whatever TOP is. -/
theorem C30_order_violation (m : Mem) :
    let s := plain (Fpu.run Fpu.init [.fninit, .ldConst 0x3FFF8000000000000000#80])
    ∃ m', fxsave allAcc s false 0#32 m = .done m' ∧ Field m' 0#32 32 10 (s.fpu.fr 0).toNat ∧
      ¬ Field m' 0#32 32 10 (s.fpu.fr (Fpu.st s.fpu 0)).toNat := by
  intro s
  obtain ⟨m', hm, _, _, _, _, _, _, _, _, _, _, f32, _⟩ := C30_image allAcc s false 0#32 m (by decide) (fun _ _ => rfl)
  refine ⟨m', hm, f32 0 (by omega), ?_⟩
  intro hc
  have h0 := f32 0 (by omega)
  unfold Field at hc h0
  rw [show (32 + 16 * 0) = 32 from rfl] at h0
  rw [h0] at hc
  exact absurd hc (by decide +kernel)

-- A state meeting `Valid`, with a used and a special register.
def sample : St := { plain (Fpu.run Fpu.init [.fninit, .ldConst 0x3FFF8000000000000000#80, .ldConst 0#80]) with
  fop := 0x1D9#16, xmm := fun i => BitVec.ofNat 128 (i + 1) }
example : Valid sample :=
  ⟨by decide +kernel, Fpu.C29_tags_partial _ (by intro op h; simp at h; rcases h with rfl | rfl | rfl <;> trivial),
   by decide +kernel, by decide +kernel, by decide +kernel⟩
example : AllOk allAcc 0xFFFFFFF0#32 ∧ (0xFFFFFFF0#32 &&& 15#32 = 0#32) := ⟨fun _ _ => rfl, by decide⟩
-- a page fault in the second page after stores to the first
def firstPage : Acc := fun x => decide (x.toNat < 0x1000)
example : PageWise firstPage := by
  intro x y h; unfold firstPage; simp only [decide_eq_decide]; omega
example (m : Mem) : ∃ m1, fxsave firstPage sample true 0xFF0#32 m = .pf m1 ∧ m1 0xFF0#32 = 0x7F#8 := by
  refine ⟨(doWrites firstPage 0xFF0#32 (writes sample true) m).1, ?_, ?_⟩
  · rfl
  · rfl
example (m : Mem) : ∃ t, fxrstor firstPage m true 0xFF0#32 sample = .pf t := ⟨_, rfl⟩

/-- C30: the host's MXCSR while guest code runs: the guest's, with every exception masked and no exception flag set. -/
theorem C30_shadow (v : BitVec 32) : ∀ i : Fin 32, (shadowOf v)[i.val] = if i.val < 6 then false else if 7 ≤ i.val ∧ i.val < 13 then true else v[i.val] := by
  intro i
  have h : ∀ j : Fin 32, (0x3F#32 <<< 7 : BitVec 32).getLsbD j.val = decide (7 ≤ j.val ∧ j.val < 13) ∧
    (~~~0x3F#32 : BitVec 32).getLsbD j.val = decide (6 ≤ j.val) := by decide
  obtain ⟨h1, h2⟩ := h i
  rw [← BitVec.getLsbD_eq_getElem, ← BitVec.getLsbD_eq_getElem]
  unfold shadowOf
  rw [BitVec.getLsbD_and, BitVec.getLsbD_or, h1, h2]
  split
  · rename_i hi; rw [decide_eq_false (show ¬ 6 ≤ i.val by omega), Bool.and_false]
  · rename_i hi
    rw [decide_eq_true (show 6 ≤ i.val by omega), Bool.and_true]
    split
    · rename_i hj; rw [decide_eq_true hj]; simp
    · rename_i hj; rw [decide_eq_false hj]; simp

end Verif.Fxsave
