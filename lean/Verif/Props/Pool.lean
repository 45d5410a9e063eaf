import Verif.Model.Pool
import Mathlib.Data.List.Perm.Subperm
/-
C50: code memory blocks are never handed out twice, freed blocks are available again, no exhaustion.
-/
namespace Verif.Pool

/-! ### Specification -/

/-- Blocks in use: those of the cache and those running outside the cache. -/
def live (c : Client) : List Ptr := c.temps ++ c.cached

/-- The blocks of the free list, by following the pointers. -/
inductive Chain (next : Nat → Option Nat) : Option Nat → List Nat → Prop
  | nil : Chain next none []
  | cons (i : Nat) (l : List Nat) : Chain next (next i) l → Chain next (some i) (i :: l)

/-- Pool blocks in a list. -/
def poolOf (l : List Ptr) : List Nat := l.filterMap fun | .pool i => some i | .big _ => none
/-- System blocks in a list. -/
def bigOf (l : List Ptr) : List Nat := l.filterMap fun | .pool _ => none | .big k => some k

/-- The environment and the known defects: the system hands out memory that is not in use; code is written only to
blocks in use; the cache is purged, and an abort happens, only while no uncached block runs; nested loops do not
translate when the cache is nearly full. -/
def Ok (c : Client) : Op → Prop
  | .translate _ _ k => Ptr.big k ∉ live c ∧ (c.temps = [] ∨ c.num + c.temps.length < MAX)
  | .finish => True
  | .abort => c.temps = []
  | .code p _ => p ∈ live c
  | .purge => c.temps = []

/-- All events of a history satisfy `Ok` where they occur. -/
def AllOk (c : Client) : List Op → Prop
  | [] => True
  | o :: os => Ok c o ∧ ∀ c', step c o = some c' → AllOk c' os

/-! ### Proofs -/

theorem chain_congr {next next' : Nat → Option Nat} {h : Option Nat} {l : List Nat} (hc : Chain next h l)
    (he : ∀ i, i ∈ l → next' i = next i) : Chain next' h l := by
  induction hc with
  | nil => exact .nil
  | cons i l _ ih =>
    refine .cons i l ?_
    rw [he i (.head _)]
    exact ih fun j hj => he j (.tail _ hj)

theorem chain_put {next : Nat → Option Nat} {h : Option Nat} {l : List Nat} (hc : Chain next h l) (i : Nat) (v : Option Nat)
    (hi : i ∉ l) : Chain (put next i v) h l :=
  chain_congr hc fun j hj => if_neg fun (e : j = i) => hi (e ▸ hj)

/-- The loop writes the blocks `i`, ..., `i + n - 1`. -/
theorem initLoop_spec (n i : Nat) (next : Nat → Option Nat) : (initLoop n i next).1 = i + n ∧
    ∀ j, (initLoop n i next).2 j = if i ≤ j ∧ j < i + n then some (j + 1) else next j := by
  induction n generalizing i next with
  | zero =>
    refine ⟨rfl, fun j => ?_⟩
    show next j = _
    rw [if_neg (by omega)]
  | succ n ih =>
    have := ih (i + 1) (put next i (some (i + 1)))
    refine ⟨by show (initLoop n (i + 1) _).1 = _; rw [this.1]; omega, fun j => ?_⟩
    show (initLoop n (i + 1) _).2 j = _
    rw [this.2]
    unfold put
    by_cases h1 : i + 1 ≤ j ∧ j < i + 1 + n
    · rw [if_pos h1, if_pos (by omega)]
    · rw [if_neg h1]
      by_cases h2 : j = i
      · rw [if_pos h2, if_pos (by omega), h2]
      · rw [if_neg h2, if_neg (by omega)]

theorem chain_range (next : Nat → Option Nat) (n i : Nat) (h1 : ∀ j, i ≤ j → j < i + n → next j = some (j + 1))
    (h2 : next (i + n) = none) : Chain next (some i) (List.range' i (n + 1)) := by
  induction n generalizing i with
  | zero =>
    refine .cons i [] ?_
    rw [show next i = none from h2]; exact .nil
  | succ n ih =>
    rw [List.range'_succ]
    refine .cons i _ ?_
    rw [h1 i (Nat.le_refl _) (by omega)]
    exact ih (i + 1) (fun j hj hj' => h1 j (by omega) (by omega)) (by rw [← h2]; congr 1; omega)

/-- init_pool makes the list of all blocks. -/
theorem init_chain (m : Mgr) : Chain (init m).next (init m).head (List.range' 0 MAX) := by
  have h := initLoop_spec (MAX - 1) 0 m.next
  unfold init
  dsimp only
  refine chain_range _ (MAX - 1) 0 ?_ ?_
  · intro j hj hj'
    unfold put
    rw [h.1, if_neg (by omega), h.2, if_pos ⟨hj, hj'⟩]
  · unfold put
    rw [h.1, if_pos rfl]

/-- The free list and the blocks in use partition the pool. -/
structure Inv (c : Client) (l : List Nat) : Prop where
  chain : Chain c.mgr.next c.mgr.head l
  nodup : (l ++ poolOf (live c)).Nodup
  bound : ∀ i, i ∈ l ++ poolOf (live c) → i < MAX
  count : l.length + (poolOf (live c)).length = MAX
  big : (bigOf (live c)).Nodup
  used : c.cached.length ≤ c.num
  num : c.num ≤ MAX

theorem poolOf_append (a b : List Ptr) : poolOf (a ++ b) = poolOf a ++ poolOf b := List.filterMap_append
theorem bigOf_append (a b : List Ptr) : bigOf (a ++ b) = bigOf a ++ bigOf b := List.filterMap_append
theorem mem_poolOf (l : List Ptr) (i : Nat) : i ∈ poolOf l ↔ Ptr.pool i ∈ l := by
  unfold poolOf
  rw [List.mem_filterMap]
  constructor
  · rintro ⟨p, hp, he⟩
    cases p with
    | pool j => cases he; exact hp
    | big k => cases he
  · intro h; exact ⟨_, h, rfl⟩
theorem mem_bigOf (l : List Ptr) (k : Nat) : k ∈ bigOf l ↔ Ptr.big k ∈ l := by
  unfold bigOf
  rw [List.mem_filterMap]
  constructor
  · rintro ⟨p, hp, he⟩
    cases p with
    | pool j => cases he
    | big k => cases he; exact hp
  · intro h; exact ⟨_, h, rfl⟩

theorem poolOf_pool (i : Nat) (l : List Ptr) : poolOf (.pool i :: l) = i :: poolOf l := rfl
theorem poolOf_big (k : Nat) (l : List Ptr) : poolOf (.big k :: l) = poolOf l := rfl
theorem bigOf_pool (i : Nat) (l : List Ptr) : bigOf (.pool i :: l) = bigOf l := rfl
theorem bigOf_big (k : Nat) (l : List Ptr) : bigOf (.big k :: l) = k :: bigOf l := rfl

/-- No pointer is twice in a list whose parts have none twice. -/
theorem nodup_of (l : List Ptr) (h1 : (poolOf l).Nodup) (h2 : (bigOf l).Nodup) : l.Nodup := by
  induction l with
  | nil => exact .nil
  | cons p l ih =>
    cases p with
    | pool i =>
      rw [poolOf_pool, List.nodup_cons, mem_poolOf] at h1
      exact List.nodup_cons.2 ⟨h1.1, ih h1.2 h2⟩
    | big k =>
      rw [bigOf_big, List.nodup_cons, mem_bigOf] at h2
      exact List.nodup_cons.2 ⟨h2.1, ih h1 h2.2⟩

theorem Inv.live_nodup {c : Client} {l : List Nat} (h : Inv c l) : (live c).Nodup :=
  nodup_of _ (List.nodup_append.1 h.nodup).2.1 h.big

theorem inv_purge {c : Client} {l : List Nat} (h : Inv c l) (ht : c.temps = []) : Inv (purge c) (List.range' 0 MAX) := by
  have hl : live (purge c) = [] := by unfold live purge; dsimp only; rw [ht]; rfl
  refine ⟨init_chain c.mgr, ?_, ?_, ?_, ?_, ?_, Nat.zero_le _⟩
  · rw [hl]; simp [poolOf, List.nodup_range']
  · rw [hl]; intro i hi; simp [poolOf] at hi; exact hi
  · rw [hl]; simp [poolOf]
  · rw [hl]; exact .nil
  · exact Nat.zero_le _

/-- What a successful allocation does: the client with the block added at either place. -/
theorem inv_alloc {c c' : Client} {l : List Nat} (h : Inv c l) (p : Ptr) (m : Mgr) (size k : Nat)
    (ha : allocate c.mgr size k = some (p, m)) (hk : Ptr.big k ∉ live c) (hm : c'.mgr = m)
    (hperm : (live c').Perm (p :: live c)) (hu : c'.cached.length ≤ c'.num) (hn : c'.num ≤ MAX) :
    ∃ l', Inv c' l' := by
  have hpp : (poolOf (live c')).Perm (poolOf (p :: live c)) := hperm.filterMap _
  have hbb : (bigOf (live c')).Perm (bigOf (p :: live c)) := hperm.filterMap _
  unfold allocate at ha
  split at ha
  · cases ha
    rw [poolOf_big] at hpp
    rw [bigOf_big] at hbb
    refine ⟨l, ?_, ?_, ?_, ?_, ?_, ?_, hn⟩
    · rw [hm]; exact h.chain
    · exact ((List.Perm.refl l).append hpp).nodup_iff.2 h.nodup
    · intro i hi; exact h.bound i (((List.Perm.refl l).append hpp).mem_iff.1 hi)
    · rw [hpp.length_eq]; exact h.count
    · rw [hbb.nodup_iff, List.nodup_cons, mem_bigOf]; exact ⟨hk, h.big⟩
    · exact hu
  · unfold alloc at ha
    obtain ⟨hc, hnd, hb, hct, hbig, hus, _⟩ := h
    cases hh : c.mgr.head with
    | none => rw [hh] at ha; cases ha
    | some i =>
      rw [hh] at ha hc
      cases ha
      cases hc with
      | cons _ l' hc' =>
      rw [poolOf_pool] at hpp
      rw [bigOf_pool] at hbb
      have hp2 : (l' ++ poolOf (live c')).Perm (i :: l' ++ poolOf (live c)) := by
        refine ((List.Perm.refl l').append hpp).trans ?_
        exact List.perm_middle
      refine ⟨l', ?_, ?_, ?_, ?_, ?_, ?_, hn⟩
      · rw [hm]; exact hc'
      · exact hp2.nodup_iff.2 hnd
      · intro j hj; exact hb j (hp2.mem_iff.1 hj)
      · rw [hpp.length_eq, List.length_cons]; rw [List.length_cons] at hct; omega
      · exact hbb.nodup_iff.2 hbig
      · exact hu

theorem alloc_some {c : Client} {l : List Nat} (h : Inv c l) (hu : c.num + c.temps.length < MAX) (size k : Nat) :
    ∃ p m, allocate c.mgr size k = some (p, m) := by
  unfold allocate
  split
  · exact ⟨_, _, rfl⟩
  · unfold alloc
    cases hh : c.mgr.head with
    | some i => exact ⟨_, _, rfl⟩
    | none =>
      have hc := h.chain
      rw [hh] at hc
      cases hc
      have h1 := h.count
      have h2 := h.used
      have h3 : (poolOf (live c)).length ≤ (live c).length := List.length_filterMap_le ..
      have h4 : (live c).length = c.temps.length + c.cached.length := List.length_append
      simp at h1
      omega

theorem inv_step {c : Client} {l : List Nat} (h : Inv c l) (o : Op) (ho : Ok c o) : ∃ c' l', step c o = some c' ∧ Inv c' l' := by
  cases o with
  | translate temp size k =>
    obtain ⟨hk, ht⟩ := ho
    -- the client after a possible purge
    have key : ∃ c1 l1, (if c.num = MAX then purge c else c) = c1 ∧ Inv c1 l1 ∧ Ptr.big k ∉ live c1 ∧ c1.num + c1.temps.length < MAX ∧ c1.num < MAX := by
      split
      · rename_i hn
        have ht : c.temps = [] := ht.resolve_right (by omega)
        refine ⟨_, _, rfl, inv_purge h ht, ?_, ?_, ?_⟩
        · unfold live purge; dsimp only; rw [ht]; simp
        · show 0 + c.temps.length < MAX; rw [ht]; decide
        · show 0 < MAX; decide
      · rename_i hn
        have := h.num
        refine ⟨c, l, rfl, h, hk, ?_, by omega⟩
        rcases ht with ht | ht
        · rw [ht]; simp; omega
        · exact ht
    obtain ⟨c1, l1, e, h1, hk1, hlt, hnlt⟩ := key
    unfold step
    dsimp only
    rw [e]
    obtain ⟨p, m, ha⟩ := alloc_some h1 hlt size k
    rw [ha]
    dsimp only
    split
    · obtain ⟨l', h'⟩ := inv_alloc (c' := { c1 with mgr := m, temps := p :: c1.temps }) h1 p m size k ha hk1 rfl
        (List.Perm.refl _) h1.used (by show c1.num ≤ MAX; omega)
      exact ⟨_, l', rfl, h'⟩
    · obtain ⟨l', h'⟩ := inv_alloc (c' := { c1 with mgr := m, num := c1.num + 1, cached := p :: c1.cached }) h1 p m size k ha hk1 rfl
        List.perm_middle (by have := h1.used; simp only [List.length_cons]; omega) (by show c1.num + 1 ≤ MAX; omega)
      exact ⟨_, l', rfl, h'⟩
  | finish =>
    unfold step
    dsimp only
    cases ht : c.temps with
    | nil => exact ⟨c, l, rfl, h⟩
    | cons p r =>
      dsimp only
      have hl : live c = p :: (r ++ c.cached) := by unfold live; rw [ht]; rfl
      obtain ⟨hc, hnd, hb, hct, hbig, hus, hn⟩ := h
      rw [hl] at hnd hb hct hbig
      refine ⟨{ c with mgr := release c.mgr p, temps := r }, ?_⟩
      cases p with
      | big k =>
        rw [poolOf_big] at hnd hb hct
        rw [bigOf_big] at hbig
        exact ⟨l, rfl, hc, hnd, hb, hct, (List.nodup_cons.1 hbig).2, hus, hn⟩
      | pool i =>
        rw [poolOf_pool] at hnd hb hct
        rw [bigOf_pool] at hbig
        have hp : (i :: l ++ poolOf (r ++ c.cached)).Perm (l ++ i :: poolOf (r ++ c.cached)) := List.perm_middle.symm
        refine ⟨i :: l, rfl, ?_, hp.nodup_iff.2 hnd, fun j hj => hb j (hp.mem_iff.1 hj), ?_, hbig, hus, hn⟩
        · refine .cons i l ?_
          have hil : i ∉ l := fun hi => (List.nodup_append.1 hnd).2.2 i hi i (.head _) rfl
          show Chain (put c.mgr.next i c.mgr.head) (put c.mgr.next i c.mgr.head i) l
          rw [show put c.mgr.next i c.mgr.head i = c.mgr.head from if_pos rfl]
          exact chain_put hc i _ hil
        · show (i :: l).length + (poolOf (r ++ c.cached)).length = MAX
          simp only [List.length_cons] at hct ⊢; omega
  | abort =>
    refine ⟨c, l, ?_, h⟩
    unfold step
    dsimp only
    rw [← (show c.temps = [] from ho)]
  | code p w =>
    cases p with
    | big k => exact ⟨c, l, rfl, h⟩
    | pool i =>
      have hi : i ∈ poolOf (live c) := (mem_poolOf _ _).2 ho
      refine ⟨_, l, rfl, ?_⟩
      have hil : i ∉ l := fun h' => (List.nodup_append.1 h.nodup).2.2 i h' i hi rfl
      exact ⟨chain_put h.chain i w hil, h.nodup, h.bound, h.count, h.big, h.used, h.num⟩
  | purge => exact ⟨_, _, rfl, inv_purge h ho⟩

theorem inv_run {c : Client} {l : List Nat} (h : Inv c l) (os : List Op) (hs : AllOk c os) : ∃ c' l', run c os = some c' ∧ Inv c' l' := by
  induction os generalizing c l with
  | nil => exact ⟨c, l, rfl, h⟩
  | cons o os ih =>
    obtain ⟨c1, l1, e, h1⟩ := inv_step h o hs.1
    obtain ⟨c2, l2, e2, h2⟩ := ih h1 (hs.2 c1 e)
    refine ⟨c2, l2, ?_, h2⟩
    show (step c o).bind _ = _
    rw [e]; exact e2

theorem inv_start (next : Nat → Option Nat) : Inv (start next) (List.range' 0 MAX) := by
  have hl : live (start next) = [] := rfl
  refine ⟨init_chain _, ?_, ?_, ?_, ?_, ?_, Nat.zero_le _⟩
  · rw [hl]; simp [poolOf, List.nodup_range']
  · rw [hl]; intro i hi; simp [poolOf] at hi; exact hi
  · rw [hl]; simp [poolOf]
  · rw [hl]; exact .nil
  · exact Nat.zero_le _

/-- **C50** (partial): for every history outside the defects, memory is never exhausted (the history runs to its
end), and no block is in use twice at any time. -/
theorem C50_partial (next : Nat → Option Nat) (os : List Op) (hs : AllOk (start next) os) :
    ∃ c, run (start next) os = some c ∧ (live c).Nodup := by
  obtain ⟨c, l, e, h⟩ := inv_run (inv_start next) os hs
  exact ⟨c, e, h.live_nodup⟩

/-- **C50** (partial): the blocks of the pool that are not in use are exactly those on the free list, so that a
released block is available again and none is lost. -/
theorem C50_free_partial (next : Nat → Option Nat) (os : List Op) (hs : AllOk (start next) os) :
    ∃ c l, run (start next) os = some c ∧ Chain c.mgr.next c.mgr.head l ∧ l.Nodup ∧
      ∀ i, i ∈ l ↔ i < MAX ∧ Ptr.pool i ∉ live c := by
  obtain ⟨c, l, e, h⟩ := inv_run (inv_start next) os hs
  refine ⟨c, l, e, h.chain, (List.nodup_append.1 h.nodup).1, fun i => ?_⟩
  constructor
  · intro hi
    refine ⟨h.bound i (List.mem_append.2 (.inl hi)), fun hl => ?_⟩
    exact (List.nodup_append.1 h.nodup).2.2 i hi i ((mem_poolOf _ _).2 hl) rfl
  · rintro ⟨h1, h2⟩
    -- MAX distinct numbers below MAX are all of them
    have hmem : i ∈ l ++ poolOf (live c) := by
      refine Classical.byContradiction fun hn => ?_
      have hnd : (i :: (l ++ poolOf (live c))).Nodup := List.nodup_cons.2 ⟨hn, h.nodup⟩
      have hsub : (i :: (l ++ poolOf (live c))).Subperm (List.range MAX) :=
        List.subperm_of_subset hnd (by
          intro j hj
          rcases List.mem_cons.1 hj with rfl | hj
          · exact List.mem_range.2 h1
          · exact List.mem_range.2 (h.bound j hj))
      have := hsub.length_le
      simp only [List.length_cons, List.length_append, List.length_range] at this
      have := h.count
      omega
    rcases List.mem_append.1 hmem with h3 | h3
    · exact h3
    · exact absurd ((mem_poolOf _ _).1 h3) h2

/-- **C50**: a block that was just released is the next one handed out. -/
theorem C50_reuse (m : Mgr) (i : Nat) (size k : Nat) (hs : size ≤ 4096) :
    ∃ m', allocate (release m (.pool i)) size k = some (.pool i, m') ∧ m'.head = m.head := by
  refine ⟨{ release m (.pool i) with head := m.head }, ?_, rfl⟩
  unfold allocate
  rw [if_neg (by omega)]
  show some (Ptr.pool i, { release m (.pool i) with head := put m.next i m.head i }) = _
  rw [show put m.next i m.head i = m.head from if_pos rfl]

/-- The first `j` blocks were handed out, in order. -/
structure Fresh (m : Mgr) (j : Nat) : Prop where
  head : m.head = if j < MAX then some j else none
  next : ∀ i, j ≤ i → m.next i = if i + 1 < MAX then some (i + 1) else none

theorem fresh_init (m : Mgr) (hm : ∀ i, MAX ≤ i → m.next i = none) : Fresh (init m) 0 := by
  have h := initLoop_spec (MAX - 1) 0 m.next
  refine ⟨rfl, fun i _ => ?_⟩
  unfold init put
  dsimp only
  have hM : 0 < MAX := by decide
  rw [h.1, h.2]
  by_cases h1 : i = 0 + (MAX - 1)
  · rw [if_pos h1, if_neg (by omega)]
  · rw [if_neg h1]
    by_cases h2 : i + 1 < MAX
    · rw [if_pos (by omega), if_pos h2]
    · rw [if_neg (by omega), if_neg h2]
      exact hm i (by omega)

theorem fresh_alloc {m : Mgr} {j : Nat} (h : Fresh m j) (hj : j < MAX) (k : Nat) :
    ∃ m', allocate m 100 k = some (.pool j, m') ∧ Fresh m' (j + 1) := by
  refine ⟨{ m with head := m.next j }, ?_, ?_, fun i hi => h.next i (by omega)⟩
  · unfold allocate alloc
    rw [if_neg (by decide), h.head, if_pos hj]
    rfl
  · exact h.next j (Nat.le_refl _)

/-- `n` small blocks go into the cache. -/
theorem fill_small (n : Nat) (c : Client) (j : Nat) (h : Fresh c.mgr j) (hj : j + n ≤ MAX) (hn : c.num + n ≤ MAX) :
    ∃ c', run c (List.replicate n (.translate false 100 0)) = some c' ∧ Fresh c'.mgr (j + n) ∧ c'.num = c.num + n ∧ c'.temps = c.temps := by
  induction n generalizing c j with
  | zero => exact ⟨c, rfl, h, rfl, rfl⟩
  | succ n ih =>
    obtain ⟨m', e, h'⟩ := fresh_alloc h (by omega) 0
    obtain ⟨c', e', h1, h2, h3⟩ := ih { c with mgr := m', num := c.num + 1, cached := .pool j :: c.cached } (j + 1) h' (by omega)
      (by show c.num + 1 + n ≤ MAX; omega)
    refine ⟨c', ?_, by rw [show j + (n + 1) = j + 1 + n by omega]; exact h1, by rw [h2]; show c.num + 1 + n = _; omega, h3⟩
    show (step c (.translate false 100 0)).bind _ = _
    have : step c (.translate false 100 0) = some { c with mgr := m', num := c.num + 1, cached := .pool j :: c.cached } := by
      unfold step
      dsimp only
      rw [if_neg (by omega), e]
      rfl
    rw [this]
    exact e'

/-- `n` large blocks go into the cache. -/
theorem fill_big (n : Nat) (c : Client) (j : Nat) (h : Fresh c.mgr j) (hn : c.num + n ≤ MAX) :
    ∃ c', run c ((List.range' c.num n).map fun k => .translate false 5000 k) = some c' ∧ c'.num = c.num + n ∧ c'.temps = c.temps := by
  induction n generalizing c j with
  | zero => exact ⟨c, rfl, rfl, rfl⟩
  | succ n ih =>
    obtain ⟨c', e', h2, h3⟩ := ih { c with mgr := { c.mgr with big := c.num :: c.mgr.big }, num := c.num + 1, cached := .big c.num :: c.cached } j
      ⟨h.head, h.next⟩ (by show c.num + 1 + n ≤ MAX; omega)
    refine ⟨c', ?_, by rw [h2]; show c.num + 1 + n = _; omega, h3⟩
    rw [List.range'_succ]
    show (step c (.translate false 5000 c.num)).bind _ = _
    have : step c (.translate false 5000 c.num) =
        some { c with mgr := { c.mgr with big := c.num :: c.mgr.big }, num := c.num + 1, cached := .big c.num :: c.cached } := by
      unfold step
      dsimp only
      rw [if_neg (by omega)]
      rfl
    rw [this]
    exact e'

theorem run_append (c : Client) (a b : List Op) : run c (a ++ b) = (run c a).bind fun c => run c b := by
  induction a generalizing c with
  | nil => rfl
  | cons o a ih =>
    show (step c o).bind _ = ((step c o).bind _).bind _
    cases step c o with
    | none => rfl
    | some c' => exact ih c'

/-- An uncached block starts. -/
theorem first_temp (next : Nat → Option Nat) (hnext : ∀ i, MAX ≤ i → next i = none) :
    ∃ c, step (start next) (.translate true 100 0) = some c ∧ Fresh c.mgr 1 ∧ c.num = 0 ∧ c.temps = [.pool 0] := by
  obtain ⟨m', e, h'⟩ := fresh_alloc (fresh_init ⟨none, next, []⟩ hnext) (by decide) 0
  refine ⟨{ start next with mgr := m', temps := [.pool 0] }, ?_, h', rfl, rfl⟩
  unfold step start
  dsimp only
  rw [if_neg (by decide), e]
  rfl

/-- A history with a cached block, an uncached block that finishes and one that follows it meets the premises. -/
example : AllOk (start fun _ => none) [.translate false 100 0, .translate true 100 0, .finish, .translate true 5000 1] := by
  refine ⟨⟨by simp [live, start], .inl rfl⟩, fun c1 e1 => ?_⟩
  obtain ⟨m', e, h'⟩ := fresh_alloc (fresh_init ⟨none, fun _ => none, []⟩ fun _ _ => rfl) (by decide) 0
  have s1 : step (start fun _ => none) (.translate false 100 0) =
      some { start (fun _ => none) with mgr := m', num := 1, cached := [.pool 0] } := by
    unfold step start; dsimp only; rw [if_neg (by decide), e]; rfl
  rw [s1] at e1; cases e1
  refine ⟨⟨by simp [live, start], .inl rfl⟩, fun c2 e2 => ?_⟩
  obtain ⟨m2, e', h2⟩ := fresh_alloc h' (by decide) 0
  have s2 : step { start (fun _ => none) with mgr := m', num := 1, cached := [.pool 0] } (.translate true 100 0) =
      some { start (fun _ => none) with mgr := m2, num := 1, cached := [.pool 0], temps := [.pool 1] } := by
    unfold step start; dsimp only; rw [if_neg (by decide), e']; rfl
  rw [s2] at e2; cases e2
  refine ⟨trivial, fun c3 e3 => ?_⟩
  cases e3
  exact ⟨⟨by simp [live, start], .inl rfl⟩, fun _ _ => trivial⟩

/-- **C50** is violated by an abort: an uncached block that is left through an exception (cpu_exit, a pause, HLT
with CPU_ABORT_ON_HLT) is never released, and the cache limit no longer prevents the pool from running empty. -/
theorem C50_leak_violation (next : Nat → Option Nat) (hnext : ∀ i, MAX ≤ i → next i = none) :
    run (start next) ([.translate true 100 0, .abort] ++ List.replicate (MAX - 1) (.translate false 100 0) ++ [.translate false 100 0]) = none := by
  obtain ⟨c, e, h1, h2, h3⟩ := first_temp next hnext
  have hs : run (start next) [.translate true 100 0, .abort] = some { c with temps := [] } := by
    show (step _ _).bind _ = _
    rw [e]; rfl
  obtain ⟨n, hn⟩ : ∃ n, n = MAX - 1 := ⟨_, rfl⟩
  have hM : 0 < MAX := by decide
  rw [← hn]
  obtain ⟨c', e', g1, g2, g3⟩ := fill_small n { c with temps := [] } 1 h1 (by omega) (by show c.num + n ≤ MAX; omega)
  rw [run_append, run_append, hs, Option.bind_some, e', Option.bind_some]
  show (step c' _).bind _ = none
  have : step c' (.translate false 100 0) = none := by
    unfold step
    dsimp only
    rw [if_neg (by rw [g2]; show c.num + n ≠ MAX; omega)]
    unfold allocate alloc
    rw [if_neg (by decide), g1.head, if_neg (by omega)]
    rfl
  rw [this]
  rfl

/-- **C50** is violated by a nested loop: when the cache is purged while an uncached block is running (from a hook
that calls the original function), the memory of the running block is handed out again. -/
theorem C50_nested_violation (next : Nat → Option Nat) (hnext : ∀ i, MAX ≤ i → next i = none) : ∃ os c,
    run (start next) os = some c ∧ ¬ (live c).Nodup := by
  obtain ⟨c, e, h1, h2, h3⟩ := first_temp next hnext
  obtain ⟨n, hn⟩ : ∃ n, n = MAX := ⟨_, rfl⟩
  obtain ⟨c', e', g2, g3⟩ := fill_big n c 1 h1 (by omega)
  have key : ∃ c2, step c' (.translate false 100 n) = some c2 ∧ live c2 = [.pool 0, .pool 0] := by
    have hp : (purge c').mgr.head = some 0 := rfl
    unfold step
    dsimp only
    rw [if_pos (by rw [g2, h2]; omega)]
    unfold allocate alloc
    rw [if_neg (by decide), hp]
    refine ⟨_, rfl, ?_⟩
    show c'.temps ++ [Ptr.pool 0] = _
    rw [g3, h3]; rfl
  obtain ⟨c2, s2, hl⟩ := key
  refine ⟨[.translate true 100 0] ++ ((List.range' c.num n).map fun k => Op.translate false 5000 k) ++ [.translate false 100 n], c2, ?_, ?_⟩
  · rw [run_append, run_append]
    show (((step _ _).bind _).bind _).bind _ = _
    rw [e]
    show (((run c []).bind _)).bind _ = _
    show ((run c _)).bind _ = _
    rw [e', Option.bind_some]
    show (step c' _).bind _ = _
    rw [s2]; rfl
  · rw [hl]; decide

/-- The system memory that the allocator will give back is exactly the system memory in use. -/
def Reg (c : Client) : Prop := ∀ k, k ∈ c.mgr.big ↔ Ptr.big k ∈ live c

theorem reg_alloc {c c' : Client} (h : Reg c) (p : Ptr) (m : Mgr) (size k : Nat)
    (ha : allocate c.mgr size k = some (p, m)) (hm : c'.mgr = m) (hl : ∀ q, q ∈ live c' ↔ q = p ∨ q ∈ live c) : Reg c' := by
  intro j
  rw [hl, hm]
  unfold allocate at ha
  split at ha
  · cases ha
    rw [List.mem_cons, h j]; simp
  · unfold alloc at ha
    cases hh : c.mgr.head with
    | none => rw [hh] at ha; cases ha
    | some i =>
      rw [hh] at ha; cases ha
      rw [show ({ c.mgr with head := c.mgr.next i } : Mgr).big = c.mgr.big from rfl, h j]; simp

theorem reg_step {c c' : Client} {l : List Nat} (h : Inv c l) (hr : Reg c) (o : Op) (ho : Ok c o) (e : step c o = some c') : Reg c' := by
  have purged : c.temps = [] → Reg (purge c) := by
    intro ht k
    rw [show (purge c).mgr.big = [] from rfl, show live (purge c) = c.temps ++ [] from rfl, ht]; simp
  cases o with
  | translate temp size k =>
    obtain ⟨hk, ht⟩ := ho
    have key : Reg (if c.num = MAX then purge c else c) := by
      split
      · exact purged (ht.resolve_right (by omega))
      · exact hr
    revert e
    unfold step
    dsimp only
    generalize (if c.num = MAX then purge c else c) = c1 at key
    intro e
    split at e
    · cases e
    · rename_i p m ha
      split at e
      · cases e; exact reg_alloc key p m size k ha rfl (by intro q; simp [live])
      · cases e
        refine reg_alloc key p m size k ha rfl ?_
        intro q; simp only [live, List.mem_append, List.mem_cons]
        constructor
        · rintro (h | h | h) <;> simp [h]
        · rintro (h | h | h) <;> simp [h]
  | finish =>
    unfold step at e
    dsimp only at e
    split at e
    · cases e; exact hr
    · rename_i p r ht
      cases e
      have hl : live c = p :: (r ++ c.cached) := by unfold live; rw [ht]; rfl
      have hb := h.big
      intro j
      have hj := hr j
      rw [hl] at hj hb
      rw [show live { c with mgr := release c.mgr p, temps := r } = r ++ c.cached from rfl]
      cases p with
      | pool i =>
        rw [show (release c.mgr (.pool i)).big = c.mgr.big from rfl, hj]; simp
      | big k =>
        rw [bigOf_big] at hb
        have hk := (List.nodup_cons.1 hb).1
        rw [show (release c.mgr (.big k)).big = c.mgr.big.filter (· ≠ k) from rfl, List.mem_filter, hj]
        by_cases hjk : j = k
        · subst hjk
          have : Ptr.big j ∉ r ++ c.cached := fun hc => hk (by unfold bigOf; exact List.mem_filterMap.2 ⟨_, hc, rfl⟩)
          simp [this]
        · simp [hjk]
  | abort =>
    have ht : c.temps = [] := ho
    have : c' = c := by
      cases e
      cases c; cases ht; rfl
    rw [this]; exact hr
  | code p w =>
    cases p with
    | big k => cases e; exact hr
    | pool i => cases e; exact hr
  | purge => cases e; exact purged ho

/-- **C50** (partial): what the allocator obtained from the system and will give back to it is exactly what is in use outside the pool:
a released block is given back once and nothing in use is given back. -/
theorem C50_system_partial (next : Nat → Option Nat) (os : List Op) (hs : AllOk (start next) os) :
    ∃ c, run (start next) os = some c ∧ ∀ k, k ∈ c.mgr.big ↔ Ptr.big k ∈ live c := by
  have key : ∀ (os : List Op) (c : Client) (l : List Nat), Inv c l → Reg c → AllOk c os → ∃ c', run c os = some c' ∧ Reg c' := by
    intro os
    induction os with
    | nil => intro c l _ hr _; exact ⟨c, rfl, hr⟩
    | cons o os ih =>
      intro c l h hr hs
      obtain ⟨c1, l1, e, h1⟩ := inv_step h o hs.1
      obtain ⟨c2, e2, h2⟩ := ih c1 l1 h1 (reg_step h hr o hs.1 e) (hs.2 c1 e)
      refine ⟨c2, ?_, h2⟩
      show (step c o).bind _ = _
      rw [e]; exact e2
  exact key os _ _ (inv_start next) (fun k => by constructor <;> (intro h; cases h)) hs

/-- **C50**: code is put in a block of the pool exactly if it fits in its 4096 bytes; the pool has 32768 blocks. -/
theorem C50_fits (m m' : Mgr) (size k : Nat) (p : Ptr) (h : allocate m size k = some (p, m')) :
    ((∃ i, p = .pool i) ↔ size ≤ 4096) ∧ (size > 4096 → p = .big k) ∧ MAX = 32768 := by
  unfold allocate at h
  split at h
  · rename_i hs; cases h; exact ⟨by simp; omega, fun _ => rfl, rfl⟩
  · rename_i hs
    cases ha : alloc m with
    | none => rw [ha] at h; cases h
    | some r => rw [ha] at h; cases h; exact ⟨by simp; omega, fun h => absurd h hs, rfl⟩

example : ∃ p m', allocate (init ⟨none, fun _ => none, []⟩) 5000 3 = some (p, m') := ⟨_, _, rfl⟩

end Verif.Pool
