import Verif.Spec.AddressSpace

namespace Verif.AS
open Spec

abbrev SortedN (m : List Node) : Prop := m.Pairwise (fun x y => x.key < y.key)

/-- The representation invariant, in membership form. -/
structure Tiled (s : Space) : Prop where
  sorted : SortedN s.nodes
  keyStart : ∀ n ∈ s.nodes, n.key = n.reg.start
  le : ∀ n ∈ s.nodes, n.reg.start ≤ n.reg.stop
  leMax : ∀ n ∈ s.nodes, n.reg.stop ≤ s.max
  zero : ∃ n ∈ s.nodes, n.key = 0
  succ : ∀ n ∈ s.nodes, n.reg.stop < s.max → ∃ n' ∈ s.nodes, n'.key = n.reg.stop + 1
  sep : ∀ n ∈ s.nodes, ∀ n' ∈ s.nodes, n.key < n'.key → n.reg.stop < n'.key

theorem SortedN.key_inj {m : List Node} (h : SortedN m) {x y : Node} (hx : x ∈ m) (hy : y ∈ m)
    (hk : x.key = y.key) : x = y := by
  induction m with
  | nil => cases hx
  | cons z zs ih =>
    rw [SortedN, List.pairwise_cons] at h
    rcases List.mem_cons.1 hx with rfl | hx' <;> rcases List.mem_cons.1 hy with rfl | hy'
    · rfl
    · have := h.1 _ hy'; omega
    · have := h.1 _ hx'; omega
    · exact ih h.2 hx' hy'

theorem SortedN.filter {m : List Node} (h : SortedN m) (p) : SortedN (m.filter p) :=
  List.Pairwise.filter p h

theorem getLast?_sorted {m : List Node} (h : SortedN m) (n : Node) :
    m.getLast? = some n ↔ n ∈ m ∧ ∀ x ∈ m, x.key ≤ n.key := by
  induction m with
  | nil => simp
  | cons z zs ih =>
    rw [SortedN, List.pairwise_cons] at h
    cases zs with
    | nil => 
      constructor
      · intro h; simp at h; subst h; simp
      · rintro ⟨h, _⟩; simp at h; simp [h]
    | cons y ys =>
      rw [List.getLast?_cons_cons, ih h.2]
      constructor
      · rintro ⟨h1, h2⟩
        refine ⟨List.mem_cons_of_mem _ h1, ?_⟩
        intro x hx
        rcases List.mem_cons.1 hx with rfl | hx
        · exact Nat.le_of_lt (h.1 _ h1)
        · exact h2 _ hx
      · rintro ⟨h1, h2⟩
        rcases List.mem_cons.1 h1 with rfl | h1
        · have := h.1 y (by simp)
          have := h2 y (by simp)
          omega
        · exact ⟨h1, fun x hx => h2 x (List.mem_cons_of_mem _ hx)⟩

theorem getIt_iff {m : List Node} (h : SortedN m) (a : Nat) (n : Node) :
    getIt m a = some n ↔ n ∈ m ∧ n.key ≤ a ∧ ∀ x ∈ m, x.key ≤ a → x.key ≤ n.key := by
  unfold getIt
  rw [getLast?_sorted (h.filter _)]
  simp only [List.mem_filter, decide_eq_true_eq]
  constructor
  · rintro ⟨⟨h1, h2⟩, h3⟩; exact ⟨h1, h2, fun x hx hxa => h3 x ⟨hx, hxa⟩⟩
  · rintro ⟨h1, h2, h3⟩; exact ⟨⟨h1, h2⟩, fun x hx => h3 x hx.1 hx.2⟩

theorem prevNode_iff {m : List Node} (h : SortedN m) (k : Nat) (n : Node) :
    prevNode m k = some n ↔ n ∈ m ∧ n.key < k ∧ ∀ x ∈ m, x.key < k → x.key ≤ n.key := by
  unfold prevNode
  rw [getLast?_sorted (h.filter _)]
  simp only [List.mem_filter, decide_eq_true_eq]
  constructor
  · rintro ⟨⟨h1, h2⟩, h3⟩; exact ⟨h1, h2, fun x hx hxa => h3 x ⟨hx, hxa⟩⟩
  · rintro ⟨h1, h2, h3⟩; exact ⟨⟨h1, h2⟩, fun x hx => h3 x hx.1 hx.2⟩

theorem prevNode_none {m : List Node} {k : Nat} (h : prevNode m k = none) : ∀ x ∈ m, k ≤ x.key := by
  unfold prevNode at h
  intro x hx
  rw [List.getLast?_eq_none_iff] at h
  have h' := h
  rw [List.filter_eq_nil_iff] at h'
  have := h' x hx
  simp at this; omega

theorem find?_sorted {m : List Node} (h : SortedN m) (p : Node → Bool) (n : Node) :
    m.find? p = some n ↔ n ∈ m ∧ p n = true ∧ ∀ x ∈ m, p x = true → n.key ≤ x.key := by
  induction m with
  | nil => simp
  | cons z zs ih =>
    rw [SortedN, List.pairwise_cons] at h
    rw [List.find?_cons]
    cases hz : p z with
    | true =>
      simp only [Option.some.injEq]
      constructor
      · rintro rfl
        refine ⟨by simp, hz, ?_⟩
        intro x hx _
        rcases List.mem_cons.1 hx with rfl | hx
        · omega
        · exact Nat.le_of_lt (h.1 _ hx)
      · rintro ⟨h1, h2, h3⟩
        rcases List.mem_cons.1 h1 with rfl | h1
        · rfl
        · have := h3 z (by simp) hz
          have := h.1 _ h1
          omega
    | false =>
      simp only
      rw [ih h.2]
      constructor
      · rintro ⟨h1, h2, h3⟩
        refine ⟨List.mem_cons_of_mem _ h1, h2, ?_⟩
        intro x hx hpx
        rcases List.mem_cons.1 hx with rfl | hx
        · simp [hz] at hpx
        · exact h3 _ hx hpx
      · rintro ⟨h1, h2, h3⟩
        rcases List.mem_cons.1 h1 with rfl | h1
        · simp [hz] at h2
        · exact ⟨h1, h2, fun x hx => h3 x (List.mem_cons_of_mem _ hx)⟩

theorem nextNode_iff {m : List Node} (h : SortedN m) (k : Nat) (n : Node) :
    nextNode m k = some n ↔ n ∈ m ∧ k < n.key ∧ ∀ x ∈ m, k < x.key → n.key ≤ x.key := by
  unfold nextNode; rw [find?_sorted h]; simp

theorem nextNode_none {m : List Node} {k : Nat} (h : nextNode m k = none) : ∀ x ∈ m, x.key ≤ k := by
  unfold nextNode at h
  intro x hx
  have := List.find?_eq_none.1 h x hx
  simp at this; omega

theorem findNode_iff {m : List Node} (h : SortedN m) (k : Nat) (n : Node) :
    findNode m k = some n ↔ n ∈ m ∧ n.key = k := by
  unfold findNode; rw [find?_sorted h]; simp only [beq_iff_eq]
  constructor
  · rintro ⟨h1, h2, _⟩; exact ⟨h1, h2⟩
  · rintro ⟨h1, h2⟩; exact ⟨h1, h2, fun x _ hx => by omega⟩

theorem advance_iff {m : List Node} (h : SortedN m) (k e : Nat) (n : Node) :
    advance m k e = some n ↔ n ∈ m ∧ k < n.key ∧ e ≤ n.reg.stop ∧
      ∀ x ∈ m, k < x.key → e ≤ x.reg.stop → n.key ≤ x.key := by
  unfold advance
  rw [find?_sorted (h.filter _)]
  simp only [List.mem_filter, decide_eq_true_eq]
  constructor
  · rintro ⟨⟨h1, h2⟩, h3, h4⟩; exact ⟨h1, h2, h3, fun x hx a b => h4 x ⟨hx, a⟩ b⟩
  · rintro ⟨h1, h2, h3, h4⟩; exact ⟨⟨h1, h2⟩, h3, fun x hx => h4 x hx.1 hx.2⟩

/-! ### membership and sortedness of the map operations -/

theorem mem_updateNode {m : List Node} {k : Nat} {f} {n : Node} :
    n ∈ updateNode m k f ↔ (n ∈ m ∧ n.key ≠ k) ∨ ∃ x ∈ m, x.key = k ∧ n = { x with reg := f x.reg } := by
  unfold updateNode
  rw [List.mem_map]
  constructor
  · rintro ⟨x, hx, rfl⟩
    split
    · next h => exact Or.inr ⟨x, hx, h, rfl⟩
    · next h => exact Or.inl ⟨hx, h⟩
  · rintro (⟨h, hk⟩ | ⟨x, hx, hk, rfl⟩)
    · exact ⟨n, h, by simp [hk]⟩
    · exact ⟨x, hx, by simp [hk]⟩

theorem sorted_updateNode {m : List Node} (h : SortedN m) (k f) : SortedN (updateNode m k f) := by
  unfold updateNode SortedN
  rw [List.pairwise_map]
  refine h.imp ?_
  intro a b hab
  split <;> split <;> exact hab

theorem mem_eraseRange {m : List Node} {a b : Nat} {n : Node} :
    n ∈ eraseRange m a b ↔ n ∈ m ∧ (n.key < a ∨ b < n.key) := by
  unfold eraseRange
  simp only [List.mem_filter, Bool.not_eq_true', Bool.and_eq_false_iff, decide_eq_false_iff_not]
  constructor
  · rintro ⟨h, h'⟩; exact ⟨h, by omega⟩
  · rintro ⟨h, h'⟩; exact ⟨h, by omega⟩

theorem sorted_eraseRange {m : List Node} (h : SortedN m) (a b) : SortedN (eraseRange m a b) := h.filter _

theorem emplaceNode_of_mem {m : List Node} {n x : Node} (hx : x ∈ m) (hk : x.key = n.key) :
    emplaceNode m n = m := by
  unfold emplaceNode
  rw [if_pos]
  simp only [List.any_eq_true, beq_iff_eq]
  exact ⟨x, hx, hk⟩

theorem mem_emplaceNode {m : List Node} {n : Node} (hfresh : ∀ x ∈ m, x.key ≠ n.key) {y : Node} :
    y ∈ emplaceNode m n ↔ y ∈ m ∨ y = n := by
  unfold emplaceNode
  rw [if_neg]
  · simp only [List.mem_append, List.mem_filter, decide_eq_true_eq, List.mem_cons]
    constructor
    · rintro (⟨h, _⟩ | h | ⟨h, _⟩)
      · exact Or.inl h
      · exact Or.inr h
      · exact Or.inl h
    · rintro (h | h)
      · have := hfresh y h
        rcases Nat.lt_or_gt_of_ne this with h' | h'
        · exact Or.inl ⟨h, h'⟩
        · exact Or.inr (Or.inr ⟨h, h'⟩)
      · exact Or.inr (Or.inl h)
  · simp only [List.any_eq_true, beq_iff_eq, not_exists, not_and]
    exact hfresh

theorem sorted_emplaceNode {m : List Node} (h : SortedN m) (n : Node) : SortedN (emplaceNode m n) := by
  unfold emplaceNode
  split
  · exact h
  · unfold SortedN
    rw [List.pairwise_append, List.pairwise_cons]
    refine ⟨h.filter _, ⟨?_, h.filter _⟩, ?_⟩
    · intro x hx
      simp only [List.mem_filter, decide_eq_true_eq] at hx
      exact hx.2
    · intro x hx y hy
      simp only [List.mem_filter, decide_eq_true_eq] at hx
      rcases List.mem_cons.1 hy with rfl | hy
      · exact hx.2
      · simp only [List.mem_filter, decide_eq_true_eq] at hy
        omega

/-! ### search in a tiled space -/

theorem Tiled.eq_of_contains {s : Space} (h : Tiled s) {x y : Node} (hx : x ∈ s.nodes) (hy : y ∈ s.nodes) {a : Nat}
    (hxa : Contains x.reg a) (hya : Contains y.reg a) : x = y := by
  apply h.sorted.key_inj hx hy
  have h1 := h.keyStart _ hx
  have h2 := h.keyStart _ hy
  unfold Contains at *
  rcases Nat.lt_trichotomy x.key y.key with h' | h' | h'
  · have := h.sep _ hx _ hy h'; omega
  · exact h'
  · have := h.sep _ hy _ hx h'; omega

theorem sorted_exists_max {m : List Node} (p : Node → Prop) [DecidablePred p] (h : ∃ n ∈ m, p n) :
    ∃ n ∈ m, p n ∧ ∀ x ∈ m, p x → x.key ≤ n.key := by
  induction m with
  | nil => obtain ⟨n, hn, _⟩ := h; cases hn
  | cons z zs ih =>
    by_cases hz : ∃ n ∈ zs, p n
    · obtain ⟨n, hn, hp, hmax⟩ := ih hz
      by_cases hpz : p z ∧ n.key < z.key
      · refine ⟨z, by simp, hpz.1, ?_⟩
        intro x hx hpx
        rcases List.mem_cons.1 hx with rfl | hx
        · omega
        · have := hmax x hx hpx; omega
      · refine ⟨n, by simp [hn], hp, ?_⟩
        intro x hx hpx
        rcases List.mem_cons.1 hx with rfl | hx
        · have : ¬ n.key < x.key := fun hh => hpz ⟨hpx, hh⟩
          omega
        · exact hmax x hx hpx
    · obtain ⟨n, hn, hp⟩ := h
      rcases List.mem_cons.1 hn with rfl | hn
      · refine ⟨n, by simp, hp, ?_⟩
        intro x hx hpx
        rcases List.mem_cons.1 hx with rfl | hx
        · omega
        · exact absurd ⟨x, hx, hpx⟩ hz
      · exact absurd ⟨n, hn, hp⟩ hz

theorem Tiled.exists_contains {s : Space} (h : Tiled s) {a : Nat} (ha : a ≤ s.max) :
    ∃ n ∈ s.nodes, Contains n.reg a := by
  obtain ⟨z, hz, hz0⟩ := h.zero
  obtain ⟨n, hn, hna, hmax⟩ := sorted_exists_max (fun n : Node => n.key ≤ a) ⟨z, hz, by omega⟩
  refine ⟨n, hn, ?_⟩
  have hk := h.keyStart _ hn
  refine ⟨by omega, ?_⟩
  by_cases hlt : n.reg.stop < a
  · obtain ⟨n', hn', hk'⟩ := h.succ _ hn (by omega)
    have := hmax n' hn' (by omega)
    have := h.le _ hn
    omega
  · omega

theorem Tiled.getIt_iff {s : Space} (h : Tiled s) {a : Nat} (ha : a ≤ s.max) (n : Node) :
    getIt s.nodes a = some n ↔ n ∈ s.nodes ∧ Contains n.reg a := by
  rw [AS.getIt_iff h.sorted]
  constructor
  · rintro ⟨h1, h2, h3⟩
    obtain ⟨x, hx, hxa⟩ := h.exists_contains ha
    have hk := h.keyStart _ hx
    have := h3 x hx (by have := hxa.1; omega)
    rcases Nat.lt_or_eq_of_le this with hlt | heq
    · have h4 := h.sep _ hx _ h1 hlt
      have := hxa.2
      omega
    · have := h.sorted.key_inj hx h1 heq
      subst this
      exact ⟨hx, hxa⟩
  · rintro ⟨h1, h2⟩
    have hk := h.keyStart _ h1
    refine ⟨h1, by have := h2.1; omega, ?_⟩
    intro x hx hxa
    by_cases hlt : n.key < x.key
    · have h4 := h.sep _ h1 _ hx hlt
      have := h2.2
      omega
    · omega

theorem Tiled.search_of_mem {s : Space} (h : Tiled s) {n : Node} (hn : n ∈ s.nodes) {a : Nat}
    (hc : Contains n.reg a) : s.search a = some n.reg := by
  have : a ≤ s.max := by have := h.leMax _ hn; have := hc.2; omega
  unfold Space.search
  rw [(h.getIt_iff this n).2 ⟨hn, hc⟩]; rfl

theorem Tiled.covers {s : Space} (h : Tiled s) : Covers s := by
  intro a ha
  obtain ⟨n, hn, hc⟩ := h.exists_contains ha
  exact ⟨n.reg, h.search_of_mem hn hc, hc⟩

theorem Tiled.serves_of_mem {s : Space} (h : Tiled s) {n : Node} (hn : n ∈ s.nodes) {a : Nat}
    (hc : Contains n.reg a) : serves s a = some (payload n.reg) := by
  unfold serves; rw [h.search_of_mem hn hc]; rfl

theorem tiled_create (max : Nat) : Tiled (Space.create max) := by
  constructor <;> simp [Space.create]

/-! ### split -/

/-- Splitting at the last byte of a region changes nothing but the identity counter (the emplace fails). -/
theorem split_noop {s : Space} (h : Tiled s) {it : Node} (hit : it ∈ s.nodes) :
    s.split it.key it.reg.stop = some { s with fresh := s.fresh + 1 } := by
  unfold Space.split
  rw [(findNode_iff h.sorted _ _).2 ⟨hit, rfl⟩]
  have hupd : updateNode s.nodes it.key (fun r => { r with stop := it.reg.stop }) = s.nodes := by
    unfold updateNode
    conv => rhs; rw [← List.map_id s.nodes]
    apply List.map_congr_left
    intro x hx
    split
    · next hk => have := h.sorted.key_inj hx hit hk; subst this; rfl
    · rfl
  simp only [Option.bind_eq_bind, Option.bind_some, hupd]
  have hex : ∃ x ∈ s.nodes, x.key = (it.reg.stop + 1) % (s.max + 1) := by
    by_cases hlt : it.reg.stop < s.max
    · obtain ⟨n', hn', hk'⟩ := h.succ _ hit hlt
      exact ⟨n', hn', by rw [Nat.mod_eq_of_lt (by omega)]; exact hk'⟩
    · have := h.leMax _ hit
      have : it.reg.stop = s.max := by omega
      obtain ⟨z, hz, hz0⟩ := h.zero
      exact ⟨z, hz, by rw [this, Nat.mod_self]; exact hz0⟩
  obtain ⟨x, hx, hk⟩ := hex
  rw [emplaceNode_of_mem hx (by simpa using hk)]
  rfl

/-- The effect of a proper split. -/
theorem split_proper {s : Space} (h : Tiled s) {it : Node} (hit : it ∈ s.nodes) {c : Nat}
    (h1 : it.reg.start ≤ c) (h2 : c < it.reg.stop) :
    ∃ s', s.split it.key c = some s' ∧ s'.max = s.max ∧ s'.fresh = s.fresh + 1 ∧ SortedN s'.nodes ∧
      ∀ n, n ∈ s'.nodes ↔ (n ∈ s.nodes ∧ n.key ≠ it.key) ∨ n = { it with reg := { it.reg with stop := c } } ∨
        n = { key := c + 1, oid := .own s.fresh, reg := { it.reg with start := c + 1 } } := by
  unfold Space.split
  rw [(findNode_iff h.sorted _ _).2 ⟨hit, rfl⟩]
  have hm : c + 1 < s.max + 1 := by have := h.leMax _ hit; omega
  have hk := h.keyStart _ hit
  simp only [Option.bind_eq_bind, Option.bind_some, Nat.mod_eq_of_lt hm]
  refine ⟨_, rfl, rfl, rfl, sorted_emplaceNode (sorted_updateNode h.sorted _ _) _, ?_⟩
  intro n
  simp only
  rw [mem_emplaceNode, mem_updateNode]
  · constructor
    · rintro ((h' | ⟨x, hx, hxk, rfl⟩) | h')
      · exact Or.inl h'
      · have := h.sorted.key_inj hx hit hxk; subst this; exact Or.inr (Or.inl rfl)
      · exact Or.inr (Or.inr h')
    · rintro (h' | h' | h')
      · exact Or.inl (Or.inl h')
      · exact Or.inl (Or.inr ⟨it, hit, rfl, h'⟩)
      · exact Or.inr h'
  · intro x hx
    rw [mem_updateNode] at hx
    have key : ∀ y ∈ s.nodes, y.key ≠ c + 1 := by
      intro y hy hyk
      rcases Nat.lt_or_ge it.key y.key with hlt | hge
      · have := h.sep _ hit _ hy hlt; omega
      · omega
    rcases hx with ⟨hx, _⟩ | ⟨y, hy, hyk, rfl⟩
    · exact key x hx
    · exact key y hy

theorem tiled_split {s s' : Space} (h : Tiled s) {it : Node} (hit : it ∈ s.nodes) {c : Nat} {o : Oid}
    (h1 : it.reg.start ≤ c) (h2 : c < it.reg.stop) (hmax : s'.max = s.max) (hs : SortedN s'.nodes)
    (hmem : ∀ n, n ∈ s'.nodes ↔ (n ∈ s.nodes ∧ n.key ≠ it.key) ∨ n = { it with reg := { it.reg with stop := c } } ∨
        n = { key := c + 1, oid := o, reg := { it.reg with start := c + 1 } }) :
    Tiled s' ∧ ∀ a, a ≤ s.max → serves s' a = serves s a := by
  have hk := h.keyStart _ hit
  have hm := h.leMax _ hit
  have T : Tiled s' := by
    constructor
    · exact hs
    · intro n hn
      rcases (hmem n).1 hn with ⟨h', _⟩ | rfl | rfl
      · exact h.keyStart _ h'
      · exact hk
      · rfl
    · intro n hn
      rcases (hmem n).1 hn with ⟨h', _⟩ | rfl | rfl
      · exact h.le _ h'
      · exact h1
      · exact h2
    · intro n hn
      rw [hmax]
      rcases (hmem n).1 hn with ⟨h', _⟩ | rfl | rfl
      · exact h.leMax _ h'
      · show c ≤ s.max; omega
      · exact hm
    · obtain ⟨z, hz, hz0⟩ := h.zero
      by_cases hzk : z.key = it.key
      · exact ⟨_, (hmem _).2 (Or.inr (Or.inl rfl)), by show it.key = 0; omega⟩
      · exact ⟨z, (hmem _).2 (Or.inl ⟨hz, hzk⟩), hz0⟩
    · intro n hn hlt
      rw [hmax] at hlt
      have lift : ∀ n0 ∈ s.nodes, n0.reg.stop < s.max → ∃ n' ∈ s'.nodes, n'.key = n0.reg.stop + 1 := by
        intro n0 hn0 hlt0
        obtain ⟨n', hn', hk'⟩ := h.succ _ hn0 hlt0
        by_cases hnk : n'.key = it.key
        · exact ⟨_, (hmem _).2 (Or.inr (Or.inl rfl)), by show it.key = _; omega⟩
        · exact ⟨n', (hmem _).2 (Or.inl ⟨hn', hnk⟩), hk'⟩
      rcases (hmem n).1 hn with ⟨h', _⟩ | rfl | rfl
      · exact lift n h' hlt
      · exact ⟨_, (hmem _).2 (Or.inr (Or.inr rfl)), rfl⟩
      · exact lift it hit hlt
    · intro n hn n' hn' hlt
      rcases (hmem n).1 hn with ⟨ha, hb⟩ | rfl | rfl <;> rcases (hmem n').1 hn' with ⟨ha', hb'⟩ | rfl | rfl
      · exact h.sep _ ha _ ha' hlt
      · have := h.sep _ ha _ hit hlt; exact this
      · simp only at hlt ⊢
        rcases Nat.lt_or_ge n.key it.key with hlt' | hge
        · have := h.sep _ ha _ hit hlt'; omega
        · have := h.sep _ hit _ ha (by omega)
          omega
      · have := h.sep _ hit _ ha' hlt; simp only; omega
      · simp only at hlt; omega
      · simp only at hlt ⊢; omega
      · simp only at hlt ⊢
        exact h.sep _ hit _ ha' (by omega)
      · simp only at hlt ⊢; omega
      · simp only at hlt; omega
  refine ⟨T, ?_⟩
  intro a ha
  obtain ⟨n, hn, hc⟩ := h.exists_contains ha
  rw [h.serves_of_mem hn hc]
  by_cases hnk : n.key = it.key
  · have := h.sorted.key_inj hn hit hnk; subst this
    unfold Contains at hc
    by_cases hac : a ≤ c
    · rw [T.serves_of_mem ((hmem _).2 (Or.inr (Or.inl rfl))) ⟨hc.1, hac⟩]; simp [payload]
    · rw [T.serves_of_mem ((hmem _).2 (Or.inr (Or.inr rfl))) ⟨by simp only; omega, hc.2⟩]; simp [payload]
  · rw [T.serves_of_mem ((hmem _).2 (Or.inl ⟨hn, hnk⟩)) hc]

/-! ### replacing a run of nodes -/

theorem tiled_replace {s s' : Space} (h : Tiled s) {lo hi : Nat} {new first last : Node} (hf : first ∈ s.nodes)
    (hl : last ∈ s.nodes) (hfk : first.key = lo) (hls : last.reg.stop = hi) (hle : lo ≤ hi)
    (hnew : new.key = lo ∧ new.reg.start = lo ∧ new.reg.stop = hi) (hmax : s'.max = s.max) (hs : SortedN s'.nodes)
    (hmem : ∀ n, n ∈ s'.nodes ↔ (n ∈ s.nodes ∧ (n.key < lo ∨ hi < n.key)) ∨ n = new) :
    Tiled s' ∧ ∀ a, a ≤ s.max → serves s' a = if lo ≤ a ∧ a ≤ hi then some (payload new.reg) else serves s a := by
  have hm := h.leMax _ hl
  obtain ⟨hnk, hns, hne⟩ := hnew
  have T : Tiled s' := by
    constructor
    · exact hs
    · intro n hn
      rcases (hmem n).1 hn with ⟨h', _⟩ | rfl
      · exact h.keyStart _ h'
      · omega
    · intro n hn
      rcases (hmem n).1 hn with ⟨h', _⟩ | rfl
      · exact h.le _ h'
      · omega
    · intro n hn
      rw [hmax]
      rcases (hmem n).1 hn with ⟨h', _⟩ | rfl
      · exact h.leMax _ h'
      · omega
    · obtain ⟨z, hz, hz0⟩ := h.zero
      by_cases hlo : lo = 0
      · exact ⟨new, (hmem _).2 (Or.inr rfl), by omega⟩
      · exact ⟨z, (hmem _).2 (Or.inl ⟨hz, by omega⟩), hz0⟩
    · intro n hn hlt
      rw [hmax] at hlt
      rcases (hmem n).1 hn with ⟨ha, hb⟩ | rfl
      · obtain ⟨n', hn', hk'⟩ := h.succ _ ha hlt
        have := h.keyStart _ ha
        have := h.le _ ha
        rcases hb with hb | hb
        · by_cases heq : n'.key < lo
          · exact ⟨n', (hmem _).2 (Or.inl ⟨hn', Or.inl heq⟩), hk'⟩
          · have := h.sep _ ha _ hf (by omega)
            exact ⟨new, (hmem _).2 (Or.inr rfl), by omega⟩
        · exact ⟨n', (hmem _).2 (Or.inl ⟨hn', Or.inr (by omega)⟩), hk'⟩
      · obtain ⟨n', hn', hk'⟩ := h.succ _ hl (by omega)
        exact ⟨n', (hmem _).2 (Or.inl ⟨hn', Or.inr (by omega)⟩), by omega⟩
    · intro n hn n' hn' hlt
      rcases (hmem n).1 hn with ⟨ha, hb⟩ | rfl <;> rcases (hmem n').1 hn' with ⟨ha', hb'⟩ | rfl
      · exact h.sep _ ha _ ha' hlt
      · have := h.sep _ ha _ hf (by omega); omega
      · omega
      · omega
  refine ⟨T, ?_⟩
  intro a ha
  split
  · next hin => exact T.serves_of_mem ((hmem _).2 (Or.inr rfl)) ⟨by omega, by omega⟩
  · next hout =>
    obtain ⟨n, hn, hc⟩ := h.exists_contains ha
    rw [h.serves_of_mem hn hc]
    refine T.serves_of_mem ((hmem _).2 (Or.inl ⟨hn, ?_⟩)) hc
    have hk := h.keyStart _ hn
    unfold Contains at hc
    by_cases hn1 : n.key < lo
    · exact Or.inl hn1
    · right
      by_cases hn2 : hi < n.key
      · exact hn2
      · exfalso
        have : n.key ≤ hi := by omega
        have hfin : n.reg.stop ≤ hi := by
          rcases Nat.lt_trichotomy n.key last.key with h' | h' | h'
          · have := h.sep _ hn _ hl h'
            have := h.le _ hl; have := h.keyStart _ hl; omega
          · have := h.sorted.key_inj hn hl h'; subst this; omega
          · have := h.sep _ hl _ hn h'; omega
        omega

/-! ### carve -/

theorem splitStart_spec {s : Space} (h : Tiled s) {it : Node} (hit : it ∈ s.nodes) {lo : Nat}
    (h1 : it.reg.start ≤ lo) (h2 : lo ≤ it.reg.stop) :
    ∃ s', s.splitStart it.key lo (decide (lo ≠ it.reg.start)) = some (s', lo) ∧ Tiled s' ∧ s'.max = s.max ∧
      (∀ a, a ≤ s.max → serves s' a = serves s a) ∧ (∃ n ∈ s'.nodes, n.key = lo ∧ n.reg.stop = it.reg.stop) ∧
      ∀ n ∈ s.nodes, n.key ≠ it.key → n ∈ s'.nodes := by
  have hk := h.keyStart _ hit
  by_cases hne : lo = it.reg.start
  · refine ⟨s, ?_, h, rfl, fun _ _ => rfl, ⟨it, hit, by omega, rfl⟩, fun n hn _ => hn⟩
    simp [Space.splitStart, hne, hk]
  · obtain ⟨s', hs', hmax, _, hsort, hmem⟩ := split_proper h hit (c := lo - 1) (by omega) (by omega)
    obtain ⟨T, hserv⟩ := tiled_split h hit (by omega) (by omega) hmax hsort hmem
    have hl : lo - 1 + 1 = lo := by omega
    have hnew := (hmem _).2 (Or.inr (Or.inr rfl))
    rw [hl] at hnew
    refine ⟨s', ?_, T, hmax, hserv, ⟨_, hnew, rfl, rfl⟩, fun n hn hne => (hmem n).2 (Or.inl ⟨hn, hne⟩)⟩
    have hnext : nextNode s'.nodes it.key = some { key := lo, oid := .own s.fresh, reg := { it.reg with start := lo } } := by
      rw [nextNode_iff hsort]
      refine ⟨hnew, by simp only; omega, ?_⟩
      intro x hx hlt
      rcases (hmem x).1 hx with ⟨ha, _⟩ | rfl | rfl
      · have := h.sep _ hit _ ha hlt; simp only; omega
      · simp only at hlt; omega
      · simp only; omega
    unfold Space.splitStart
    rw [if_pos (by simpa using hne), hs']
    simp only [Option.bind_eq_bind, Option.bind_some, hnext]
    rfl

/-- The condition under which the code handles the end of the range correctly. -/
def EndOk (s : Space) (lo hi : Nat) : Prop :=
  ∀ n ∈ s.nodes, n.reg.start = hi → n.reg.stop = n.reg.start ∨ n.reg.start ≤ lo

theorem carve_spec {s : Space} (h : Tiled s) {lo hi : Nat} (hle : lo ≤ hi) (hhi : hi ≤ s.max) (hok : EndOk s lo hi) :
    ∃ s' last fits, s.carve lo hi = some (s', lo, last, fits) ∧ Tiled s' ∧ s'.max = s.max ∧
      (∀ a, a ≤ s.max → serves s' a = serves s a) ∧ (∃ n ∈ s'.nodes, n.key = lo) ∧
      (∃ n ∈ s'.nodes, n.key = last ∧ n.reg.stop = hi) ∧ (fits = true → last = lo) ∧
      ∀ n ∈ s.nodes, n.reg.stop < lo ∨ hi < n.reg.start → n ∈ s'.nodes := by
  have hdis : ∀ n ∈ s.nodes, ∀ m ∈ s.nodes, n.reg.stop < lo ∨ hi < n.reg.start → m.reg.start ≤ hi → lo ≤ m.reg.stop → n.key ≠ m.key := by
    intro n hn m hm hout h1 h2 hk
    have := h.sorted.key_inj hn hm hk
    subst this; omega
  obtain ⟨it, hit, hc⟩ := h.exists_contains (a := lo) (by omega)
  have hg := (h.getIt_iff (a := lo) (by omega) it).2 ⟨hit, hc⟩
  have hk := h.keyStart _ hit
  unfold Contains at hc
  unfold Space.carve
  rw [hg]
  simp only [Option.bind_eq_bind, Option.bind_some]
  by_cases hfit : hi ≤ it.reg.stop
  · rw [if_pos hfit]
    by_cases heq : hi = it.reg.stop
    · obtain ⟨s', hs', T, hmax, hserv, hn, hkp⟩ := splitStart_spec h hit hc.1 hc.2
      refine ⟨s', lo, true, ?_, T, hmax, hserv, ⟨hn.choose, hn.choose_spec.1, hn.choose_spec.2.1⟩, ?_, fun _ => rfl,
        fun n hn hout => hkp n hn (hdis n hn it hit hout (by omega) hc.2)⟩
      · rw [Space.splitIf, if_neg (by simpa using heq)]
        show (s.splitStart it.key lo (decide (lo ≠ it.reg.start))).bind _ = _
        rw [hs']; rfl
      · obtain ⟨n, hn, hnk, hns⟩ := hn
        exact ⟨n, hn, hnk, by omega⟩
    · obtain ⟨s1, hs1, hmax1, _, hsort1, hmem1⟩ := split_proper h hit (c := hi) (by omega) (by omega)
      obtain ⟨T1, hserv1⟩ := tiled_split h hit (by omega) (by omega) hmax1 hsort1 hmem1
      have hit1 := (hmem1 _).2 (Or.inr (Or.inl rfl))
      obtain ⟨s', hs', T, hmax, hserv, hn, hkp⟩ := splitStart_spec (lo := lo) T1 hit1 hc.1 hle
      refine ⟨s', lo, true, ?_, T, hmax.trans hmax1, ?_, ⟨hn.choose, hn.choose_spec.1, hn.choose_spec.2.1⟩, ?_, fun _ => rfl,
        fun n hn hout => hkp n ((hmem1 n).2 (Or.inl ⟨hn, hdis n hn it hit hout (by omega) hc.2⟩))
          (hdis n hn it hit hout (by omega) hc.2)⟩
      · rw [Space.splitIf, if_pos (by simpa using heq), hs1]
        show (s1.splitStart it.key lo (decide (lo ≠ it.reg.start))).bind _ = _
        have hs2 : s1.splitStart it.key lo (decide (lo ≠ it.reg.start)) = some (s', lo) := hs'
        rw [hs2]; rfl
      · intro a ha; rw [hserv a (by omega), hserv1 a ha]
      · obtain ⟨n, hn, hnk, hns⟩ := hn
        exact ⟨n, hn, hnk, hns⟩
  · rw [if_neg hfit]
    obtain ⟨nx, hnx, hnc⟩ := h.exists_contains hhi
    unfold Contains at hnc
    have hnxk := h.keyStart _ hnx
    have hlt : it.key < nx.key := by
      rcases Nat.lt_trichotomy it.key nx.key with h' | h' | h'
      · exact h'
      · have := h.sorted.key_inj hit hnx h'; subst this; omega
      · have := h.sep _ hnx _ hit h'; omega
    have hsep := h.sep _ hit _ hnx hlt
    have hadv : advance s.nodes it.key hi = some nx := by
      rw [advance_iff h.sorted]
      refine ⟨hnx, hlt, hnc.2, ?_⟩
      intro x hx _ hxs
      rcases Nat.lt_or_ge x.key nx.key with h' | h'
      · have := h.sep _ hx _ hnx h'; omega
      · exact h'
    rw [hadv]
    simp only [Option.bind_some]
    -- state after the (possible) split of the last node
    have hmid : ∃ s1, s.splitIf (decide (nx.reg.start ≠ hi)) nx.key hi = some s1 ∧ Tiled s1 ∧ s1.max = s.max ∧
        (∀ a, a ≤ s.max → serves s1 a = serves s a) ∧ it ∈ s1.nodes ∧ (∃ l ∈ s1.nodes, l.key = nx.key ∧ l.reg.stop = hi) ∧
        ∀ n ∈ s.nodes, n.reg.stop < lo ∨ hi < n.reg.start → n ∈ s1.nodes := by
      by_cases hst : nx.reg.start = hi
      · refine ⟨s, by rw [Space.splitIf, if_neg (by simpa using hst)], h, rfl, fun _ _ => rfl, hit,
          ⟨nx, hnx, rfl, ?_⟩, fun n hn _ => hn⟩
        rcases hok nx hnx hst with h' | h' <;> omega
      · rw [Space.splitIf, if_pos (by simpa using hst)]
        by_cases hend : hi = nx.reg.stop
        · refine ⟨{ s with fresh := s.fresh + 1 }, by rw [hend]; exact split_noop h hnx, ?_, rfl, fun _ _ => rfl, hit,
            ⟨nx, hnx, rfl, hend.symm⟩, fun n hn _ => hn⟩
          exact ⟨h.sorted, h.keyStart, h.le, h.leMax, h.zero, h.succ, h.sep⟩
        · obtain ⟨s1, hs1, hmax1, _, hsort1, hmem1⟩ := split_proper h hnx (c := hi) (by omega) (by omega)
          obtain ⟨T1, hserv1⟩ := tiled_split h hnx (by omega) (by omega) hmax1 hsort1 hmem1
          exact ⟨s1, hs1, T1, hmax1, hserv1, (hmem1 _).2 (Or.inl ⟨hit, by omega⟩), ⟨_,
            (hmem1 _).2 (Or.inr (Or.inl rfl)), rfl, rfl⟩,
            fun n hn hout => (hmem1 n).2 (Or.inl ⟨hn, hdis n hn nx hnx hout (by omega) (by omega)⟩)⟩
    obtain ⟨s1, hs1, T1, hmax1, hserv1, hit1, ⟨l, hl, hlk, hls⟩, hkp1⟩ := hmid
    rw [hs1]
    obtain ⟨s', hs', T, hmax, hserv, hn, hkeep⟩ := splitStart_spec T1 hit1 hc.1 hc.2
    refine ⟨s', nx.key, false, ?_, T, hmax.trans hmax1, ?_, ⟨hn.choose, hn.choose_spec.1, hn.choose_spec.2.1⟩,
      ⟨l, hkeep l hl (by omega), hlk, hls⟩, by simp,
      fun n hn hout => hkeep n (hkp1 n hn hout) (hdis n hn it hit hout (by omega) hc.2)⟩
    · show (s1.splitStart it.key lo (decide (lo ≠ it.reg.start))).bind _ = _
      rw [hs']; rfl
    · intro a ha; rw [hserv a (by omega), hserv1 a ha]

theorem insert_spec {s : Space} (h : Tiled s) (r : Region) (rid : Oid) (hle : r.start ≤ r.stop) (hhi : r.stop ≤ s.max)
    (hok : EndOk s r.start r.stop) :
    ∃ s', s.insert r rid = some s' ∧ Tiled s' ∧ s'.max = s.max ∧
      (∀ a, a ≤ s.max → serves s' a = if r.start ≤ a ∧ a ≤ r.stop then some (payload r) else serves s a) ∧
      (∀ n ∈ s.nodes, n.reg.stop < r.start ∨ r.stop < n.reg.start → n ∈ s'.nodes) ∧
      (∃ o, { key := r.start, oid := o, reg := r } ∈ s'.nodes) := by
  obtain ⟨s1, last, fits, hc, T, hmax, hserv, ⟨f, hf, hfk⟩, ⟨l, hl, hlk, hls⟩, hfit, hkp⟩ := carve_spec h hle hhi hok
  have hkp2 : ∀ n ∈ s.nodes, n.reg.stop < r.start ∨ r.stop < n.reg.start → n ∈ s1.nodes ∧ (n.key < r.start ∨ r.stop < n.key) := by
    intro n hn hout
    refine ⟨hkp n hn hout, ?_⟩
    have := h.keyStart _ hn
    have := h.le _ hn
    omega
  unfold Space.insert
  rw [hc]
  simp only [Option.bind_eq_bind, Option.bind_some]
  have range : ∀ n ∈ s1.nodes, (n.key < r.start ∨ last < n.key) ↔ (n.key < r.start ∨ r.stop < n.key) := by
    intro n hn
    have hlkk := T.keyStart _ hl
    have := T.le _ hl
    constructor
    · rintro (h' | h')
      · exact Or.inl h'
      · have := T.sep _ hl _ hn (by omega); exact Or.inr (by omega)
    · rintro (h' | h')
      · exact Or.inl h'
      · exact Or.inr (by omega)
  cases fits with
  | true =>
    rw [if_pos rfl]
    have hlast := hfit rfl
    have hfl := T.sorted.key_inj hf hl (by omega)
    subst hfl
    have hmem : ∀ n, n ∈ (updateNode s1.nodes r.start (fun _ => r)) ↔
        (n ∈ s1.nodes ∧ (n.key < r.start ∨ r.stop < n.key)) ∨ n = { f with reg := r } := by
        intro n
        rw [mem_updateNode]
        constructor
        · rintro (⟨h1, h2⟩ | ⟨x, hx, hxk, rfl⟩)
          · exact Or.inl ⟨h1, (range n h1).1 (by omega)⟩
          · have := T.sorted.key_inj hx hf (by omega); subst this; exact Or.inr rfl
        · rintro (⟨h1, h2⟩ | rfl)
          · exact Or.inl ⟨h1, by omega⟩
          · exact Or.inr ⟨f, hf, hfk, rfl⟩
    obtain ⟨T2, hserv2⟩ := tiled_replace (s' := { s1 with nodes := updateNode s1.nodes r.start (fun _ => r) })
      (new := { f with reg := r }) T hf hf hfk hls hle ⟨hfk, rfl, rfl⟩ rfl (sorted_updateNode T.sorted r.start (fun _ => r)) hmem
    exact ⟨_, rfl, T2, hmax, fun a ha => by rw [hserv2 a (by omega), hserv a ha],
      fun n hn hout => (hmem n).2 (Or.inl (hkp2 n hn hout)), ⟨f.oid, (hmem _).2 (Or.inr (by simp [← hfk]))⟩⟩
  | false =>
    rw [if_neg (by simp)]
    have hmem : ∀ n, n ∈ emplaceNode (eraseRange s1.nodes r.start last) { key := r.start, oid := rid, reg := r } ↔
        (n ∈ s1.nodes ∧ (n.key < r.start ∨ r.stop < n.key)) ∨ n = { key := r.start, oid := rid, reg := r } := by
        intro n
        rw [mem_emplaceNode, mem_eraseRange]
        · constructor
          · rintro (⟨h1, h2⟩ | rfl)
            · exact Or.inl ⟨h1, (range n h1).1 h2⟩
            · exact Or.inr rfl
          · rintro (⟨h1, h2⟩ | rfl)
            · exact Or.inl ⟨h1, (range n h1).2 h2⟩
            · exact Or.inr rfl
        · intro x hx
          rw [mem_eraseRange] at hx
          have := (range x hx.1).1 hx.2
          simp only
          omega
    obtain ⟨T2, hserv2⟩ := tiled_replace
      (s' := { s1 with nodes := emplaceNode (eraseRange s1.nodes r.start last) { key := r.start, oid := rid, reg := r } })
      (new := { key := r.start, oid := rid, reg := r }) T hf hl hfk hls hle ⟨rfl, rfl, rfl⟩ rfl
      (sorted_emplaceNode (sorted_eraseRange T.sorted _ _) _) hmem
    exact ⟨_, rfl, T2, hmax, fun a ha => by rw [hserv2 a (by omega), hserv a ha],
      fun n hn hout => (hmem n).2 (Or.inl (hkp2 n hn hout)), ⟨rid, (hmem _).2 (Or.inr rfl)⟩⟩

/-! ### erase -/

theorem eraseCore_spec {s : Space} (h : Tiled s) (lo hi : Nat) (hle : lo ≤ hi) (hhi : hi ≤ s.max) (hok : EndOk s lo hi) :
    ∃ s' n, s.eraseCore lo hi = some s' ∧ Tiled s' ∧ s'.max = s.max ∧
      (∀ a, a ≤ s.max → serves s' a = if lo ≤ a ∧ a ≤ hi then some none else serves s a) ∧
      n ∈ s'.nodes ∧ n.key = lo ∧ n.reg.stop = hi ∧ n.reg.type = .unmapped := by
  obtain ⟨s1, last, fits, hc, T, hmax, hserv, ⟨f, hf, hfk⟩, ⟨l, hl, hlk, hls⟩, hfit⟩ := carve_spec h hle hhi hok
  unfold Space.eraseCore
  rw [hc]
  simp only [Option.bind_eq_bind, Option.bind_some]
  have range : ∀ n ∈ s1.nodes, (n.key < lo ∨ last < n.key) ↔ (n.key < lo ∨ hi < n.key) := by
    intro n hn
    have hlkk := T.keyStart _ hl
    have := T.le _ hl
    constructor
    · rintro (h' | h')
      · exact Or.inl h'
      · have := T.sep _ hl _ hn (by omega); exact Or.inr (by omega)
    · rintro (h' | h')
      · exact Or.inl h'
      · exact Or.inr (by omega)
  have hmem : ∀ n, n ∈ emplaceNode (eraseRange s1.nodes lo last)
      { key := lo, oid := .own s1.fresh, reg := { start := lo, stop := hi } } ↔
      (n ∈ s1.nodes ∧ (n.key < lo ∨ hi < n.key)) ∨ n = { key := lo, oid := .own s1.fresh, reg := { start := lo, stop := hi } } := by
    intro n
    rw [mem_emplaceNode, mem_eraseRange]
    · constructor
      · rintro (⟨h1, h2⟩ | rfl)
        · exact Or.inl ⟨h1, (range n h1).1 h2⟩
        · exact Or.inr rfl
      · rintro (⟨h1, h2⟩ | rfl)
        · exact Or.inl ⟨h1, (range n h1).2 h2⟩
        · exact Or.inr rfl
    · intro x hx
      rw [mem_eraseRange] at hx
      have := (range x hx.1).1 hx.2
      simp only
      omega
  obtain ⟨T2, hserv2⟩ := tiled_replace
      (s' := { s1 with nodes := emplaceNode (eraseRange s1.nodes lo last)
                        { key := lo, oid := .own s1.fresh, reg := { start := lo, stop := hi } }, fresh := s1.fresh + 1 })
      (new := { key := lo, oid := .own s1.fresh, reg := { start := lo, stop := hi } }) T hf hl hfk hls hle ⟨rfl, rfl, rfl⟩ rfl
      (sorted_emplaceNode (sorted_eraseRange T.sorted _ _) _) hmem
  refine ⟨_, _, rfl, T2, hmax, fun a ha => ?_, (hmem _).2 (Or.inr rfl), rfl, rfl, rfl⟩
  rw [hserv2 a (by omega), hserv a ha]
  simp [payload]

/-- Merging two adjacent unmapped nodes. -/
theorem tiled_merge {s : Space} (h : Tiled s) {p q : Node} (hp : p ∈ s.nodes) (hq : q ∈ s.nodes)
    (hadj : q.key = p.reg.stop + 1) (hpt : p.reg.type = .unmapped) (hqt : q.reg.type = .unmapped) :
    let s' : Space := { s with nodes := eraseRange (updateNode s.nodes p.key (fun r => { r with stop := q.reg.stop })) q.key q.key }
    Tiled s' ∧ s'.max = s.max ∧ (∀ a, a ≤ s.max → serves s' a = serves s a) ∧
      { p with reg := { p.reg with stop := q.reg.stop } } ∈ s'.nodes := by
  intro s'
  have hpk := h.keyStart _ hp
  have hqk := h.keyStart _ hq
  have hple := h.le _ hp
  have hqle := h.le _ hq
  have hmem : ∀ n, n ∈ s'.nodes ↔ (n ∈ s.nodes ∧ (n.key < p.key ∨ q.reg.stop < n.key)) ∨
      n = { p with reg := { p.reg with stop := q.reg.stop } } := by
    intro n
    show n ∈ eraseRange _ _ _ ↔ _
    rw [mem_eraseRange, mem_updateNode]
    constructor
    · rintro ⟨⟨h1, h2⟩ | ⟨x, hx, hxk, rfl⟩, h3⟩
      · left
        refine ⟨h1, ?_⟩
        rcases Nat.lt_or_gt_of_ne h2 with h4 | h4
        · exact Or.inl h4
        · right
          have := h.sep _ hp _ h1 h4
          exact h.sep _ hq _ h1 (by omega)
      · have := h.sorted.key_inj hx hp hxk; subst this; exact Or.inr rfl
    · rintro (⟨h1, h2⟩ | rfl)
      · exact ⟨Or.inl ⟨h1, by omega⟩, by omega⟩
      · exact ⟨Or.inr ⟨p, hp, rfl, rfl⟩, by simp only; omega⟩
  obtain ⟨T, hserv⟩ := tiled_replace (s' := s') (lo := p.key) (hi := q.reg.stop)
    (new := { p with reg := { p.reg with stop := q.reg.stop } }) h hp hq rfl rfl (by omega) ⟨rfl, hpk.symm, rfl⟩ rfl
    (sorted_eraseRange (sorted_updateNode h.sorted _ _) _ _) hmem
  refine ⟨T, rfl, fun a ha => ?_, (hmem _).2 (Or.inr rfl)⟩
  rw [hserv a ha]
  split
  · next hin =>
    by_cases hap : a ≤ p.reg.stop
    · rw [h.serves_of_mem hp ⟨by omega, hap⟩]; simp [payload, hpt]
    · rw [h.serves_of_mem hq ⟨by omega, hin.2⟩]; simp [payload, hpt, hqt]
  · rfl

theorem mergeNext_spec {s : Space} (h : Tiled s) {it : Node} (hit : it ∈ s.nodes) (ht : it.reg.type = .unmapped) :
    Tiled (s.mergeNext it.key) ∧ (s.mergeNext it.key).max = s.max ∧
      (∀ a, a ≤ s.max → serves (s.mergeNext it.key) a = serves s a) ∧
      ∃ n ∈ (s.mergeNext it.key).nodes, n.key = it.key ∧ n.reg.type = .unmapped := by
  unfold Space.mergeNext
  cases hn : nextNode s.nodes it.key with
  | none => exact ⟨h, rfl, fun _ _ => rfl, it, hit, rfl, ht⟩
  | some n =>
    simp only
    split
    · next hun =>
      rw [nextNode_iff h.sorted] at hn
      obtain ⟨hnm, hlt, hmin⟩ := hn
      have hsep := h.sep _ hit _ hnm hlt
      have := h.leMax _ hnm
      have := h.le _ hnm
      have := h.keyStart _ hnm
      obtain ⟨x, hx, hxk⟩ := h.succ _ hit (by omega)
      have h2 := h.le _ hit
      have h3 := h.keyStart _ hit
      have := hmin x hx (by omega)
      obtain ⟨T, hm, hs, hmem⟩ := tiled_merge h hit hnm (by omega) ht hun
      exact ⟨T, hm, hs, _, hmem, rfl, ht⟩
    · exact ⟨h, rfl, fun _ _ => rfl, it, hit, rfl, ht⟩

theorem mergePrev_spec {s : Space} (h : Tiled s) {it : Node} (hit : it ∈ s.nodes) (ht : it.reg.type = .unmapped) :
    Tiled (s.mergePrev it) ∧ (s.mergePrev it).max = s.max ∧
      (∀ a, a ≤ s.max → serves (s.mergePrev it) a = serves s a) := by
  unfold Space.mergePrev
  cases hn : prevNode s.nodes it.key with
  | none => exact ⟨h, rfl, fun _ _ => rfl⟩
  | some n =>
    simp only
    split
    · next hun =>
      rw [prevNode_iff h.sorted] at hn
      obtain ⟨hnm, hlt, hmax⟩ := hn
      have hsep := h.sep _ hnm _ hit hlt
      have := h.leMax _ hit
      have := h.le _ hit
      have := h.keyStart _ hit
      obtain ⟨x, hx, hxk⟩ := h.succ _ hnm (by omega)
      have h2 := h.le _ hnm
      have h3 := h.keyStart _ hnm
      have hx2 : ¬ x.key < it.key := fun hh => by have := hmax x hx hh; omega
      obtain ⟨T, hm, hs, hmem⟩ := tiled_merge h hnm hit (by omega) hun ht
      exact ⟨T, hm, hs⟩
    · exact ⟨h, rfl, fun _ _ => rfl⟩

theorem erase_spec {s : Space} (h : Tiled s) (lo hi : Nat) (hle : lo ≤ hi) (hhi : hi ≤ s.max) (hok : EndOk s lo hi) :
    ∃ s', s.erase lo hi = some s' ∧ Tiled s' ∧ s'.max = s.max ∧
      ∀ a, a ≤ s.max → serves s' a = if lo ≤ a ∧ a ≤ hi then some none else serves s a := by
  obtain ⟨s1, n, hs1, T1, hmax1, hserv1, hn, hnk, hns, hnt⟩ := eraseCore_spec h lo hi hle hhi hok
  unfold Space.erase
  rw [hs1]
  have hk := T1.keyStart _ hn
  have hg : getIt s1.nodes lo = some n := (T1.getIt_iff (by omega) n).2 ⟨hn, by unfold Contains; omega⟩
  obtain ⟨T2, hmax2, hserv2, n2, hn2, hn2k, hn2t⟩ := mergeNext_spec T1 hn hnt
  obtain ⟨T3, hmax3, hserv3⟩ := mergePrev_spec T2 hn2 hn2t
  refine ⟨(s1.mergeNext n.key).mergePrev n2, ?_, T3, by omega, ?_⟩
  · simp only [Option.bind_eq_bind, Option.bind_some, hg]
    rw [(findNode_iff T2.sorted _ _).2 ⟨hn2, hn2k⟩]
    rfl
  · intro a ha
    rw [hserv3 a (by omega), hserv2 a (by omega), hserv1 a ha]

/-! ### histories -/

theorem endOk_of_not_coincidence {s : Space} (h : Tiled s) (op : Op) (hc : ¬ Coincidence s op) :
    EndOk s (Op.lo op) (Op.hi op) := by
  intro n hn hs
  by_cases h1 : n.reg.stop = n.reg.start
  · exact Or.inl h1
  · by_cases h2 : n.reg.start ≤ Op.lo op
    · exact Or.inr h2
    · exfalso
      apply hc
      have := h.le _ hn
      exact ⟨n.reg, h.search_of_mem hn ⟨by omega, by omega⟩, hs, h1, by omega⟩

theorem step_spec {s : Space} (h : Tiled s) (op : Op) (hv : OpValid s.max op) (hc : ¬ Coincidence s op) :
    ∃ s', s.step op = some s' ∧ Tiled s' ∧ s'.max = s.max ∧
      ∀ a, a ≤ s.max → serves s' a = if Op.lo op ≤ a ∧ a ≤ Op.hi op
        then some (Op.puts op) else serves s a := by
  have hok := endOk_of_not_coincidence h op hc
  cases op with
  | insert r rid => obtain ⟨s', a1, a2, a3, a4, _⟩ := insert_spec h r rid hv.1 hv.2 hok; exact ⟨s', a1, a2, a3, a4⟩
  | erase b c => exact erase_spec h b c hv.1 hv.2 hok

end Verif.AS

namespace Verif.AS
open Spec

/-! ### aligned histories never meet the coincidence -/

def KeysP (P : Nat → Prop) (m : List Node) : Prop := ∀ n ∈ m, P n.key

theorem keysP_update {P m k f} (h : KeysP P m) : KeysP P (updateNode m k f) := by
  intro n hn
  rcases mem_updateNode.1 hn with ⟨h1, _⟩ | ⟨x, hx, _, rfl⟩
  · exact h _ h1
  · have := h _ hx; exact this

theorem keysP_erase {P m a b} (h : KeysP P m) : KeysP P (eraseRange m a b) :=
  fun _ hn => h _ (mem_eraseRange.1 hn).1

theorem keysP_emplace {P m} {x : Node} (h : KeysP P m) (hx : P x.key) : KeysP P (emplaceNode m x) := by
  by_cases hex : ∃ y ∈ m, y.key = x.key
  · obtain ⟨y, hy, hk⟩ := hex
    rw [emplaceNode_of_mem hy hk]; exact h
  · intro n hn
    rw [mem_emplaceNode (fun y hy hk => hex ⟨y, hy, hk⟩)] at hn
    rcases hn with h1 | rfl
    · exact h _ h1
    · exact hx

theorem keysP_split {P} {s s' : Space} {k c : Nat} (h : KeysP P s.nodes) (hc : P ((c + 1) % (s.max + 1)))
    (hs : s.split k c = some s') : KeysP P s'.nodes ∧ s'.max = s.max := by
  unfold Space.split at hs
  cases hf : findNode s.nodes k with
  | none => simp [hf] at hs
  | some it =>
    simp only [hf, Option.bind_eq_bind, Option.bind_some, Option.pure_def, Option.some.injEq] at hs
    subst hs
    exact ⟨keysP_emplace (keysP_update h) hc, rfl⟩

theorem keysP_splitIf {P} {s s' : Space} {b : Bool} {k c : Nat} (h : KeysP P s.nodes) (hc : P ((c + 1) % (s.max + 1)))
    (hs : s.splitIf b k c = some s') : KeysP P s'.nodes ∧ s'.max = s.max := by
  unfold Space.splitIf at hs
  split at hs
  · exact keysP_split h hc hs
  · simp only [Option.some.injEq] at hs; subst hs; exact ⟨h, rfl⟩

theorem keysP_splitStart {P} {s s' : Space} {b : Bool} {k k' c : Nat} (h : KeysP P s.nodes)
    (hc : b = true → P ((c - 1 + 1) % (s.max + 1)))
    (hs : s.splitStart k c b = some (s', k')) : KeysP P s'.nodes ∧ s'.max = s.max := by
  unfold Space.splitStart at hs
  split at hs
  · next hb =>
    cases h1 : s.split k (c - 1) with
    | none => simp [h1] at hs
    | some s1 =>
      have := keysP_split h (hc hb) h1
      cases h2 : nextNode s1.nodes k with
      | none => simp [h1, h2] at hs
      | some n =>
        simp only [h1, h2, Option.bind_eq_bind, Option.bind_some, Option.pure_def, Option.some.injEq, Prod.mk.injEq] at hs
        obtain ⟨rfl, _⟩ := hs
        exact this
  · simp only [Option.pure_def, Option.some.injEq, Prod.mk.injEq] at hs
    obtain ⟨rfl, _⟩ := hs
    exact ⟨h, rfl⟩

theorem keysP_carve {P} {s s' : Space} {lo hi k l : Nat} {f : Bool} (h : KeysP P s.nodes)
    (hks : ∀ n ∈ s.nodes, n.key = n.reg.start)
    (hlo : P lo) (hlom : lo ≤ s.max) (hhi : P ((hi + 1) % (s.max + 1))) (hs : s.carve lo hi = some (s', k, l, f)) :
    KeysP P s'.nodes ∧ s'.max = s.max := by
  unfold Space.carve at hs
  cases h1 : getIt s.nodes lo with
  | none => simp [h1] at hs
  | some it =>
    have hmemit : it ∈ s.nodes ∧ it.key ≤ lo := by
      unfold getIt at h1
      have := List.mem_of_getLast? h1
      simpa using this
    simp only [h1, Option.bind_eq_bind, Option.bind_some] at hs
    have hstart : decide (lo ≠ it.reg.start) = true → P ((lo - 1 + 1) % (s.max + 1)) := by
      intro hd
      have hne : lo ≠ it.reg.start := by simpa using hd
      have := hks _ hmemit.1
      rw [show lo - 1 + 1 = lo from by omega, Nat.mod_eq_of_lt (by omega)]
      exact hlo
    split at hs
    · cases h2 : s.splitIf (decide (hi ≠ it.reg.stop)) it.key hi with
      | none => simp only [h2, Option.bind_none] at hs; cases hs
      | some s1 =>
        have a1 := keysP_splitIf h hhi h2
        simp only [h2, Option.bind_some] at hs
        cases h3 : s1.splitStart it.key lo (decide (lo ≠ it.reg.start)) with
        | none => simp only [h3, Option.bind_none] at hs; cases hs
        | some q =>
          have a2 := keysP_splitStart (s' := q.1) (k' := q.2) a1.1 (by rw [a1.2]; exact hstart) h3
          simp only [h3, Option.bind_some, Option.pure_def, Option.some.injEq, Prod.mk.injEq] at hs
          obtain ⟨rfl, _⟩ := hs
          exact ⟨a2.1, a2.2.trans a1.2⟩
    · cases h0 : advance s.nodes it.key hi with
      | none => simp only [h0, Option.bind_none] at hs; cases hs
      | some nx =>
        simp only [h0, Option.bind_some] at hs
        cases h2 : s.splitIf (decide (nx.reg.start ≠ hi)) nx.key hi with
        | none => simp only [h2, Option.bind_none] at hs; cases hs
        | some s1 =>
          have a1 := keysP_splitIf h hhi h2
          simp only [h2, Option.bind_some] at hs
          cases h3 : s1.splitStart it.key lo (decide (lo ≠ it.reg.start)) with
          | none => simp only [h3, Option.bind_none] at hs; cases hs
          | some q =>
            have a2 := keysP_splitStart (s' := q.1) (k' := q.2) a1.1 (by rw [a1.2]; exact hstart) h3
            simp only [h3, Option.bind_some, Option.pure_def, Option.some.injEq, Prod.mk.injEq] at hs
            obtain ⟨rfl, _⟩ := hs
            exact ⟨a2.1, a2.2.trans a1.2⟩

theorem keysP_mergeNext {P} {s : Space} {k : Nat} (h : KeysP P s.nodes) : KeysP P (s.mergeNext k).nodes := by
  unfold Space.mergeNext
  cases nextNode s.nodes k with
  | none => exact h
  | some n =>
    simp only; split
    · exact keysP_erase (keysP_update h)
    · exact h

theorem keysP_mergePrev {P} {s : Space} {it : Node} (h : KeysP P s.nodes) : KeysP P (s.mergePrev it).nodes := by
  unfold Space.mergePrev
  cases prevNode s.nodes it.key with
  | none => exact h
  | some n =>
    simp only; split
    · exact keysP_erase (keysP_update h)
    · exact h

theorem keysP_step {P} {s s' : Space} {op : Op} (T : Tiled s) (hv : OpValid s.max op) (h : KeysP P s.nodes)
    (hlo : P (Op.lo op)) (hhi : P ((Op.hi op + 1) % (s.max + 1))) (hs : s.step op = some s') : KeysP P s'.nodes := by
  cases op with
  | insert r rid =>
    simp only [Space.step, Space.insert] at hs
    cases hc : s.carve r.start r.stop with
    | none => simp [hc] at hs
    | some q =>
      obtain ⟨s1, k, l, f⟩ := q
      have a := keysP_carve h T.keyStart hlo (Nat.le_trans hv.1 hv.2) hhi hc
      simp only [hc, Option.bind_eq_bind, Option.bind_some] at hs
      split at hs
      · simp only [Option.pure_def, Option.some.injEq] at hs; subst hs
        have := keysP_update (k := k) (f := fun _ => r) a.1
        exact this
      · simp only [Option.pure_def, Option.some.injEq] at hs; subst hs
        exact keysP_emplace (keysP_erase a.1) hlo
  | erase b c =>
    simp only [Space.step, Space.erase, Space.eraseCore] at hs
    cases hc : s.carve b c with
    | none => simp [hc] at hs
    | some q =>
      obtain ⟨s1, k, l, f⟩ := q
      have a := keysP_carve h T.keyStart hlo (Nat.le_trans hv.1 hv.2) hhi hc
      simp only [hc, Option.bind_eq_bind, Option.bind_some, Option.pure_def] at hs
      have a2 := keysP_emplace (x := { key := b, oid := .own s1.fresh, reg := { start := b, stop := c } }) (keysP_erase (a := k) (b := l) a.1) hlo
      obtain ⟨it, hit, hs⟩ := Option.bind_eq_some_iff.1 hs
      obtain ⟨it2, hit2, hs⟩ := Option.bind_eq_some_iff.1 hs
      simp only [Option.some.injEq] at hs
      subst hs
      exact keysP_mergePrev (keysP_mergeNext a2)

end Verif.AS
