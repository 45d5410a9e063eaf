import Verif.Spec.Alias
import Verif.Lemmas.AddressSpace

namespace Verif.AS
open Spec

theorem findOid_oid {m : List Node} {o : Oid} {q : Node} (h : findOid m o = some q) : q.oid = o ∧ q ∈ m := by
  unfold findOid at h
  exact ⟨by simpa using List.find?_some h, List.mem_of_find?_eq_some h⟩

theorem resolveLoop_forwards {m : List Node} {f : Nat} {r z : Region} {off off' : BitVec 32}
    (h : resolveLoop m f r off = .done (z, off')) (a : BitVec 32) :
    Forwards m r a z (a - BitVec.ofNat 32 r.start + BitVec.ofNat 32 z.start + (off' - off + BitVec.ofNat 32 r.aliasOff - BitVec.ofNat 32 z.aliasOff)) := by
  induction f generalizing r off a with
  | zero => simp [resolveLoop] at h
  | succ f ih =>
    unfold resolveLoop at h
    split at h
    · next hn =>
      simp only [LoopRes.done.injEq, Prod.mk.injEq] at h
      obtain ⟨rfl, rfl⟩ := h
      have := Forwards.here (m := m) (a := a) hn
      rw [show a - BitVec.ofNat 32 r.start + BitVec.ofNat 32 r.start + (off - off + BitVec.ofNat 32 r.aliasOff - BitVec.ofNat 32 r.aliasOff) = a by grind]
      exact this
    · next o ho =>
      split at h
      · simp at h
      · next q hq =>
        obtain ⟨rfl, hqm⟩ := findOid_oid hq
        have := ih h (BitVec.ofNat 32 q.reg.start + BitVec.ofNat 32 r.aliasOff + (a - BitVec.ofNat 32 r.start))
        refine Forwards.next ho hq ?_
        have e : a - BitVec.ofNat 32 r.start + BitVec.ofNat 32 z.start + (off' - off + BitVec.ofNat 32 r.aliasOff - BitVec.ofNat 32 z.aliasOff) = BitVec.ofNat 32 q.reg.start + BitVec.ofNat 32 r.aliasOff + (a - BitVec.ofNat 32 r.start) - BitVec.ofNat 32 q.reg.start + BitVec.ofNat 32 z.start + (off' - (off + BitVec.ofNat 32 q.reg.aliasOff) + BitVec.ofNat 32 q.reg.aliasOff - BitVec.ofNat 32 z.aliasOff) := by grind
        rw [e]; exact this

theorem correctLoop_eq_resolveLoop (m : List Node) (f : Nat) (r : Region) (off1 off2 : BitVec 32) :
    correctLoop m f r off2 = (resolveLoop m f r off1).map (fun p =>
      (p.1, off2 + (BitVec.ofNat 32 r.start - BitVec.ofNat 32 p.1.start - (p.2 - off1 + BitVec.ofNat 32 r.aliasOff - BitVec.ofNat 32 p.1.aliasOff)))) := by
  induction f generalizing r off1 off2 with
  | zero => rfl
  | succ f ih =>
    unfold correctLoop resolveLoop
    cases h : r.aliased with
    | none => simp only [LoopRes.map, LoopRes.done.injEq, Prod.mk.injEq, true_and]; grind
    | some o =>
      cases hq : findOid m o with
      | none => simp only [hq, LoopRes.map]
      | some q =>
        simp only [hq]
        rw [ih q.reg (off1 + BitVec.ofNat 32 q.reg.aliasOff)]
        cases resolveLoop m f q.reg (off1 + BitVec.ofNat 32 q.reg.aliasOff) with
        | done p => simp only [LoopRes.map, LoopRes.done.injEq, Prod.mk.injEq, true_and]; grind
        | ub => rfl
        | running => rfl

theorem forwards_resolveLoop {m : List Node} {r z : Region} {a b : BitVec 32} (h : Forwards m r a z b) :
    ∃ f0, ∀ f, f0 ≤ f → ∀ off, resolveLoop m f r off = .done (z,
      off + (b - BitVec.ofNat 32 z.start - (a - BitVec.ofNat 32 r.start)) - BitVec.ofNat 32 r.aliasOff + BitVec.ofNat 32 z.aliasOff) := by
  induction h with
  | @here r a hn =>
    refine ⟨1, fun f hf off => ?_⟩
    obtain ⟨f, rfl⟩ : ∃ g, f = g + 1 := ⟨f - 1, by omega⟩
    simp only [resolveLoop, hn, LoopRes.done.injEq, Prod.mk.injEq, true_and]; grind
  | @next r a q z b ho hq _ ih =>
    obtain ⟨f0, h0⟩ := ih
    refine ⟨f0 + 1, fun f hf off => ?_⟩
    obtain ⟨f, rfl⟩ : ∃ g, f = g + 1 := ⟨f - 1, by omega⟩
    simp only [resolveLoop, ho, hq]
    rw [h0 f (by omega)]
    simp only [LoopRes.done.injEq, Prod.mk.injEq, true_and]; grind

theorem forwards_det {m : List Node} {r z z' : Region} {a b b' : BitVec 32} (h : Forwards m r a z b)
    (h' : Forwards m r a z' b') : z = z' ∧ b = b' := by
  induction h with
  | here hn =>
    cases h' with
    | here _ => exact ⟨rfl, rfl⟩
    | next ho _ _ => rw [hn] at ho; cases ho
  | next ho hq _ ih =>
    cases h' with
    | here hn => rw [hn] at ho; cases ho
    | next ho2 hq2 hr2 =>
      rw [ho, Option.some.injEq] at ho2
      rw [← ho2, hq, Option.some.injEq] at hq2
      subst hq2
      exact ih hr2

theorem forwards_notAlias {m : List Node} {r z : Region} {a b : BitVec 32} (h : Forwards m r a z b) : z.aliased = none := by
  induction h with
  | here h => exact h
  | next _ _ _ ih => exact ih

/-! ### object identities and region predicates through the operations -/

theorem mem_emplaceNode_imp {m : List Node} {n y : Node} (h : y ∈ emplaceNode m n) : y ∈ m ∨ y = n := by
  unfold emplaceNode at h
  split at h
  · exact Or.inl h
  · simp only [List.mem_append, List.mem_filter, List.mem_cons] at h
    rcases h with h | h | h
    · exact Or.inl h.1
    · exact Or.inr h
    · exact Or.inl h.1

theorem mem_updateNode_imp {m : List Node} {k : Nat} {f : Region → Region} {y : Node} (h : y ∈ updateNode m k f) :
    ∃ x ∈ m, y = (if x.key = k then { x with reg := f x.reg } else x) := by
  unfold updateNode at h
  rw [List.mem_map] at h
  obtain ⟨x, hx, rfl⟩ := h
  exact ⟨x, hx, rfl⟩

/-- Identities are unique; `lim` tells which client requests may be in the map. -/
structure OidInv (s : Space) (lim : Nat → Prop) : Prop where
  inj : ∀ x ∈ s.nodes, ∀ y ∈ s.nodes, x.oid = y.oid → x = y
  own : ∀ x ∈ s.nodes, ∀ k, x.oid = .own k → k < s.fresh
  req : ∀ x ∈ s.nodes, ∀ k, x.oid = .req k → lim k

theorem OidInv.find {s : Space} {lim : Nat → Prop} (h : OidInv s lim) {n : Node} (hn : n ∈ s.nodes) :
    findOid s.nodes n.oid = some n := by
  cases hf : findOid s.nodes n.oid with
  | none =>
    unfold findOid at hf
    rw [List.find?_eq_none] at hf
    have := hf n hn
    simp at this
  | some q =>
    have := findOid_oid hf
    rw [h.inj q this.2 n hn this.1]

theorem OidInv.update {s : Space} {lim : Nat → Prop} (h : OidInv s lim) (k : Nat) (f : Region → Region) :
    OidInv { s with nodes := updateNode s.nodes k f } lim := by
  have ho : ∀ x : Node, (if x.key = k then { x with reg := f x.reg } else x : Node).oid = x.oid := by intro x; split <;> rfl
  constructor
  · intro x hx y hy hxy
    obtain ⟨x0, hx0, rfl⟩ := mem_updateNode_imp hx
    obtain ⟨y0, hy0, rfl⟩ := mem_updateNode_imp hy
    rw [ho, ho] at hxy
    rw [h.inj _ hx0 _ hy0 hxy]
  · intro x hx j hj
    obtain ⟨x0, hx0, rfl⟩ := mem_updateNode_imp hx
    rw [ho] at hj
    exact h.own _ hx0 _ hj
  · intro x hx j hj
    obtain ⟨x0, hx0, rfl⟩ := mem_updateNode_imp hx
    rw [ho] at hj
    exact h.req _ hx0 _ hj

theorem OidInv.sub {s : Space} {lim : Nat → Prop} (h : OidInv s lim) {m : List Node} (hm : ∀ x ∈ m, x ∈ s.nodes) :
    OidInv { s with nodes := m } lim :=
  ⟨fun x hx y hy => h.inj x (hm x hx) y (hm y hy), fun x hx => h.own x (hm x hx), fun x hx => h.req x (hm x hx)⟩

theorem OidInv.emplaceOwn {s : Space} {lim : Nat → Prop} (h : OidInv s lim) (k : Nat) (r : Region) :
    OidInv { s with nodes := emplaceNode s.nodes { key := k, oid := .own s.fresh, reg := r }, fresh := s.fresh + 1 } lim := by
  constructor
  · intro x hx y hy hxy
    rcases mem_emplaceNode_imp hx with hx | rfl <;> rcases mem_emplaceNode_imp hy with hy | rfl
    · exact h.inj _ hx _ hy hxy
    · have := h.own _ hx _ hxy; omega
    · have := h.own _ hy _ hxy.symm; omega
    · rfl
  · intro x hx j hj
    show j < s.fresh + 1
    rcases mem_emplaceNode_imp hx with hx | rfl
    · have := h.own _ hx _ hj; omega
    · cases hj; omega
  · intro x hx j hj
    rcases mem_emplaceNode_imp hx with hx | rfl
    · exact h.req _ hx _ hj
    · cases hj

theorem OidInv.emplaceReq {s : Space} {lim : Nat → Prop} (h : OidInv s lim) (k : Nat) (r : Region) {id : Nat} (hid : ¬ lim id) :
    OidInv { s with nodes := emplaceNode s.nodes { key := k, oid := .req id, reg := r } } (fun j => lim j ∨ j = id) := by
  constructor
  · intro x hx y hy hxy
    rcases mem_emplaceNode_imp hx with hx | rfl <;> rcases mem_emplaceNode_imp hy with hy | rfl
    · exact h.inj _ hx _ hy hxy
    · exact absurd (h.req _ hx _ hxy) hid
    · exact absurd (h.req _ hy _ hxy.symm) hid
    · rfl
  · intro x hx j hj
    rcases mem_emplaceNode_imp hx with hx | rfl
    · exact h.own _ hx _ hj
    · cases hj
  · intro x hx j hj
    rcases mem_emplaceNode_imp hx with hx | rfl
    · exact Or.inl (h.req _ hx _ hj)
    · cases hj; exact Or.inr rfl

theorem OidInv.mono {s : Space} {lim lim' : Nat → Prop} (h : OidInv s lim) (hl : ∀ k, lim k → lim' k) : OidInv s lim' :=
  ⟨h.inj, h.own, fun x hx k hk => hl k (h.req x hx k hk)⟩

theorem OidInv.split {s s' : Space} {lim : Nat → Prop} {k c : Nat} (h : OidInv s lim) (hs : s.split k c = some s') : OidInv s' lim := by
  unfold Space.split at hs
  cases hf : findNode s.nodes k with
  | none => simp [hf] at hs
  | some it =>
    simp only [hf, Option.bind_eq_bind, Option.bind_some, Option.pure_def, Option.some.injEq] at hs
    subst hs
    exact (h.update k (fun r => { r with stop := c })).emplaceOwn _ _

theorem OidInv.splitIf {s s' : Space} {lim : Nat → Prop} {k c : Nat} {b : Bool} (h : OidInv s lim) (hs : s.splitIf b k c = some s') :
    OidInv s' lim := by
  unfold Space.splitIf at hs
  split at hs
  · exact h.split hs
  · cases hs; exact h

theorem OidInv.splitStart {s s' : Space} {lim : Nat → Prop} {k c k' : Nat} {b : Bool} (h : OidInv s lim)
    (hs : s.splitStart k c b = some (s', k')) : OidInv s' lim := by
  unfold Space.splitStart at hs
  split at hs
  · cases h1 : s.split k (c - 1) with
    | none => simp [h1] at hs
    | some s1 =>
      cases h2 : nextNode s1.nodes k with
      | none => simp [h1, h2] at hs
      | some it =>
        simp only [h1, h2, Option.bind_eq_bind, Option.bind_some, Option.pure_def, Option.some.injEq, Prod.mk.injEq] at hs
        rw [← hs.1]; exact h.split h1
  · simp only [Option.pure_def, Option.some.injEq, Prod.mk.injEq] at hs
    rw [← hs.1]; exact h

theorem OidInv.carve {s s' : Space} {lim : Nat → Prop} {lo hi k l : Nat} {b : Bool} (h : OidInv s lim)
    (hs : s.carve lo hi = some (s', k, l, b)) : OidInv s' lim := by
  unfold Space.carve at hs
  simp only [Option.bind_eq_bind, Option.bind_eq_some_iff] at hs
  obtain ⟨it, -, hs⟩ := hs
  split at hs
  · simp only [Option.bind_eq_some_iff] at hs
    obtain ⟨s1, h1, ⟨s2, k2⟩, h2, h3⟩ := hs
    simp only [Option.pure_def, Option.some.injEq, Prod.mk.injEq] at h3
    rw [← h3.1]
    exact (h.splitIf h1).splitStart h2
  · simp only [Option.bind_eq_some_iff] at hs
    obtain ⟨nx, -, s1, h1, ⟨s2, k2⟩, h2, h3⟩ := hs
    simp only [Option.pure_def, Option.some.injEq, Prod.mk.injEq] at h3
    rw [← h3.1]
    exact (h.splitIf h1).splitStart h2

theorem OidInv.insert {s s' : Space} {lim : Nat → Prop} {r : Region} {id : Nat} (h : OidInv s lim) (hid : ¬ lim id)
    (hs : s.insert r (.req id) = some s') : OidInv s' (fun j => lim j ∨ j = id) := by
  unfold Space.insert at hs
  simp only [Option.bind_eq_bind, Option.bind_eq_some_iff] at hs
  obtain ⟨⟨s1, k, l, b⟩, h1, h2⟩ := hs
  have := h.carve h1
  simp only at h2
  split at h2
  · simp only [Option.pure_def, Option.some.injEq] at h2
    subst h2
    exact (this.update k (fun _ => r)).mono (fun _ h => Or.inl h)
  · simp only [Option.pure_def, Option.some.injEq] at h2
    subst h2
    exact OidInv.emplaceReq (s := { s1 with nodes := eraseRange s1.nodes k l })
      (this.sub (fun x hx => (mem_eraseRange.1 hx).1)) _ _ hid

theorem OidInv.erase {s s' : Space} {lim : Nat → Prop} {lo hi : Nat} (h : OidInv s lim)
    (hs : s.erase lo hi = some s') : OidInv s' lim := by
  unfold Space.erase at hs
  simp only [Option.bind_eq_bind, Option.bind_eq_some_iff] at hs
  obtain ⟨s1, h1, it, -, it2, -, h3⟩ := hs
  have hc : OidInv s1 lim := by
    unfold Space.eraseCore at h1
    simp only [Option.bind_eq_bind, Option.bind_eq_some_iff] at h1
    obtain ⟨⟨s2, k, l, b⟩, h2, h4⟩ := h1
    have := h.carve h2
    simp only [Option.pure_def, Option.some.injEq] at h4
    subst h4
    exact OidInv.emplaceOwn (s := { s2 with nodes := eraseRange s2.nodes k l })
      (this.sub (fun x hx => (mem_eraseRange.1 hx).1)) _ _
  have hn : OidInv (s1.mergeNext it.key) lim := by
    unfold Space.mergeNext
    split
    · split
      · next n _ _ =>
        exact (hc.update it.key (fun r => { r with stop := n.reg.stop })).sub (fun x hx => (mem_eraseRange.1 hx).1)
      · exact hc
    · exact hc
  simp only [Option.pure_def, Option.some.injEq] at h3
  subst h3
  unfold Space.mergePrev
  split
  · split
    · next p _ _ =>
      exact (hn.update p.key (fun r => { r with stop := it2.reg.stop })).sub (fun x hx => (mem_eraseRange.1 hx).1)
    · exact hn
  · exact hn

/-! ### a predicate on regions that does not depend on the bounds -/

structure BoundsFree (P : Region → Prop) : Prop where
  stop : ∀ r e, P r → P { r with stop := e }
  start : ∀ r e, P r → P { r with start := e }

def RegP (P : Region → Prop) (s : Space) : Prop := ∀ n ∈ s.nodes, P n.reg

theorem RegP.update {P} {s : Space} (h : RegP P s) (k : Nat) (f : Region → Region) (hf : ∀ r, P r → P (f r)) :
    RegP P { s with nodes := updateNode s.nodes k f } := by
  intro x hx
  obtain ⟨y, hy, rfl⟩ := mem_updateNode_imp hx
  split
  · exact hf _ (h _ hy)
  · exact h _ hy

theorem RegP.split {P} (B : BoundsFree P) {s s' : Space} {k c : Nat} (h : RegP P s) (hs : s.split k c = some s') : RegP P s' := by
  unfold Space.split at hs
  cases hf : findNode s.nodes k with
  | none => simp [hf] at hs
  | some it =>
    simp only [hf, Option.bind_eq_bind, Option.bind_some, Option.pure_def, Option.some.injEq] at hs
    subst hs
    intro x hx
    rcases mem_emplaceNode_imp hx with hx | rfl
    · exact h.update k _ (fun r hr => B.stop r c hr) x hx
    · exact B.start _ _ (h it (List.mem_of_find?_eq_some hf))

theorem RegP.splitIf {P} (B : BoundsFree P) {s s' : Space} {k c : Nat} {b : Bool} (h : RegP P s) (hs : s.splitIf b k c = some s') :
    RegP P s' := by
  unfold Space.splitIf at hs
  split at hs
  · exact h.split B hs
  · cases hs; exact h

theorem RegP.splitStart {P} (B : BoundsFree P) {s s' : Space} {k c k' : Nat} {b : Bool} (h : RegP P s)
    (hs : s.splitStart k c b = some (s', k')) : RegP P s' := by
  unfold Space.splitStart at hs
  split at hs
  · cases h1 : s.split k (c - 1) with
    | none => simp [h1] at hs
    | some s1 =>
      cases h2 : nextNode s1.nodes k with
      | none => simp [h1, h2] at hs
      | some it =>
        simp only [h1, h2, Option.bind_eq_bind, Option.bind_some, Option.pure_def, Option.some.injEq, Prod.mk.injEq] at hs
        rw [← hs.1]; exact h.split B h1
  · simp only [Option.pure_def, Option.some.injEq, Prod.mk.injEq] at hs
    rw [← hs.1]; exact h

theorem RegP.carve {P} (B : BoundsFree P) {s s' : Space} {lo hi k l : Nat} {b : Bool} (h : RegP P s)
    (hs : s.carve lo hi = some (s', k, l, b)) : RegP P s' := by
  unfold Space.carve at hs
  simp only [Option.bind_eq_bind, Option.bind_eq_some_iff] at hs
  obtain ⟨it, -, hs⟩ := hs
  split at hs
  · simp only [Option.bind_eq_some_iff] at hs
    obtain ⟨s1, h1, ⟨s2, k2⟩, h2, h3⟩ := hs
    simp only [Option.pure_def, Option.some.injEq, Prod.mk.injEq] at h3
    rw [← h3.1]
    exact (h.splitIf B h1).splitStart B h2
  · simp only [Option.bind_eq_some_iff] at hs
    obtain ⟨nx, -, s1, h1, ⟨s2, k2⟩, h2, h3⟩ := hs
    simp only [Option.pure_def, Option.some.injEq, Prod.mk.injEq] at h3
    rw [← h3.1]
    exact (h.splitIf B h1).splitStart B h2

theorem RegP.insert {P} (B : BoundsFree P) {s s' : Space} {r : Region} {o : Oid} (h : RegP P s) (hr : P r)
    (hs : s.insert r o = some s') : RegP P s' := by
  unfold Space.insert at hs
  simp only [Option.bind_eq_bind, Option.bind_eq_some_iff] at hs
  obtain ⟨⟨s1, k, l, b⟩, h1, h2⟩ := hs
  have := h.carve B h1
  simp only at h2
  split at h2
  · simp only [Option.pure_def, Option.some.injEq] at h2
    subst h2
    exact this.update k _ (fun _ _ => hr)
  · simp only [Option.pure_def, Option.some.injEq] at h2
    subst h2
    intro x hx
    rcases mem_emplaceNode_imp hx with hx | rfl
    · exact this x (mem_eraseRange.1 hx).1
    · exact hr

theorem RegP.erase {P} (B : BoundsFree P) {s s' : Space} {lo hi : Nat} (h : RegP P s) (hd : P { start := 0, stop := 0 })
    (hs : s.erase lo hi = some s') : RegP P s' := by
  unfold Space.erase at hs
  simp only [Option.bind_eq_bind, Option.bind_eq_some_iff] at hs
  obtain ⟨s1, h1, it, -, it2, -, h3⟩ := hs
  have hc : RegP P s1 := by
    unfold Space.eraseCore at h1
    simp only [Option.bind_eq_bind, Option.bind_eq_some_iff] at h1
    obtain ⟨⟨s2, k, l, b⟩, h2, h4⟩ := h1
    have := h.carve B h2
    simp only [Option.pure_def, Option.some.injEq] at h4
    subst h4
    intro x hx
    rcases mem_emplaceNode_imp hx with hx | rfl
    · exact this x (mem_eraseRange.1 hx).1
    · exact B.stop _ hi (B.start _ lo hd)
  have hn : RegP P (s1.mergeNext it.key) := by
    unfold Space.mergeNext
    split
    · split
      · intro x hx
        exact hc.update it.key _ (fun r hr => B.stop r _ hr) x (mem_eraseRange.1 hx).1
      · exact hc
    · exact hc
  simp only [Option.pure_def, Option.some.injEq] at h3
  subst h3
  unfold Space.mergePrev
  split
  · split
    · intro x hx
      exact hn.update _ _ (fun r hr => B.stop r _ hr) x (mem_eraseRange.1 hx).1
    · exact hn
  · exact hn

end Verif.AS
