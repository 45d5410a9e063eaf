import Verif.Lemmas.Alias

namespace Verif.Region
open Verif.AS Verif.AS.Spec

/-- What all regions made by the api look like. -/
def AliasOk (r : Region) : Prop := (r.type = .alias ↔ r.aliased ≠ none) ∧ (r.aliased = none → r.aliasOff = 0)

theorem aliasOk_boundsFree : BoundsFree AliasOk := ⟨fun _ _ h => h, fun _ _ h => h⟩

theorem space_run_append (s : Space) (a b : List Op) : s.run (a ++ b) = (s.run a).bind (fun s => s.run b) := by
  induction a generalizing s with
  | nil => rfl
  | cons op a ih =>
    simp only [List.cons_append, Space.run]
    cases s.step op with
    | none => rfl
    | some s1 => simp only [Option.bind_some]; exact ih s1

theorem wrap_eq {s z : Nat} (hz : 0 < z) (h : s + z < 2 ^ 64) : sumLess1 s z = s + z - 1 := by
  have e : (s + z) % u64 = s + z := Nat.mod_eq_of_lt h
  unfold sumLess1
  rw [e, if_neg (by omega)]

theorem endOf_eq {m s z : Nat} (hz : 0 < z) (h : s + z < 2 ^ 64) : endOf m s z = min (s + z - 1) m := by
  unfold endOf; rw [wrap_eq hz h]

/-- Identity of the object an operation brings. -/
def opReq : Op → List Nat
  | .insert _ (.req k) => [k]
  | _ => []

/-- The operations the client api issues: the object is a new one and its region is well formed. -/
def OpOk : Op → Prop
  | .insert r o => AliasOk r ∧ ∃ k, o = .req k
  | .erase _ _ => True

theorem step_inv {s s' : Space} {U : Nat → Prop} {op : Op} (ho : OidInv s U) (hr : RegP AliasOk s) (hop : OpOk op)
    (hU : ∀ k ∈ opReq op, ¬ U k) (hs : s.step op = some s') :
    OidInv s' (fun j => U j ∨ j ∈ opReq op) ∧ RegP AliasOk s' := by
  cases op with
  | insert r o =>
    obtain ⟨h1, k, rfl⟩ := hop
    refine ⟨?_, hr.insert aliasOk_boundsFree h1 hs⟩
    have := ho.insert (hU k (by simp [opReq])) hs
    exact this.mono (fun j hj => hj.imp id (fun h => by simp [opReq, h]))
  | erase a b =>
    exact ⟨(ho.erase hs).mono (fun j hj => Or.inl hj), hr.erase aliasOk_boundsFree (by simp [AliasOk]) hs⟩

theorem run_inv {s s' : Space} {U : Nat → Prop} {ops : List Op} (ho : OidInv s U) (hr : RegP AliasOk s)
    (hop : ∀ op ∈ ops, OpOk op) (hU : ∀ k ∈ ops.flatMap opReq, ¬ U k) (hnd : (ops.flatMap opReq).Nodup)
    (hs : s.run ops = some s') :
    OidInv s' (fun j => U j ∨ j ∈ ops.flatMap opReq) ∧ RegP AliasOk s' := by
  induction ops generalizing s U with
  | nil => cases hs; exact ⟨ho.mono (fun _ h => Or.inl h), hr⟩
  | cons op ops ih =>
    simp only [Space.run, Option.bind_eq_some_iff] at hs
    obtain ⟨s1, h1, h2⟩ := hs
    simp only [List.flatMap_cons, List.mem_append] at hU
    rw [List.flatMap_cons, List.nodup_append] at hnd
    have i1 := step_inv ho hr (hop op (by simp)) (fun k hk => hU k (Or.inl hk)) h1
    have i2 := ih i1.1 i1.2 (fun o h => hop o (by simp [h]))
      (by
        intro k hk hor
        rcases hor with hor | hor
        · exact hU k (Or.inr hk) hor
        · exact hnd.2.2 k hor k hk rfl) hnd.2.1 h2
    refine ⟨i2.1.mono ?_, i2.2⟩
    intro j hj
    simp only [List.flatMap_cons, List.mem_append]
    rcases hj with (hj | hj) | hj
    · exact Or.inl hj
    · exact Or.inr (Or.inl hj)
    · exact Or.inr (Or.inr hj)

/-- Invariant of the memory map and of the queue of deferred changes. -/
structure Inv (c : Cpu) : Prop where
  regs : RegP AliasOk c.mem
  queue : ∀ op ∈ c.changed, OpOk op
  oids : ∃ U : Nat → Prop, OidInv c.mem U ∧ (∀ k, U k → k < c.nextReq) ∧ ∀ k ∈ c.changed.flatMap opReq, ¬ U k
  below : ∀ k ∈ c.changed.flatMap opReq, k < c.nextReq
  nodup : (c.changed.flatMap opReq).Nodup

theorem inv_init : Inv Cpu.init := by
  refine ⟨?_, by simp [Cpu.init], ⟨fun _ => False, ?_, by simp, by simp [Cpu.init]⟩, by simp [Cpu.init], by simp [Cpu.init]⟩
  · intro n hn
    simp only [Cpu.init, Space.create, List.mem_singleton] at hn
    subst hn
    simp [AliasOk]
  · constructor
    · intro x hx y hy _
      simp only [Cpu.init, Space.create, List.mem_singleton] at hx hy
      rw [hx, hy]
    · intro x hx k hk
      simp only [Cpu.init, Space.create, List.mem_singleton] at hx
      subst hx
      simp only [Oid.own.injEq] at hk
      simp [Cpu.init, Space.create, ← hk]
    · intro x hx k hk
      simp only [Cpu.init, Space.create, List.mem_singleton] at hx
      subst hx
      simp at hk

theorem inv_congr {c d : Cpu} (h : Inv c) (h1 : d.mem = c.mem) (h2 : d.changed = c.changed) (h3 : c.nextReq ≤ d.nextReq) : Inv d := by
  obtain ⟨U, hU, hl, hq⟩ := h.oids
  refine ⟨by rw [h1]; exact h.regs, by rw [h2]; exact h.queue, ⟨U, by rw [h1]; exact hU, fun k hk => ?_, by rw [h2]; exact hq⟩, ?_, by rw [h2]; exact h.nodup⟩
  · have := hl k hk; omega
  · rw [h2]; intro k hk; have := h.below k hk; omega

/-- Submitting an operation that brings the object `nextReq`. -/
theorem inv_submit {c c' : Cpu} {op : Op} {i : Bool} (h : Inv c) (hop : OpOk op) (hid : ∀ k ∈ opReq op, k = c.nextReq)
    (hs : Cpu.submit { c with nextReq := c.nextReq + 1 } op i = some c') : Inv c' := by
  obtain ⟨U, hU, hl, hq⟩ := h.oids
  have hnd : (opReq op).Nodup := by unfold opReq; split <;> simp
  unfold Cpu.submit at hs
  cases i with
  | true =>
    simp only [if_true, Option.some.injEq] at hs
    subst hs
    refine ⟨h.regs, ?_, ⟨U, hU, fun k hk => ?_, ?_⟩, ?_, ?_⟩
    · intro o ho
      simp only [List.mem_append, List.mem_singleton] at ho
      rcases ho with ho | rfl
      · exact h.queue o ho
      · exact hop
    · have := hl k hk; simp only; omega
    · intro k hk hUk
      simp only [List.flatMap_append, List.mem_append, List.flatMap_cons, List.flatMap_nil, List.append_nil] at hk
      rcases hk with hk | hk
      · exact hq k hk hUk
      · have := hl k hUk; have := hid k hk; omega
    · intro k hk
      simp only [List.flatMap_append, List.mem_append, List.flatMap_cons, List.flatMap_nil, List.append_nil] at hk ⊢
      rcases hk with hk | hk
      · have := h.below k hk; omega
      · have := hid k hk; omega
    · simp only [List.flatMap_append, List.flatMap_cons, List.flatMap_nil, List.append_nil]
      rw [List.nodup_append]
      refine ⟨h.nodup, hnd, ?_⟩
      intro a ha b hb hab
      have := h.below a ha; have := hid b hb; omega
  | false =>
    simp only [Bool.false_eq_true, if_false, Option.bind_eq_bind, Option.bind_eq_some_iff, Option.pure_def, Option.some.injEq] at hs
    obtain ⟨m, hm, rfl⟩ := hs
    have := step_inv hU h.regs hop (fun k hk hUk => by have := hl k hUk; have := hid k hk; omega) hm
    refine ⟨this.2, h.queue, ⟨_, this.1, ?_, ?_⟩, ?_, h.nodup⟩
    · rintro k (hk | hk)
      · have := hl k hk; simp only [Cpu.clearCaches]; omega
      · have := hid k hk; simp only [Cpu.clearCaches]; omega
    · rintro k hk (hUk | hk2)
      · exact hq k hk hUk
      · have := h.below k hk; have := hid k hk2; omega
    · intro k hk; have := h.below k hk; simp only [Cpu.clearCaches]; omega

theorem getIt_mem {m : List Node} {a : Nat} {n : Node} (h : getIt m a = some n) : n ∈ m := by
  have := List.mem_of_getLast? h
  exact (List.mem_filter.1 this).1

theorem inv_applyUpdate {s s' : Space} {U} {a : Nat} {ty h o} (ho : OidInv s U) (hr : RegP AliasOk s)
    (hs : applyUpdate s a ty h o = some s') : OidInv s' U ∧ RegP AliasOk s' := by
  unfold applyUpdate at hs
  simp only [Option.bind_eq_bind, Option.bind_eq_some_iff] at hs
  obtain ⟨n, -, hs⟩ := hs
  split at hs
  · simp only [Option.pure_def, Option.some.injEq] at hs
    subst hs
    exact ⟨ho.update _ _, hr.update _ _ (fun r h => h)⟩
  · simp only [Option.pure_def, Option.some.injEq] at hs
    subst hs; exact ⟨ho, hr⟩

theorem inv_applyUpdates {c c' : Cpu} {us : List Update} (h : Inv c) (hs : c.applyUpdates us = some c') : Inv c' := by
  induction us generalizing c with
  | nil => cases hs; exact h
  | cons u us ih =>
    simp only [Cpu.applyUpdates, Option.bind_eq_some_iff] at hs
    obtain ⟨c1, h1, h2⟩ := hs
    refine ih ?_ h2
    unfold Cpu.applyOne at h1
    split at h1
    · rw [Option.map_eq_some_iff] at h1
      obtain ⟨io, -, rfl⟩ := h1
      exact inv_congr h rfl rfl (Nat.le_refl _)
    · rw [Option.map_eq_some_iff] at h1
      obtain ⟨m, hm, rfl⟩ := h1
      obtain ⟨U, hU, hl, hq⟩ := h.oids
      have := inv_applyUpdate hU h.regs hm
      exact ⟨this.2, h.queue, ⟨U, this.1, hl, hq⟩, h.below, h.nodup⟩

theorem inv_runQueue {c : Cpu} {m : Space} (h : Inv c) (hm : c.mem.run c.changed = some m) :
    Inv { c with mem := m, changed := [] } := by
  obtain ⟨U, hU, hl, hq⟩ := h.oids
  have := run_inv hU h.regs h.queue hq h.nodup hm
  refine ⟨this.2, by simp, ⟨_, this.1, ?_, by simp⟩, by simp, by simp⟩
  rintro k (hk | hk)
  · exact hl k hk
  · exact h.below k hk

theorem inv_serviceMap {c c' : Cpu} (h : Inv c) (hs : c.serviceMap = some c') : Inv c' := by
  unfold Cpu.serviceMap at hs
  split at hs
  · simp only at hs
    split at hs
    · simp only [Option.bind_eq_bind, Option.bind_eq_some_iff, Option.pure_def, Option.some.injEq] at hs
      obtain ⟨m, hm, rfl⟩ := hs
      exact inv_congr (inv_runQueue h hm) rfl rfl (Nat.le_refl _)
    · cases hs; exact inv_congr h rfl rfl (Nat.le_refl _)
  · split at hs
    · simp only [Option.bind_eq_bind, Option.bind_eq_some_iff, Option.pure_def, Option.some.injEq] at hs
      obtain ⟨m, hm, rfl⟩ := hs
      exact inv_congr (inv_runQueue h hm) rfl rfl (Nat.le_refl _)
    · cases hs; exact h

theorem inv_step {c c' : Cpu} {r : Req} {st : Status} (h : Inv c) (hs : c.step r = some (c', st)) : Inv c' := by
  cases r with
  | ram s z i =>
    simp only [Cpu.step, Cpu.initRam] at hs
    split at hs
    · cases hs; exact h
    · simp only [Option.bind_eq_bind, Option.bind_eq_some_iff, Option.pure_def, Option.some.injEq, Prod.mk.injEq] at hs
      obtain ⟨c1, h1, rfl, -⟩ := hs
      refine inv_submit h ?_ ?_ h1
      · exact ⟨by simp [AliasOk], _, rfl⟩
      · simp [opReq]
  | rom s z b i =>
    simp only [Cpu.step, Cpu.initRom] at hs
    split at hs
    · cases hs; exact h
    · split at hs
      · cases hs; exact h
      · simp only [Option.bind_eq_bind, Option.bind_eq_some_iff, Option.pure_def, Option.some.injEq, Prod.mk.injEq] at hs
        obtain ⟨c1, h1, rfl, -⟩ := hs
        refine inv_submit h ?_ ?_ h1
        · exact ⟨by simp [AliasOk], _, rfl⟩
        · simp [opReq]
  | io s z sp hd o i u =>
    simp only [Cpu.step, Cpu.initIo] at hs
    split at hs
    · split at hs
      · cases hs; exact h
      · split at hs
        · cases hs; exact inv_congr h rfl rfl (Nat.le_refl _)
        · split at hs
          · cases hs; exact inv_congr h rfl rfl (Nat.le_refl _)
          · cases hs; exact h
    · split at hs
      · cases hs; exact h
      · split at hs
        · split at hs
          · cases hs; exact h
          · simp only [Option.bind_eq_bind, Option.bind_eq_some_iff, Option.pure_def, Option.some.injEq, Prod.mk.injEq] at hs
            obtain ⟨c1, h1, rfl, -⟩ := hs
            exact inv_congr h rfl rfl (Nat.le_succ _)
        · simp only [Option.bind_eq_bind, Option.bind_eq_some_iff, Option.pure_def, Option.some.injEq, Prod.mk.injEq] at hs
          obtain ⟨c1, h1, rfl, -⟩ := hs
          refine inv_submit h ?_ ?_ h1
          · exact ⟨by simp [AliasOk], _, rfl⟩
          · simp [opReq]
  | alias a s z i =>
    simp only [Cpu.step, Cpu.initAlias] at hs
    split at hs
    · cases hs; exact h
    · simp only [Option.bind_eq_bind, Option.bind_eq_some_iff] at hs
      obtain ⟨n, -, hs⟩ := hs
      split at hs
      · simp only [Option.bind_eq_some_iff, Option.pure_def, Option.some.injEq, Prod.mk.injEq] at hs
        obtain ⟨c1, h1, rfl, -⟩ := hs
        refine inv_submit h ?_ ?_ h1
        · exact ⟨by simp [AliasOk], _, rfl⟩
        · simp [opReq]
      · cases hs; exact h
  | destroy s z sp i =>
    simp only [Cpu.step, Cpu.destroy] at hs
    split at hs
    · simp only [Option.bind_eq_bind, Option.bind_eq_some_iff, Option.pure_def, Option.some.injEq, Prod.mk.injEq] at hs
      obtain ⟨c1, h1, rfl, -⟩ := hs
      exact inv_congr h rfl rfl (Nat.le_refl _)
    · simp only [Option.bind_eq_bind, Option.bind_eq_some_iff, Option.pure_def, Option.some.injEq, Prod.mk.injEq] at hs
      obtain ⟨c1, h1, rfl, -⟩ := hs
      obtain ⟨U, hU, hl, hq⟩ := h.oids
      unfold Cpu.submit at h1
      split at h1
      · cases h1
        refine ⟨h.regs, ?_, ⟨U, hU, hl, ?_⟩, ?_, ?_⟩
        · intro o ho
          simp only [List.mem_append, List.mem_singleton] at ho
          rcases ho with ho | rfl
          · exact h.queue o ho
          · trivial
        · simpa [opReq] using hq
        · simpa [opReq] using h.below
        · simpa [opReq] using h.nodup
      · simp only [Option.bind_eq_bind, Option.bind_eq_some_iff, Option.pure_def, Option.some.injEq] at h1
        obtain ⟨m, hm, rfl⟩ := h1
        have := step_inv hU h.regs (op := .erase _ _) trivial (by simp [opReq]) hm
        refine ⟨this.2, h.queue, ⟨_, this.1, ?_, ?_⟩, h.below, h.nodup⟩
        · rintro k (hk | hk)
          · exact hl k hk
          · simp [opReq] at hk
        · rintro k hk (hk2 | hk2)
          · exact hq k hk hk2
          · simp [opReq] at hk2
  | a20 cl i =>
    simp only [Cpu.step, Option.some.injEq, Prod.mk.injEq] at hs
    obtain ⟨rfl, -⟩ := hs
    unfold Cpu.setA20
    dsimp only
    split
    · split
      · exact inv_congr h rfl rfl (Nat.le_refl _)
      · exact inv_congr h rfl rfl (Nat.le_refl _)
    · exact inv_congr h rfl rfl (Nat.le_refl _)
  | service =>
    simp only [Cpu.step, Option.map_eq_some_iff, Prod.mk.injEq] at hs
    obtain ⟨c1, h1, rfl, -⟩ := hs
    unfold Cpu.service at h1
    rw [Option.bind_eq_some_iff] at h1
    obtain ⟨c2, h2, h3⟩ := h1
    refine inv_serviceMap ?_ h3
    unfold Cpu.serviceHandlers at h2
    split at h2
    · simp only [Option.bind_eq_bind, Option.bind_eq_some_iff, Option.pure_def, Option.some.injEq] at h2
      obtain ⟨c4, h4, rfl⟩ := h2
      exact inv_congr (inv_applyUpdates h h4) rfl rfl (Nat.le_refl _)
    · cases h2; exact h
  | exec =>
    simp only [Cpu.step, Option.some.injEq, Prod.mk.injEq] at hs
    obtain ⟨rfl, -⟩ := hs
    unfold Cpu.exec
    split
    · exact inv_congr h rfl rfl (Nat.le_refl _)
    · exact h

theorem inv_run {c c' : Cpu} {rs : List Req} (h : Inv c) (hs : c.run rs = some c') : Inv c' := by
  induction rs generalizing c with
  | nil => cases hs; exact h
  | cons r rs ih =>
    simp only [Cpu.run, Option.bind_eq_some_iff] at hs
    obtain ⟨⟨c1, st⟩, h1, h2⟩ := hs
    exact ih (inv_step h h1) h2

end Verif.Region
