/-
C10 (a20 gate) and C56 (nothing cached outlives a map or a20 change).
-/
import Verif.Lemmas.RegionApi
import Verif.Spec.Deferred

namespace Verif.Region
open Verif.AS Verif.AS.Spec Verif.Region.Spec

/-- The mask that will be in force once nothing is pending. -/
def wanted (c : Cpu) : BitVec 32 := if c.pA20 then c.newA20 else c.a20

/-- Effect of one request on the wanted mask. -/
def wantStep (m : BitVec 32) : Req → BitVec 32
  | .a20 true _ => 0xFFFFFFFF
  | .a20 false _ => 0xFFEFFFFF
  | _ => m

/-- The fields of the a20 gate. -/
def gate (c : Cpu) : Bool × BitVec 32 × BitVec 32 := (c.pA20, c.a20, c.newA20)

theorem gate_submit {d d' : Cpu} {op i} (hs : d.submit op i = some d') : gate d' = gate d := by
  unfold Cpu.submit at hs
  split at hs
  · cases hs; rfl
  · simp only [Option.bind_eq_bind, Option.bind_eq_some_iff, Option.pure_def, Option.some.injEq] at hs
    obtain ⟨m, -, rfl⟩ := hs
    rfl

theorem gate_updates {us : List Update} : ∀ {c c' : Cpu}, c.applyUpdates us = some c' → gate c' = gate c := by
  induction us with
  | nil => intro c c' hs; cases hs; rfl
  | cons u us ih =>
    intro c c' hs
    simp only [Cpu.applyUpdates, Option.bind_eq_some_iff] at hs
    obtain ⟨c1, h1, h2⟩ := hs
    rw [ih h2]
    unfold Cpu.applyOne at h1
    split at h1 <;> (rw [Option.map_eq_some_iff] at h1; obtain ⟨s', -, rfl⟩ := h1; rfl)

theorem gate_service {c c' : Cpu} (hs : c.service = some c') : gate c' = (false, wanted c, c.newA20) := by
  unfold Cpu.service at hs
  rw [Option.bind_eq_some_iff] at hs
  obtain ⟨c2, h2, h3⟩ := hs
  have i2 : gate c2 = gate c := by
    unfold Cpu.serviceHandlers at h2
    split at h2
    · simp only [Option.bind_eq_bind, Option.bind_eq_some_iff, Option.pure_def, Option.some.injEq] at h2
      obtain ⟨c4, h4, rfl⟩ := h2
      have := gate_updates h4; exact this
    · cases h2; rfl
  simp only [gate, Prod.mk.injEq] at i2
  obtain ⟨e1, e2, e3⟩ := i2
  unfold Cpu.serviceMap at h3
  unfold wanted
  rw [← e1, ← e2, ← e3]
  split at h3
  · next hp =>
    rw [if_pos hp]
    simp only at h3
    split at h3
    · simp only [Option.bind_eq_bind, Option.bind_eq_some_iff, Option.pure_def, Option.some.injEq] at h3
      obtain ⟨m, -, rfl⟩ := h3
      rfl
    · cases h3; rfl
  · next hp =>
    rw [if_neg hp]
    split at h3
    · simp only [Option.bind_eq_bind, Option.bind_eq_some_iff, Option.pure_def, Option.some.injEq] at h3
      obtain ⟨m, -, rfl⟩ := h3
      simp [gate, Cpu.clearCaches, hp]
    · cases h3; simp [gate, hp]

/-- Requests other than a20 requests and services do not touch the gate. -/
theorem gate_other {c c' : Cpu} {r : Req} {st : Status} (hs : c.step r = some (c', st)) (h1 : ∀ cl i, r ≠ .a20 cl i) (h2 : r ≠ .service) :
    gate c' = gate c := by
  cases r with
  | ram s z i =>
    simp only [Cpu.step, Cpu.initRam] at hs
    split at hs
    · cases hs; rfl
    · simp only [Option.bind_eq_bind, Option.bind_eq_some_iff, Option.pure_def, Option.some.injEq, Prod.mk.injEq] at hs
      obtain ⟨c1, h1, rfl, -⟩ := hs
      have := gate_submit h1; exact this
  | rom s z b i =>
    simp only [Cpu.step, Cpu.initRom] at hs
    split at hs
    · cases hs; rfl
    · split at hs
      · cases hs; rfl
      · simp only [Option.bind_eq_bind, Option.bind_eq_some_iff, Option.pure_def, Option.some.injEq, Prod.mk.injEq] at hs
        obtain ⟨c1, h1, rfl, -⟩ := hs
        have := gate_submit h1; exact this
  | io s z sp hd o i u =>
    simp only [Cpu.step, Cpu.initIo] at hs
    split at hs
    · split at hs
      · cases hs; rfl
      · split at hs
        · cases hs; rfl
        · split at hs <;> (cases hs; rfl)
    · split at hs
      · cases hs; rfl
      · split at hs
        · split at hs
          · cases hs; rfl
          · simp only [Option.bind_eq_bind, Option.bind_eq_some_iff, Option.pure_def, Option.some.injEq, Prod.mk.injEq] at hs
            obtain ⟨io', h1, rfl, -⟩ := hs
            rfl
        · simp only [Option.bind_eq_bind, Option.bind_eq_some_iff, Option.pure_def, Option.some.injEq, Prod.mk.injEq] at hs
          obtain ⟨c1, h1, rfl, -⟩ := hs
          have := gate_submit h1; exact this
  | alias a s z i =>
    simp only [Cpu.step, Cpu.initAlias] at hs
    split at hs
    · cases hs; rfl
    · simp only [Option.bind_eq_bind, Option.bind_eq_some_iff] at hs
      obtain ⟨n, -, hs⟩ := hs
      split at hs
      · simp only [Option.bind_eq_some_iff, Option.pure_def, Option.some.injEq, Prod.mk.injEq] at hs
        obtain ⟨c1, h1, rfl, -⟩ := hs
        have := gate_submit h1; exact this
      · cases hs; rfl
  | destroy s z sp i =>
    simp only [Cpu.step, Cpu.destroy] at hs
    split at hs
    · simp only [Option.bind_eq_bind, Option.bind_eq_some_iff, Option.pure_def, Option.some.injEq, Prod.mk.injEq] at hs
      obtain ⟨c1, h1, rfl, -⟩ := hs
      rfl
    · simp only [Option.bind_eq_bind, Option.bind_eq_some_iff, Option.pure_def, Option.some.injEq, Prod.mk.injEq] at hs
      obtain ⟨c1, h1, rfl, -⟩ := hs
      have := gate_submit h1; exact this
  | a20 cl i => exact absurd rfl (h1 cl i)
  | service => exact absurd rfl h2
  | exec =>
    simp only [Cpu.step, Option.some.injEq, Prod.mk.injEq] at hs
    obtain ⟨rfl, -⟩ := hs
    unfold Cpu.exec
    split <;> rfl

theorem wanted_of_gate {c d : Cpu} (h : gate c = gate d) : wanted c = wanted d := by
  simp only [gate, Prod.mk.injEq] at h
  unfold wanted
  rw [h.1, h.2.1, h.2.2]

theorem wanted_step {c c' : Cpu} {r : Req} {st : Status} (hs : c.step r = some (c', st)) : wanted c' = wantStep (wanted c) r := by
  cases r with
  | a20 cl i =>
    simp only [Cpu.step, Option.some.injEq, Prod.mk.injEq] at hs
    obtain ⟨rfl, -⟩ := hs
    have hm : wantStep (wanted c) (.a20 cl i) = a20Mask cl := by cases cl <;> rfl
    rw [hm]
    unfold Cpu.setA20 wanted
    dsimp only
    split
    · next hne => cases i <;> simp [Cpu.clearCaches]
    · next he =>
      have he : c.a20 = a20Mask cl := by simpa using he
      dsimp only
      split
      · rfl
      · exact he
  | service =>
    simp only [Cpu.step, Option.map_eq_some_iff, Prod.mk.injEq] at hs
    obtain ⟨c1, h1, rfl, -⟩ := hs
    have := gate_service h1
    simp only [gate, Prod.mk.injEq] at this
    show wanted c1 = wanted c
    unfold wanted at this ⊢
    rw [this.1]
    simpa using this.2.1
  | ram s z i => exact wanted_of_gate (gate_other hs (by simp) (by simp))
  | rom s z b i => exact wanted_of_gate (gate_other hs (by simp) (by simp))
  | io s z sp hd o i u => exact wanted_of_gate (gate_other hs (by simp) (by simp))
  | alias a s z i => exact wanted_of_gate (gate_other hs (by simp) (by simp))
  | destroy s z sp i => exact wanted_of_gate (gate_other hs (by simp) (by simp))
  | exec => exact wanted_of_gate (gate_other hs (by simp) (by simp))

theorem wanted_run {rs : List Req} : ∀ {c c' : Cpu}, c.run rs = some c' → wanted c' = rs.foldl wantStep (wanted c) := by
  induction rs with
  | nil => intro c c' hs; cases hs; rfl
  | cons r rs ih =>
    intro c c' hs
    simp only [Cpu.run, Option.bind_eq_some_iff] at hs
    obtain ⟨⟨c1, st⟩, h1, h2⟩ := hs
    rw [ih h2, wanted_step h1]
    rfl

theorem requestedMask_eq (rs : List Req) : requestedMask rs = rs.foldl wantStep 0xFFFFFFFF := by
  have key : ∀ l : List Req, l.foldr (fun r m => wantStep m r) 0xFFFFFFFF =
      match l.find? (fun | .a20 _ _ => true | _ => false) with
      | some (.a20 true _) => 0xFFFFFFFF
      | some (.a20 false _) => 0xFFEFFFFF
      | _ => (0xFFFFFFFF : BitVec 32) := by
    intro l
    induction l with
    | nil => rfl
    | cons r l ih =>
      cases r with
      | a20 cl i => cases cl <;> rfl
      | _ => simpa [wantStep, List.find?] using ih
  have h2 : requestedMask rs = match rs.reverse.find? (fun | .a20 _ _ => true | _ => false) with
      | some (.a20 true _) => 0xFFFFFFFF
      | some (.a20 false _) => 0xFFEFFFFF
      | _ => (0xFFFFFFFF : BitVec 32) := by
    cases rs <;> rfl
  rw [h2, ← key, List.foldr_reverse]

/-- **C10**: after every history of requests, services and guest execution, the a20 mask in force is the one requested last
unless an a20 interrupt is still pending, and then servicing it puts the last requested mask in force. -/
theorem C10_last_request_wins (rs : List Req) (c : Cpu) (h : Cpu.init.run rs = some c) :
    (c.pA20 = false → c.a20 = requestedMask rs) ∧
    (∀ c', c.service = some c' → c'.pA20 = false ∧ c'.a20 = requestedMask rs) := by
  have hw := wanted_run h
  have : wanted Cpu.init = 0xFFFFFFFF := rfl
  rw [this, ← requestedMask_eq] at hw
  constructor
  · intro hp
    rw [← hw, wanted, hp]
    rfl
  · intro c' hs
    have := gate_service hs
    simp only [gate, Prod.mk.injEq] at this
    exact ⟨this.1, by rw [this.2.1, hw]⟩

/-- A request made while another one is waiting overrides it, also when it restores the mask in force. -/
example : ∃ c c', Cpu.init.run [.a20 false true, .exec, .a20 true true] = some c ∧ c.pA20 = true ∧ c.service = some c' ∧
    c'.a20 = 0xFFFFFFFF := ⟨_, _, rfl, rfl, rfl, rfl⟩
example : ∃ c, Cpu.init.run [.a20 true true, .a20 false true, .service] = some c ∧ c.a20 = 0xFFEFFFFF := ⟨_, rfl, rfl⟩

/-- **C10, second part**: the two masks: with `closed` every address is left alone, otherwise exactly bit 20 is cleared. -/
theorem C10_only_bit_20 (addr : BitVec 32) (i : Nat) :
    (addr &&& a20Mask true) = addr ∧ (addr &&& a20Mask false).getLsbD i = (addr.getLsbD i && decide (i ≠ 20)) := by
  constructor
  · have : a20Mask true = BitVec.allOnes 32 := by decide
    rw [this, BitVec.and_allOnes]
  · rw [BitVec.getLsbD_and]
    by_cases hi : i < 32
    · have : ∀ j : Fin 32, (a20Mask false).getLsbD j = decide (j.val ≠ 20) := by decide
      rw [show (a20Mask false).getLsbD i = decide (i ≠ 20) from this ⟨i, hi⟩]
    · rw [BitVec.getLsbD_of_ge addr i (by omega)]; simp

example : (0x12345678#32 &&& a20Mask false) = 0x12245678#32 ∧ (0x00100000#32 &&& a20Mask false) = 0 := by decide

/-! ### C56 -/

theorem layout_updateNode (s : Space) (k : Nat) (h : Handlers) (o : Nat) :
    layout { s with nodes := updateNode s.nodes k (fun r => { r with handlers := h, opaq := o }) } = layout s := by
  unfold layout updateNode
  rw [List.map_map]
  apply List.map_congr_left
  intro n _
  simp only [Function.comp]
  split <;> rfl

/-- What the caches hold agrees with the current map and mask. -/
def CacheOk (c : Cpu) : Prop := ∀ m a, c.cache = some (m, a) → layout m = layout c.mem ∧ a = c.a20

theorem cacheOk_submit {d d' : Cpu} {op i} (h : CacheOk d) (hs : d.submit op i = some d') : CacheOk d' := by
  unfold Cpu.submit at hs
  split at hs
  · cases hs; exact h
  · simp only [Option.bind_eq_bind, Option.bind_eq_some_iff, Option.pure_def, Option.some.injEq] at hs
    obtain ⟨m, -, rfl⟩ := hs
    intro m a hc
    cases hc

theorem cacheOk_updates {us : List Update} : ∀ {c c' : Cpu}, CacheOk c → c.applyUpdates us = some c' → CacheOk c' := by
  induction us with
  | nil => intro c c' h hs; cases hs; exact h
  | cons u us ih =>
    intro c c' h hs
    simp only [Cpu.applyUpdates, Option.bind_eq_some_iff] at hs
    obtain ⟨c1, h1, h2⟩ := hs
    refine ih ?_ h2
    unfold Cpu.applyOne at h1
    split at h1
    · rw [Option.map_eq_some_iff] at h1
      obtain ⟨s', -, rfl⟩ := h1
      exact h
    · rw [Option.map_eq_some_iff] at h1
      obtain ⟨s', hs', rfl⟩ := h1
      unfold applyUpdate at hs'
      simp only [Option.bind_eq_bind, Option.bind_eq_some_iff] at hs'
      obtain ⟨n, -, hs'⟩ := hs'
      split at hs'
      · cases hs'
        intro m a hc
        obtain ⟨e1, e2⟩ := h m a hc
        exact ⟨by rw [e1, layout_updateNode], e2⟩
      · cases hs'; exact h

theorem cacheOk_step {c c' : Cpu} {r : Req} {st : Status} (h : CacheOk c) (hs : c.step r = some (c', st)) : CacheOk c' := by
  cases r with
  | ram s z i =>
    simp only [Cpu.step, Cpu.initRam] at hs
    split at hs
    · cases hs; exact h
    · simp only [Option.bind_eq_bind, Option.bind_eq_some_iff, Option.pure_def, Option.some.injEq, Prod.mk.injEq] at hs
      obtain ⟨c1, h1, rfl, -⟩ := hs
      exact cacheOk_submit (d := { c with nextReq := c.nextReq + 1 }) h h1
  | rom s z b i =>
    simp only [Cpu.step, Cpu.initRom] at hs
    split at hs
    · cases hs; exact h
    · split at hs
      · cases hs; exact h
      · simp only [Option.bind_eq_bind, Option.bind_eq_some_iff, Option.pure_def, Option.some.injEq, Prod.mk.injEq] at hs
        obtain ⟨c1, h1, rfl, -⟩ := hs
        exact cacheOk_submit (d := { c with nextReq := c.nextReq + 1 }) h h1
  | io s z sp hd o i u =>
    simp only [Cpu.step, Cpu.initIo] at hs
    split at hs
    · split at hs
      · cases hs; exact h
      · split at hs
        · cases hs; exact h
        · split at hs <;> (cases hs; exact h)
    · split at hs
      · cases hs; exact h
      · split at hs
        · split at hs
          · cases hs; exact h
          · simp only [Option.bind_eq_bind, Option.bind_eq_some_iff, Option.pure_def, Option.some.injEq, Prod.mk.injEq] at hs
            obtain ⟨io', h1, rfl, -⟩ := hs
            exact h
        · simp only [Option.bind_eq_bind, Option.bind_eq_some_iff, Option.pure_def, Option.some.injEq, Prod.mk.injEq] at hs
          obtain ⟨c1, h1, rfl, -⟩ := hs
          exact cacheOk_submit (d := { c with nextReq := c.nextReq + 1 }) h h1
  | alias a s z i =>
    simp only [Cpu.step, Cpu.initAlias] at hs
    split at hs
    · cases hs; exact h
    · simp only [Option.bind_eq_bind, Option.bind_eq_some_iff] at hs
      obtain ⟨n, -, hs⟩ := hs
      split at hs
      · simp only [Option.bind_eq_some_iff, Option.pure_def, Option.some.injEq, Prod.mk.injEq] at hs
        obtain ⟨c1, h1, rfl, -⟩ := hs
        exact cacheOk_submit (d := { c with nextReq := c.nextReq + 1 }) h h1
      · cases hs; exact h
  | destroy s z sp i =>
    simp only [Cpu.step, Cpu.destroy] at hs
    split at hs
    · simp only [Option.bind_eq_bind, Option.bind_eq_some_iff, Option.pure_def, Option.some.injEq, Prod.mk.injEq] at hs
      obtain ⟨c1, h1, rfl, -⟩ := hs
      exact h
    · simp only [Option.bind_eq_bind, Option.bind_eq_some_iff, Option.pure_def, Option.some.injEq, Prod.mk.injEq] at hs
      obtain ⟨c1, h1, rfl, -⟩ := hs
      exact cacheOk_submit h h1
  | a20 cl i =>
    simp only [Cpu.step, Option.some.injEq, Prod.mk.injEq] at hs
    obtain ⟨rfl, -⟩ := hs
    unfold Cpu.setA20
    dsimp only
    split
    · split
      · exact h
      · intro m a hc; cases hc
    · exact h
  | service =>
    simp only [Cpu.step, Option.map_eq_some_iff, Prod.mk.injEq] at hs
    obtain ⟨c1, h1, rfl, -⟩ := hs
    unfold Cpu.service at h1
    rw [Option.bind_eq_some_iff] at h1
    obtain ⟨c2, h2, h3⟩ := h1
    have i2 : CacheOk c2 := by
      unfold Cpu.serviceHandlers at h2
      split at h2
      · simp only [Option.bind_eq_bind, Option.bind_eq_some_iff, Option.pure_def, Option.some.injEq] at h2
        obtain ⟨c4, h4, rfl⟩ := h2
        have := cacheOk_updates h h4
        exact this
      · cases h2; exact h
    unfold Cpu.serviceMap at h3
    split at h3
    · simp only at h3
      split at h3
      · simp only [Option.bind_eq_bind, Option.bind_eq_some_iff, Option.pure_def, Option.some.injEq] at h3
        obtain ⟨m, -, rfl⟩ := h3
        intro m a hc; cases hc
      · cases h3
        intro m a hc; cases hc
    · split at h3
      · simp only [Option.bind_eq_bind, Option.bind_eq_some_iff, Option.pure_def, Option.some.injEq] at h3
        obtain ⟨m, -, rfl⟩ := h3
        intro m a hc; cases hc
      · cases h3; exact i2
  | exec =>
    simp only [Cpu.step, Option.some.injEq, Prod.mk.injEq] at hs
    obtain ⟨rfl, -⟩ := hs
    unfold Cpu.exec
    split
    · intro m a hc
      simp only [Option.some.injEq, Prod.mk.injEq] at hc
      obtain ⟨rfl, rfl⟩ := hc
      exact ⟨rfl, rfl⟩
    · exact h

theorem cacheOk_run {rs : List Req} : ∀ {c c' : Cpu}, CacheOk c → c.run rs = some c' → CacheOk c' := by
  induction rs with
  | nil => intro c c' h hs; cases hs; exact h
  | cons r rs ih =>
    intro c c' h hs
    simp only [Cpu.run, Option.bind_eq_some_iff] at hs
    obtain ⟨⟨c1, st⟩, h1, h2⟩ := hs
    exact ih (cacheOk_step h h1) h2

/-- **C56**: after every history of requests, services and guest execution, whatever the guest has cached was taken from a
memory map with the same regions (bounds, kinds, backing, aliases) and the same a20 mask as the current ones; callbacks are not
cached. -/
theorem C56_caches_never_outlive_the_map (rs : List Req) (c : Cpu) (h : Cpu.init.run rs = some c) (m : Space) (a : BitVec 32)
    (hc : c.cache = some (m, a)) : layout m = layout c.mem ∧ a = c.a20 :=
  cacheOk_run (c := Cpu.init) (by intro m a h; cases h) h m a hc

/-- The guest runs, a change is requested and waits while the guest runs on: the caches are still right, and are dropped with
the change. -/
example : ∃ c c', Cpu.init.run [.ram 0 0x10000 false, .exec, .destroy 0x1000 0x1000 false true, .a20 false true, .exec] = some c ∧
    c.cache.isSome ∧ c.service = some c' ∧ c'.cache = none ∧ c'.a20 = 0xFFEFFFFF := ⟨_, _, rfl, rfl, rfl, rfl, rfl⟩

end Verif.Region
