/-
C08 (handler updates) and C09 (port i/o).
-/
import Verif.Lemmas.RegionApi
import Verif.Spec.Deferred
import Verif.Spec.RegionApi
import Verif.Spec.PortIo

namespace Verif.Region
open Verif.AS Verif.AS.Spec Verif.Region.Spec

/-! ### C08 -/

theorem getIt_updateNode (m : List Node) (k a : Nat) (f : Region → Region) :
    getIt (updateNode m k f) a = (getIt m a).map (fun x => if x.key = k then { x with reg := f x.reg } else x) := by
  unfold getIt updateNode
  rw [List.filter_map, List.getLast?_map]
  congr 2
  apply List.filter_congr
  intro x _
  simp only [Function.comp]
  split <;> rfl

theorem search_updateNode (s : Space) (k a : Nat) (f : Region → Region) :
    ({ s with nodes := updateNode s.nodes k f } : Space).search a =
      (getIt s.nodes a).map (fun x => if x.key = k then f x.reg else x.reg) := by
  simp only [Space.search, getIt_updateNode, Option.map_map]
  congr 1
  funext x
  simp only [Function.comp]
  split <;> rfl

theorem tiled_updateNode {s : Space} (T : Tiled s) (k : Nat) (f : Region → Region) (hf : ∀ r, (f r).start = r.start ∧ (f r).stop = r.stop) :
    Tiled { s with nodes := updateNode s.nodes k f } := by
  have e : ∀ x : Node, (if x.key = k then { x with reg := f x.reg } else x : Node).key = x.key ∧
      (if x.key = k then { x with reg := f x.reg } else x : Node).reg.start = x.reg.start ∧
      (if x.key = k then { x with reg := f x.reg } else x : Node).reg.stop = x.reg.stop := by
    intro x; split <;> simp [hf]
  have lift : ∀ x ∈ s.nodes, (if x.key = k then { x with reg := f x.reg } else x : Node) ∈ updateNode s.nodes k f := by
    intro x hx; unfold updateNode; exact List.mem_map.2 ⟨x, hx, rfl⟩
  have low : ∀ n ∈ updateNode s.nodes k f, ∃ x ∈ s.nodes, n.key = x.key ∧ n.reg.start = x.reg.start ∧ n.reg.stop = x.reg.stop := by
    intro n hn
    unfold updateNode at hn
    obtain ⟨x, hx, rfl⟩ := List.mem_map.1 hn
    exact ⟨x, hx, e x⟩
  constructor
  · exact sorted_updateNode T.sorted _ _
  · intro n hn; obtain ⟨x, hx, h1, h2, h3⟩ := low n hn; rw [h1, h2]; exact T.keyStart x hx
  · intro n hn; obtain ⟨x, hx, h1, h2, h3⟩ := low n hn; rw [h2, h3]; exact T.le x hx
  · intro n hn; obtain ⟨x, hx, h1, h2, h3⟩ := low n hn; rw [h3]; exact T.leMax x hx
  · obtain ⟨z, hz, h0⟩ := T.zero
    exact ⟨_, lift z hz, by rw [(e z).1]; exact h0⟩
  · intro n hn hlt
    obtain ⟨x, hx, h1, h2, h3⟩ := low n hn
    rw [h3] at hlt ⊢
    obtain ⟨y, hy, h1⟩ := T.succ x hx hlt
    exact ⟨_, lift y hy, by rw [(e y).1]; exact h1⟩
  · intro n hn n' hn' hlt
    obtain ⟨x, hx, h1, h2, h3⟩ := low n hn
    obtain ⟨y, hy, g1, g2, g3⟩ := low n' hn'
    rw [h1, g1] at hlt
    rw [h3, g1]
    exact T.sep x hx y hy hlt

theorem tiled_handlers {s : Space} (T : Tiled s) (k : Nat) (h : Handlers) (o : Nat) :
    Tiled { s with nodes := updateNode s.nodes k (fun r => { r with handlers := h, opaq := o }) } :=
  tiled_updateNode T k _ (fun _ => ⟨rfl, rfl⟩)

theorem search_mem {s : Space} (T : Tiled s) {a : Nat} (ha : a ≤ s.max) :
    ∃ n ∈ s.nodes, getIt s.nodes a = some n ∧ Contains n.reg a := by
  obtain ⟨n, hn, hc⟩ := T.exists_contains ha
  exact ⟨n, hn, (T.getIt_iff ha n).2 ⟨hn, hc⟩, hc⟩

/-- One update, seen through the lookup. -/
theorem applyUpdate_spec {s : Space} (T : Tiled s) {b : Nat} (hb : b ≤ s.max) (ty : MemType) (h : Handlers) (o : Nat) :
    ∃ s', applyUpdate s b ty h o = some s' ∧ Tiled s' ∧ s'.max = s.max ∧ ∀ a, a ≤ s.max →
      s'.search a = (s.search a).map (fun r => if r.type = ty ∧ Contains r b then { r with handlers := h, opaq := o } else r) := by
  obtain ⟨n, hn, hg, hc⟩ := search_mem T hb
  unfold applyUpdate
  simp only [hg, Option.bind_eq_bind, Option.bind_some]
  by_cases hty : n.reg.type = ty
  · rw [if_pos hty]
    refine ⟨_, rfl, tiled_handlers T _ _ _, rfl, ?_⟩
    intro a ha
    obtain ⟨m, hm, hgm, hcm⟩ := search_mem T ha
    rw [search_updateNode]
    simp only [Space.search, hgm, Option.map_some, Option.some.injEq]
    by_cases hk : m.key = n.key
    · have := T.sorted.key_inj hm hn hk
      subst this
      rw [if_pos rfl, if_pos ⟨hty, hc⟩]
    · rw [if_neg hk, if_neg]
      rintro ⟨-, h2⟩
      exact hk (by rw [T.eq_of_contains hm hn h2 hc])
  · rw [if_neg hty]
    refine ⟨s, rfl, T, rfl, ?_⟩
    intro a ha
    obtain ⟨m, hm, hgm, hcm⟩ := search_mem T ha
    simp only [Space.search, hgm, Option.map_some, Option.some.injEq]
    rw [if_neg]
    rintro ⟨h1, h2⟩
    have := T.eq_of_contains hm hn h2 hc
    subst this
    exact hty h1

theorem withUpdates_cons (io : Bool) (ty : MemType) (u : Update) (us : List Update) (r : Region) :
    withUpdates io ty us (if r.type = ty ∧ u.ioSpace = io ∧ Contains r u.start then { r with handlers := u.handlers, opaq := u.opaq } else r) =
      withUpdates io ty (u :: us) r := by
  by_cases hty : r.type = ty
  · by_cases hc : u.ioSpace = io ∧ Contains r u.start
    · rw [if_pos ⟨hty, hc⟩]
      unfold withUpdates lastUpdate
      obtain ⟨h1, h2, h3⟩ := hc
      simp only [hty, if_true, List.reverse_cons, List.find?_append, List.find?_cons, List.find?_nil]
      simp only [h1, h2, h3, decide_true, Bool.and_self]
      cases List.find? _ us.reverse <;> rfl
    · rw [if_neg (fun h => hc h.2)]
      unfold withUpdates lastUpdate
      simp only [hty, if_true, List.reverse_cons, List.find?_append, List.find?_cons, List.find?_nil]
      have : (decide (u.ioSpace = io) && decide (r.start ≤ u.start) && decide (u.start ≤ r.stop)) = false := by
        simp only [Contains] at hc
        by_cases h1 : u.ioSpace = io <;> by_cases h2 : r.start ≤ u.start <;> by_cases h3 : u.start ≤ r.stop <;> simp_all
      simp only [this]
      cases List.find? _ us.reverse <;> rfl
  · rw [if_neg (fun h => hty h.1)]
    unfold withUpdates
    rw [if_neg hty, if_neg hty]

theorem applyUpdates_spec (us : List Update) (hus : ∀ u ∈ us, if u.ioSpace then u.start ≤ maxPort else u.start ≤ maxAddr) :
    ∀ (c : Cpu), Tiled c.mem → Tiled c.io → c.mem.max = maxAddr → c.io.max = maxPort →
    ∃ c', c.applyUpdates us = some c' ∧ Tiled c'.mem ∧ Tiled c'.io ∧ c'.mem.max = maxAddr ∧ c'.io.max = maxPort ∧
      c'.changed = c.changed ∧ c'.pRegion = c.pRegion ∧
      (∀ a, a ≤ maxAddr → c'.mem.search a = (c.mem.search a).map (withUpdates false .mmio us)) ∧
      (∀ a, a ≤ maxPort → c'.io.search a = (c.io.search a).map (withUpdates true .pmio us)) := by
  induction us with
  | nil =>
    intro c T1 T2 h1 h2
    refine ⟨c, rfl, T1, T2, h1, h2, rfl, rfl, fun a _ => ?_, fun a _ => ?_⟩
    · have : withUpdates false .mmio ([] : List Update) = id := by funext r; simp [withUpdates, lastUpdate]
      rw [this]; simp
    · have : withUpdates true .pmio ([] : List Update) = id := by funext r; simp [withUpdates, lastUpdate]
      rw [this]; simp
  | cons u us ih =>
    intro c T1 T2 h1 h2
    have hu := hus u (by simp)
    have IH := ih (fun u hu => hus u (by simp [hu]))
    cases hio : u.ioSpace with
    | true =>
      rw [hio, if_pos rfl] at hu
      have hmod : u.start % 65536 = u.start := Nat.mod_eq_of_lt (by unfold maxPort at hu; omega)
      obtain ⟨s', hs', T', hm', hsr⟩ := applyUpdate_spec T2 (b := u.start) (by omega) .pmio u.handlers u.opaq
      obtain ⟨c', g1, g2, g3, g4, g5, g6, g7, g8, g9⟩ := IH { c with io := s' } T1 T' h1 (hm'.trans h2)
      refine ⟨c', ?_, g2, g3, g4, g5, g6, g7, ?_, ?_⟩
      · simp only [Cpu.applyUpdates, Cpu.applyOne, hio, if_true, hmod, hs', Option.map_some, Option.bind_some, g1]
      · intro a ha
        rw [g8 a ha]
        congr 1
        funext r
        rw [← withUpdates_cons]
        simp [hio]
      · intro a ha
        rw [g9 a ha, hsr a (by omega), Option.map_map]
        congr 1
        funext r
        rw [← withUpdates_cons]
        simp [hio, Function.comp]
    | false =>
      rw [hio] at hu
      simp only [Bool.false_eq_true, if_false] at hu
      obtain ⟨s', hs', T', hm', hsr⟩ := applyUpdate_spec T1 (b := u.start) (by omega) .mmio u.handlers u.opaq
      obtain ⟨c', g1, g2, g3, g4, g5, g6, g7, g8, g9⟩ := IH { c with mem := s' } T' T2 (hm'.trans h1) h2
      refine ⟨c', ?_, g2, g3, g4, g5, g6, g7, ?_, ?_⟩
      · simp only [Cpu.applyUpdates, Cpu.applyOne, hio, Bool.false_eq_true, if_false, hs', Option.map_some, Option.bind_some, g1]
      · intro a ha
        rw [g8 a ha, hsr a (by omega), Option.map_map]
        congr 1
        funext r
        rw [← withUpdates_cons]
        simp [hio, Function.comp]
      · intro a ha
        rw [g9 a ha]
        congr 1
        funext r
        rw [← withUpdates_cons]
        simp [hio]

/-- **C08 (partial)**: when CPU_HANDLER_INT is serviced (and no map change is waiting) every address and port is afterwards
served by the same region with the same bounds and contents, except that the callbacks and the opaque pointer of an mmio (pmio)
region are those of the last queued update that names an address of it; the queue is emptied.
Missing: updates that name a region whose creation is still deferred are lost, see `C08_update_lost_violation`; update requests
with a port start above 65535 (truncated to 16 bits by the code) are excluded. -/
theorem C08_updates_applied_in_order_partial (c : Cpu) (T1 : Tiled c.mem) (T2 : Tiled c.io) (h1 : c.mem.max = maxAddr)
    (h2 : c.io.max = maxPort) (hp : c.pHandler = true) (hr : c.pRegion = false)
    (hus : ∀ u ∈ c.updated, if u.ioSpace then u.start ≤ maxPort else u.start ≤ maxAddr) :
    ∃ c', c.service = some c' ∧ c'.updated = [] ∧ c'.pHandler = false ∧
      (∀ a, a ≤ maxAddr → c'.mem.search a = (c.mem.search a).map (withUpdates false .mmio c.updated)) ∧
      (∀ a, a ≤ maxPort → c'.io.search a = (c.io.search a).map (withUpdates true .pmio c.updated)) := by
  obtain ⟨c1, g1, g2, g3, g4, g5, g6, g7, g8, g9⟩ := applyUpdates_spec c.updated hus c T1 T2 h1 h2
  unfold Cpu.service Cpu.serviceHandlers
  rw [hp, if_pos rfl]
  simp only [g1, Option.bind_eq_bind, Option.bind_some, Option.pure_def]
  unfold Cpu.serviceMap
  simp only [g7, hr]
  by_cases ha : c1.pA20 <;> simp only [ha, Bool.false_eq_true, if_false, if_true] <;>
    exact ⟨_, rfl, rfl, rfl, g8, g9⟩

/-- **C08, second part**: an update request changes nothing until then; it adds one update with null callbacks replaced by the
defaults to the queue, and raises the interrupt only for update = 2. -/
theorem C08_request_only_queues (c : Cpu) (start size opaq update : Nat) (io : Bool) (h : Handlers)
    (hu : update = 1 ∨ update = 2) :
    ∃ c' u, c.step (.io start size io h opaq true update) = some (c', .success) ∧ c'.mem = c.mem ∧ c'.io = c.io ∧
      c'.changed = c.changed ∧ c'.updated = c.updated ++ [u] ∧ c'.pHandler = (c.pHandler || decide (update = 2)) ∧
      u.start = start ∧ u.ioSpace = io ∧ u.opaq = opaq ∧
      u.handlers = if io then { given h with r64 := h.r64, w64 := h.w64 } else given h := by
  have e : ∀ f : Fn, Fn.orDefault f = orDflt f := by intro f; cases f <;> rfl
  simp only [Cpu.step, Cpu.initIo]
  rw [if_pos (by omega), if_neg (by simp), if_pos hu]
  refine ⟨_, _, rfl, rfl, rfl, rfl, rfl, rfl, rfl, rfl, rfl, ?_⟩
  cases io
  · simp only [Bool.false_eq_true, if_false, mmioDefaults, given, e]
  · simp only [if_true, pmioDefaults, given, e]

/-- Two updates of the same mmio region: the second wins, null read callback replaced by the default. -/
example : ∃ c r, Cpu.init.run [.io 0xA0000 0x1000 false { r8 := .client 1 } 5 false 0, .io 0xA0010 0 false { r8 := .client 2 } 6 true 1,
      .io 0xA0800 0 false { w8 := .client 3 } 7 true 1, .io 0 0 false {} 0 true 3, .service] = some c ∧
    c.mem.search 0xA0123 = some r ∧ r.handlers.r8 = .dflt ∧ r.handlers.w8 = .client 3 ∧ r.opaq = 7 ∧ r.start = 0xA0000 := by
  refine ⟨_, _, rfl, rfl, ?_⟩
  decide

/-- **C08 is violated by the code**: with a deferred creation of an mmio region followed by an update of it, the service applies
the update first, to the old map, and drops it; the region ends up with the first callbacks. -/
theorem C08_update_lost_violation :
    ∃ c r, Cpu.init.run [.io 0xA0000 0x1000 false { r8 := .client 1 } 5 true 0, .io 0xA0000 0 false { r8 := .client 2 } 6 true 2, .service]
      = some c ∧ c.mem.search 0xA0000 = some r ∧ r.type = .mmio ∧ r.handlers.r8 = .client 1 ∧ c.updated = [] := by
  refine ⟨_, _, rfl, rfl, ?_⟩
  decide

/-! ### C09 -/

/-- The callbacks a port region must have. -/
def PortOk (r : Region) : Prop :=
  (r.type = .unmapped ∨ r.type = .pmio) ∧ (r.type = .pmio → ∀ w, readFn r.handlers w ≠ .null ∧ writeFn r.handlers w ≠ .null)

theorem portOk_boundsFree : BoundsFree PortOk := ⟨fun _ _ h => h, fun _ _ h => h⟩

/-- Invariant of the port map and of the queued port updates. -/
def IoInv (c : Cpu) : Prop :=
  RegP PortOk c.io ∧ ∀ u ∈ c.updated, u.ioSpace = true → ∀ w, readFn u.handlers w ≠ .null ∧ writeFn u.handlers w ≠ .null

theorem orDefault_ne (f : Fn) : Fn.orDefault f ≠ .null := by cases f <;> simp [Fn.orDefault]

theorem pmioDefaults_ne (h : Handlers) (w : Width) : readFn (pmioDefaults h) w ≠ .null ∧ writeFn (pmioDefaults h) w ≠ .null := by
  cases w <;> exact ⟨orDefault_ne _, orDefault_ne _⟩

theorem ioInv_updates {us : List Update} : ∀ {c c' : Cpu}, RegP PortOk c.io →
    (∀ u ∈ us, u.ioSpace = true → ∀ w, readFn u.handlers w ≠ .null ∧ writeFn u.handlers w ≠ .null) →
    c.applyUpdates us = some c' → RegP PortOk c'.io := by
  induction us with
  | nil => intro c c' h _ hs; cases hs; exact h
  | cons u us ih =>
    intro c c' h hu hs
    simp only [Cpu.applyUpdates, Option.bind_eq_some_iff] at hs
    obtain ⟨c1, h1, h2⟩ := hs
    refine ih ?_ (fun u hu' => hu u (by simp [hu'])) h2
    unfold Cpu.applyOne at h1
    split at h1
    · next hio =>
      rw [Option.map_eq_some_iff] at h1
      obtain ⟨s', hs', rfl⟩ := h1
      unfold applyUpdate at hs'
      simp only [Option.bind_eq_bind, Option.bind_eq_some_iff] at hs'
      obtain ⟨n, -, hs'⟩ := hs'
      split at hs'
      · cases hs'
        refine h.update _ _ (fun r hr => ⟨hr.1, fun _ => hu u (by simp) hio⟩)
      · cases hs'; exact h
    · rw [Option.map_eq_some_iff] at h1
      obtain ⟨s', -, rfl⟩ := h1
      exact h

theorem ioInv_step {c c' : Cpu} {r : Req} {st : Status} (h : IoInv c) (hs : c.step r = some (c', st)) : IoInv c' := by
  have sub : ∀ {d d' : Cpu} {op i}, IoInv d → d.submit op i = some d' → IoInv d' := by
    intro d d' op i hd hs
    unfold Cpu.submit at hs
    split at hs
    · cases hs; exact hd
    · simp only [Option.bind_eq_bind, Option.bind_eq_some_iff, Option.pure_def, Option.some.injEq] at hs
      obtain ⟨m, -, rfl⟩ := hs
      exact hd
  cases r with
  | ram s z i =>
    simp only [Cpu.step, Cpu.initRam] at hs
    split at hs
    · cases hs; exact h
    · simp only [Option.bind_eq_bind, Option.bind_eq_some_iff, Option.pure_def, Option.some.injEq, Prod.mk.injEq] at hs
      obtain ⟨c1, h1, rfl, -⟩ := hs
      exact sub (d := { c with nextReq := c.nextReq + 1 }) h h1
  | rom s z b i =>
    simp only [Cpu.step, Cpu.initRom] at hs
    split at hs
    · cases hs; exact h
    · split at hs
      · cases hs; exact h
      · simp only [Option.bind_eq_bind, Option.bind_eq_some_iff, Option.pure_def, Option.some.injEq, Prod.mk.injEq] at hs
        obtain ⟨c1, h1, rfl, -⟩ := hs
        exact sub (d := { c with nextReq := c.nextReq + 1 }) h h1
  | io s z sp hd o i u =>
    simp only [Cpu.step, Cpu.initIo] at hs
    split at hs
    · split at hs
      · cases hs; exact h
      · split at hs
        · cases hs
          refine ⟨h.1, ?_⟩
          intro u' hu' hio
          simp only [List.mem_append, List.mem_singleton] at hu'
          rcases hu' with hu' | rfl
          · exact h.2 u' hu' hio
          · simp only at hio
            subst hio
            simp only [if_true]
            exact fun w => pmioDefaults_ne hd w
        · split at hs
          · cases hs; exact h
          · cases hs; exact h
    · split at hs
      · cases hs; exact h
      · split at hs
        · split at hs
          · cases hs; exact h
          · simp only [Option.bind_eq_bind, Option.bind_eq_some_iff, Option.pure_def, Option.some.injEq, Prod.mk.injEq] at hs
            obtain ⟨io', h1, rfl, -⟩ := hs
            refine ⟨h.1.insert portOk_boundsFree ⟨Or.inr rfl, fun _ w => ?_⟩ h1, h.2⟩
            have := pmioDefaults_ne hd w
            cases w <;> exact this
        · simp only [Option.bind_eq_bind, Option.bind_eq_some_iff, Option.pure_def, Option.some.injEq, Prod.mk.injEq] at hs
          obtain ⟨c1, h1, rfl, -⟩ := hs
          exact sub (d := { c with nextReq := c.nextReq + 1 }) h h1
  | alias a s z i =>
    simp only [Cpu.step, Cpu.initAlias] at hs
    split at hs
    · cases hs; exact h
    · simp only [Option.bind_eq_bind, Option.bind_eq_some_iff] at hs
      obtain ⟨n, -, hs⟩ := hs
      split at hs
      · simp only [Option.bind_eq_some_iff, Option.pure_def, Option.some.injEq, Prod.mk.injEq] at hs
        obtain ⟨c1, h1, rfl, -⟩ := hs
        exact sub (d := { c with nextReq := c.nextReq + 1 }) h h1
      · cases hs; exact h
  | destroy s z sp i =>
    simp only [Cpu.step, Cpu.destroy] at hs
    split at hs
    · simp only [Option.bind_eq_bind, Option.bind_eq_some_iff, Option.pure_def, Option.some.injEq, Prod.mk.injEq] at hs
      obtain ⟨c1, h1, rfl, -⟩ := hs
      exact ⟨h.1.erase portOk_boundsFree ⟨Or.inl rfl, by simp⟩ h1, h.2⟩
    · simp only [Option.bind_eq_bind, Option.bind_eq_some_iff, Option.pure_def, Option.some.injEq, Prod.mk.injEq] at hs
      obtain ⟨c1, h1, rfl, -⟩ := hs
      exact sub h h1
  | a20 cl i =>
    simp only [Cpu.step, Option.some.injEq, Prod.mk.injEq] at hs
    obtain ⟨rfl, -⟩ := hs
    unfold Cpu.setA20
    dsimp only
    split
    · split <;> exact h
    · exact h
  | service =>
    simp only [Cpu.step, Option.map_eq_some_iff, Prod.mk.injEq] at hs
    obtain ⟨c1, h1, rfl, -⟩ := hs
    unfold Cpu.service at h1
    rw [Option.bind_eq_some_iff] at h1
    obtain ⟨c2, h2, h3⟩ := h1
    have i2 : IoInv c2 := by
      unfold Cpu.serviceHandlers at h2
      split at h2
      · simp only [Option.bind_eq_bind, Option.bind_eq_some_iff, Option.pure_def, Option.some.injEq] at h2
        obtain ⟨c4, h4, rfl⟩ := h2
        have := ioInv_updates h.1 h.2 h4
        exact ⟨this, by simp⟩
      · cases h2; exact h
    unfold Cpu.serviceMap at h3
    split at h3
    · simp only at h3
      split at h3
      · simp only [Option.bind_eq_bind, Option.bind_eq_some_iff, Option.pure_def, Option.some.injEq] at h3
        obtain ⟨m, -, rfl⟩ := h3
        exact i2
      · cases h3; exact i2
    · split at h3
      · simp only [Option.bind_eq_bind, Option.bind_eq_some_iff, Option.pure_def, Option.some.injEq] at h3
        obtain ⟨m, -, rfl⟩ := h3
        exact i2
      · cases h3; exact i2
  | exec =>
    simp only [Cpu.step, Option.some.injEq, Prod.mk.injEq] at hs
    obtain ⟨rfl, -⟩ := hs
    unfold Cpu.exec
    split <;> exact h

theorem ioInv_run {rs : List Req} : ∀ {c c' : Cpu}, IoInv c → c.run rs = some c' → IoInv c' := by
  induction rs with
  | nil => intro c c' h hs; cases hs; exact h
  | cons r rs ih =>
    intro c c' h hs
    simp only [Cpu.run, Option.bind_eq_some_iff] at hs
    obtain ⟨⟨c1, st⟩, h1, h2⟩ := hs
    exact ih (ioInv_step h h1) h2

theorem readFn_eq (h : Handlers) (w : Width) : readFn h w = reader h w := by cases w <;> rfl
theorem writeFn_eq (h : Handlers) (w : Width) : writeFn h w = writer h w := by cases w <;> rfl

/-- **C09**: after every history of api calls and services, a port access of each width does exactly one of two things: if the
port belongs to a port region it calls that region's non-null callback of that width and direction, with that port, value and
opaque pointer; otherwise it reads zero, or drops the write.  It never aborts and never calls a null callback. -/
theorem C09_port_access_calls_owner (rs : List Req) (c : Cpu) (hreach : Cpu.init.run rs = some c) (w : Width) (port value : Nat)
    (r : Region) (hr : c.io.search port = some r) :
    (r.type = .pmio ∧ reader r.handlers w ≠ .null ∧ writer r.handlers w ≠ .null ∧
        ioRead c w port = .call (reader r.handlers w) port none r.opaq ∧
        ioWrite c w port value = .call (writer r.handlers w) port (some value) r.opaq) ∨
      (r.type = .unmapped ∧ ioRead c w port = .readsZero ∧ ioWrite c w port value = .dropped) := by
  have I : IoInv c := ioInv_run (c := Cpu.init) ⟨by
    intro n hn
    simp only [Cpu.init, Space.create, List.mem_singleton] at hn
    subst hn
    exact ⟨Or.inl rfl, by simp⟩, by simp [Cpu.init]⟩ hreach
  have hok : PortOk r := by
    unfold Space.search at hr
    rw [Option.map_eq_some_iff] at hr
    obtain ⟨n, hn, rfl⟩ := hr
    exact I.1 n (getIt_mem hn)
  rcases hok.1 with ht | ht
  · right; simp [ioRead, ioWrite, hr, ht]
  · left
    obtain ⟨h1, h2⟩ := hok.2 ht w
    rw [readFn_eq, writeFn_eq] at *
    refine ⟨ht, h1, h2, ?_, ?_⟩ <;> simp [ioRead, ioWrite, hr, ht, readFn_eq, writeFn_eq]

/-- **C09 (partial), ownership**: creating a port region over [start, start + size) makes exactly these ports call its callbacks;
accesses to all other ports do what they did.  Missing: the coincidence of C01. -/
theorem C09_new_ports_partial (c : Cpu) (T : Tiled c.io) (hmax : c.io.max = maxPort) (start size : Nat) (h : Handlers) (o : Nat) (i : Bool)
    (hsize : 0 < size) (hend : start + size ≤ 65536) (hco : ¬ Coincidence c.io (.erase start (start + size - 1))) :
    ∃ c', c.step (.io start size true h o i 0) = some (c', .success) ∧ ∀ port value w, port ≤ maxPort →
      (start ≤ port ∧ port < start + size → ioRead c' w port = .call (reader (portHandlers h) w) port none o ∧
        ioWrite c' w port value = .call (writer (portHandlers h) w) port (some value) o) ∧
      (port < start ∨ start + size ≤ port → ioRead c' w port = ioRead c w port ∧ ioWrite c' w port value = ioWrite c w port value) := by
  have he : endOf maxPort start size = start + size - 1 := by
    rw [endOf_eq hsize (by omega)]; unfold maxPort; omega
  have eh : ({ pmioDefaults h with r64 := .null, w64 := .null } : Handlers) = portHandlers h := by
    have e : ∀ f : Fn, Fn.orDefault f = orDflt f := by intro f; cases f <;> rfl
    simp only [pmioDefaults, portHandlers, given, e]
  have hwr : (start + size) % u64 = start + size := Nat.mod_eq_of_lt (by unfold u64; omega)
  let r : Region := { start := start, stop := start + size - 1, type := .pmio, handlers := portHandlers h, opaq := o }
  obtain ⟨io', hio, T', hm', hserv⟩ := step_spec T (.insert r (.req c.nextReq)) ⟨by simp only [r]; omega, by simp only [r, hmax]; unfold maxPort; omega⟩
    (by rintro ⟨q, hq⟩; exact hco ⟨q, hq⟩)
  refine ⟨{ c with io := io', nextReq := c.nextReq + 1 }, ?_, ?_⟩
  · simp only [Cpu.step, Cpu.initIo, ne_eq, not_true_eq_false, if_false, if_true, Nat.ne_of_gt hsize, hwr]
    rw [if_neg (by omega), he, eh]
    simp only [r] at hio
    simp only [hio, Option.bind_eq_bind, Option.bind_some, Option.pure_def]
  · intro port value w hp
    have hs := hserv port (by omega)
    have obs : ∀ (s s' : Space) (d d' : Cpu), d.io = s → d'.io = s' → serves s port = serves s' port →
        ioRead d w port = ioRead d' w port ∧ ioWrite d w port value = ioWrite d' w port value := by
      intro s s' d d' h1 h2 h3
      subst h1 h2
      unfold serves at h3
      cases ha : d.io.search port with
      | none =>
        cases hb : d'.io.search port with
        | none => simp [ioRead, ioWrite, ha, hb]
        | some y => simp [ha, hb] at h3
      | some x =>
        cases hb : d'.io.search port with
        | none => simp [ha, hb] at h3
        | some y =>
          simp only [ha, hb, Option.map_some, Option.some.injEq] at h3
          have : x.type = y.type ∧ (x.type ≠ .unmapped → x.handlers = y.handlers ∧ x.opaq = y.opaq) := by
            unfold payload at h3
            split at h3
            · next hx => split at h3
                         · next hy => exact ⟨by rw [hx, hy], fun h => absurd hx h⟩
                         · cases h3
            · split at h3
              · cases h3
              · simp only [Option.some.injEq, Region.mk.injEq] at h3
                exact ⟨h3.2.2.1, fun _ => ⟨h3.2.2.2.1, h3.2.2.2.2.1⟩⟩
          obtain ⟨h4, h5⟩ := this
          simp only [ioRead, ioWrite, ha, hb, ← h4]
          cases ht : x.type <;> simp
          rw [(h5 (by simp [ht])).1, (h5 (by simp [ht])).2]
          exact ⟨⟨rfl, rfl⟩, rfl, rfl⟩
    constructor
    · intro hin
      have hc : Contains r port := ⟨by simp only [r]; omega, by simp only [r]; omega⟩
      rw [if_pos (by simpa only [Op.lo, Op.hi, Contains] using hc)] at hs
      unfold serves at hs
      rw [Option.map_eq_some_iff] at hs
      obtain ⟨q, hq, hq2⟩ := hs
      have hpr : payload r = some { r with start := 0, stop := 0 } := by simp [payload, r]
      simp only [Op.puts, hpr] at hq2
      unfold payload at hq2
      split at hq2
      · cases hq2
      · simp only [Option.some.injEq, Region.mk.injEq, r] at hq2
        simp only [ioRead, ioWrite, hq, hq2.2.2.1, hq2.2.2.2.1, hq2.2.2.2.2.1, readFn_eq, writeFn_eq, and_self]
    · intro hout
      rw [if_neg (by simp only [Op.lo, Op.hi, r]; omega)] at hs
      exact obs io' c.io _ c rfl rfl hs

/-- A port region at the top of the space: the hypotheses are met and the last port calls its handler. -/
example : ∃ c', Cpu.init.step (.io 0xFFF0 0x10 true { r8 := .client 4 } 9 false 0) = some (c', .success) ∧
    ioRead c' .w8 0xFFFF = .call (.client 4) 0xFFFF none 9 ∧ ioRead c' .w16 0xFFFF = .call .dflt 0xFFFF none 9 ∧
    ioRead c' .w8 0xFFEF = .readsZero := by
  refine ⟨_, rfl, ?_⟩
  decide

/-- **C09 is violated by the code** in the same way: after the ports [0x20, 0x40] are given a new owner, port 0x48 of the
region [0x40, 0x4F] calls the new owner's callback. -/
theorem C09_neighbour_violation : ∃ c1 c2, Cpu.init.step (.io 0x40 0x10 true { r8 := .client 4 } 9 false 0) = some (c1, .success) ∧
    c1.step (.io 0x20 0x21 true { r8 := .client 5 } 8 false 0) = some (c2, .success) ∧
    ioRead c1 .w8 0x48 = .call (.client 4) 0x48 none 9 ∧ ioRead c2 .w8 0x48 = .call (.client 5) 0x48 none 8 := by
  refine ⟨_, _, rfl, rfl, ?_⟩
  decide

end Verif.Region
