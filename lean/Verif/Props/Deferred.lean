/-
C07, C08, C10, C56.
-/
import Verif.Lemmas.RegionApi
import Verif.Spec.Deferred

namespace Verif.Region
open Verif.AS Verif.AS.Spec Verif.Region.Spec

/-! ### C07 -/

/-- **C07, first half**: a deferred request leaves the memory map as it is until the interrupt is serviced. -/
theorem C07_map_untouched_until_service (c c' : Cpu) (r : Req) (st : Status) (hd : Deferred r) (hns : r ≠ .service)
    (hs : c.step r = some (c', st)) : c'.mem = c.mem := by
  cases r with
  | ram s z i =>
    cases hd
    simp only [Cpu.step, Cpu.initRam, Cpu.submit, if_true] at hs
    split at hs <;> cases hs <;> rfl
  | rom s z b i =>
    cases hd
    simp only [Cpu.step, Cpu.initRom, Cpu.submit, if_true] at hs
    split at hs
    · cases hs; rfl
    · split at hs <;> cases hs <;> rfl
  | io s z sp h o i u =>
    obtain ⟨rfl, rfl⟩ := hd
    simp only [Cpu.step, Cpu.initIo, Cpu.submit, if_true] at hs
    split at hs
    · contradiction
    · split at hs
      · cases hs; rfl
      · split at hs
        · split at hs
          · cases hs; rfl
          · simp only [Option.bind_eq_bind, Option.bind_eq_some_iff, Option.pure_def, Option.some.injEq, Prod.mk.injEq] at hs
            obtain ⟨_, _, rfl, _⟩ := hs; rfl
        · cases hs; rfl
  | alias a s z i =>
    cases hd
    simp only [Cpu.step, Cpu.initAlias, Cpu.submit, if_true] at hs
    split at hs
    · cases hs; rfl
    · simp only [Option.bind_eq_bind, Option.bind_eq_some_iff] at hs
      obtain ⟨n, -, hs⟩ := hs
      split at hs <;> cases hs <;> rfl
  | destroy s z sp i =>
    cases hd
    simp only [Cpu.step, Cpu.destroy, Cpu.submit, if_true] at hs
    split at hs
    · simp only [Option.bind_eq_bind, Option.bind_eq_some_iff, Option.pure_def, Option.some.injEq, Prod.mk.injEq] at hs
      obtain ⟨_, _, rfl, _⟩ := hs; rfl
    · cases hs; rfl
  | a20 cl i =>
    cases hd
    simp only [Cpu.step, Cpu.setA20, if_true, Option.some.injEq, Prod.mk.injEq] at hs
    obtain ⟨rfl, -⟩ := hs
    split <;> rfl
  | service => exact absurd rfl hns
  | exec =>
    simp only [Cpu.step, Cpu.exec, Option.some.injEq, Prod.mk.injEq] at hs
    obtain ⟨rfl, -⟩ := hs
    split <;> rfl

/-- Relation between a run with deferred changes and the run with immediate ones. -/
structure Rel (c d : Cpu) : Prop where
  mem : c.mem.run c.changed = some d.mem
  io : c.io = d.io
  next : c.nextReq = d.nextReq
  pend : c.changed ≠ [] → c.pRegion = true
  noUpd : c.updated = [] ∧ c.pHandler = false
  rest : d.changed = [] ∧ d.pHandler = false

theorem service_rel {c : Cpu} (hp : c.changed ≠ [] → c.pRegion = true) (hu : c.pHandler = false) :
    (c.mem.run c.changed = none → c.service = none) ∧
    ∀ dm, c.mem.run c.changed = some dm → ∃ c', c.service = some c' ∧ c'.mem = dm ∧ c'.changed = [] ∧ c'.io = c.io ∧
      c'.nextReq = c.nextReq ∧ c'.updated = c.updated ∧ c'.pHandler = false := by
  unfold Cpu.service Cpu.serviceHandlers
  rw [hu]
  simp only [Bool.false_eq_true, if_false, Option.bind_some, Cpu.serviceMap]
  by_cases hch : c.changed = []
  · rw [hch]
    simp only [Space.run, Option.some.injEq, forall_eq', reduceCtorEq, false_implies, true_and]
    by_cases ha : c.pA20 <;> by_cases hr : c.pRegion <;>
      simp [ha, hr, hch, hu, Cpu.clearCaches, Space.run]
  · have hr := hp hch
    refine ⟨fun h => ?_, fun dm h => ?_⟩
    · by_cases ha : c.pA20 <;> simp [ha, hr, h, Cpu.clearCaches]
    · by_cases ha : c.pA20 <;> simp [ha, hr, h, hu, Cpu.clearCaches]

/-- Once the queue cannot be applied, the run ends in undefined behaviour at the next service. -/
theorem dead {c : Cpu} (h : c.mem.run c.changed = none) (hp : c.pRegion = true) (hu : c.pHandler = false) (rs : List Req)
    (hd : ∀ r ∈ rs, Deferred r) : c.run (rs ++ [.service]) = none := by
  induction rs generalizing c with
  | nil =>
    simp only [List.nil_append, Cpu.run, Cpu.step, (service_rel (fun _ => hp) hu).1 h, Option.map_none, Option.bind_none]
  | cons r rs ih =>
    simp only [List.cons_append, Cpu.run]
    cases hstep : c.step r with
    | none => rfl
    | some p =>
      obtain ⟨c', st⟩ := p
      simp only [Option.bind_some]
      have hr := hd r (by simp)
      by_cases hsv : r = .service
      · subst hsv
        simp only [Cpu.step, (service_rel (fun _ => hp) hu).1 h, Option.map_none] at hstep
        cases hstep
      · have key : (∃ t, c'.changed = c.changed ++ t) ∧ c'.pRegion = true ∧ c'.pHandler = false := by
          cases r with
          | ram s z i =>
            cases hr
            simp only [Cpu.step, Cpu.initRam, Cpu.submit, if_true] at hstep
            split at hstep <;> cases hstep
            · exact ⟨⟨[], by simp⟩, hp, hu⟩
            · exact ⟨⟨_, rfl⟩, rfl, hu⟩
          | rom s z b i =>
            cases hr
            simp only [Cpu.step, Cpu.initRom, Cpu.submit, if_true] at hstep
            split at hstep
            · cases hstep; exact ⟨⟨[], by simp⟩, hp, hu⟩
            · split at hstep <;> cases hstep
              · exact ⟨⟨[], by simp⟩, hp, hu⟩
              · exact ⟨⟨_, rfl⟩, rfl, hu⟩
          | io s z sp hh o i u =>
            obtain ⟨rfl, rfl⟩ := hr
            simp only [Cpu.step, Cpu.initIo, Cpu.submit, if_true] at hstep
            split at hstep
            · contradiction
            · split at hstep
              · cases hstep; exact ⟨⟨[], by simp⟩, hp, hu⟩
              · split at hstep
                · split at hstep
                  · cases hstep; exact ⟨⟨[], by simp⟩, hp, hu⟩
                  · simp only [Option.bind_eq_bind, Option.bind_eq_some_iff, Option.pure_def, Option.some.injEq, Prod.mk.injEq] at hstep
                    obtain ⟨_, _, rfl, _⟩ := hstep; exact ⟨⟨[], by simp⟩, hp, hu⟩
                · cases hstep; exact ⟨⟨_, rfl⟩, rfl, hu⟩
          | alias a s z i =>
            cases hr
            simp only [Cpu.step, Cpu.initAlias, Cpu.submit, if_true] at hstep
            split at hstep
            · cases hstep; exact ⟨⟨[], by simp⟩, hp, hu⟩
            · simp only [Option.bind_eq_bind, Option.bind_eq_some_iff] at hstep
              obtain ⟨n, -, hstep⟩ := hstep
              split at hstep <;> cases hstep
              · exact ⟨⟨_, rfl⟩, rfl, hu⟩
              · exact ⟨⟨[], by simp⟩, hp, hu⟩
          | destroy s z sp i =>
            cases hr
            simp only [Cpu.step, Cpu.destroy, Cpu.submit, if_true] at hstep
            split at hstep
            · simp only [Option.bind_eq_bind, Option.bind_eq_some_iff, Option.pure_def, Option.some.injEq, Prod.mk.injEq] at hstep
              obtain ⟨_, _, rfl, _⟩ := hstep; exact ⟨⟨[], by simp⟩, hp, hu⟩
            · cases hstep; exact ⟨⟨_, rfl⟩, rfl, hu⟩
          | a20 cl i =>
            cases hr
            simp only [Cpu.step, Cpu.setA20, if_true, Option.some.injEq, Prod.mk.injEq] at hstep
            obtain ⟨rfl, -⟩ := hstep
            split <;> exact ⟨⟨[], by simp⟩, hp, hu⟩
          | service => exact absurd rfl hsv
          | exec =>
            simp only [Cpu.step, Cpu.exec, Option.some.injEq, Prod.mk.injEq] at hstep
            obtain ⟨rfl, -⟩ := hstep
            split <;> exact ⟨⟨[], by simp⟩, hp, hu⟩
        have hmem := C07_map_untouched_until_service c c' r st hr hsv hstep
        obtain ⟨⟨t, ht⟩, h2, h3⟩ := key
        refine ih ?_ h2 h3 (fun r hr => hd r (by simp [hr]))
        rw [hmem, ht, space_run_append, h]
        rfl

/-- Submitting on both sides. -/
theorem rel_submit {c d : Cpu} (R : Rel c d) (op : Op) (rs : List Req) (k : Nat)
    (IH : ∀ (c d : Cpu), Rel c d → AliasAtRest c rs →
      (c.run (rs ++ [.service])).map (·.mem) = (d.run (rs.map immediate)).map (·.mem))
    (hd : ∀ r ∈ rs, Deferred r)
    (hrest : ∀ c', Cpu.submit { c with nextReq := c.nextReq + k } op true = some c' → AliasAtRest c' rs) :
    ((Cpu.submit { c with nextReq := c.nextReq + k } op true).bind (fun c => c.run (rs ++ [.service]))).map (·.mem) =
      ((Cpu.submit { d with nextReq := d.nextReq + k } op false).bind (fun d => d.run (rs.map immediate))).map (·.mem) := by
  have hr := hrest _ rfl
  simp only [Cpu.submit, if_true, Option.bind_some, Bool.false_eq_true, if_false, Option.bind_eq_bind] at hr ⊢
  have hrun : c.mem.run (c.changed ++ [op]) = d.mem.step op := by
    rw [space_run_append, R.mem]
    show (d.mem.step op).bind some = _
    simp
  cases hm : d.mem.step op with
  | none =>
    rw [hm] at hrun
    rw [dead (c := { c with nextReq := c.nextReq + k, changed := c.changed ++ [op], pRegion := true }) hrun rfl R.noUpd.2 rs hd]
    simp
  | some m =>
    simp only [Option.bind_some, Option.pure_def]
    refine IH _ (Cpu.clearCaches { d with mem := m, nextReq := d.nextReq + k }) ⟨?_, R.io, ?_, fun _ => rfl, R.noUpd, R.rest⟩ hr
    · show c.mem.run (c.changed ++ [op]) = some m
      rw [hrun, hm]
    · show c.nextReq + k = d.nextReq + k
      rw [R.next]

theorem run_rel (rs : List Req) (hd : ∀ r ∈ rs, Deferred r) : ∀ (c d : Cpu), Rel c d → AliasAtRest c rs →
    (c.run (rs ++ [.service])).map (·.mem) = (d.run (rs.map immediate)).map (·.mem) := by
  induction rs with
  | nil =>
    intro c d R _
    obtain ⟨c', h1, h2, -⟩ := (service_rel R.pend R.noUpd.2).2 _ R.mem
    simp [Cpu.run, Cpu.step, h1, h2]
  | cons r rs ih =>
    intro c d R hal
    have IH := ih (fun r hr => hd r (by simp [hr]))
    have hds : ∀ r ∈ rs, Deferred r := fun r hr => hd r (by simp [hr])
    have hr := hd r (by simp)
    obtain ⟨hrest1, hrest2⟩ := hal
    have sub : ∀ (op : Op) (k : Nat) (f : Cpu → Status), (∀ c', Cpu.submit { c with nextReq := c.nextReq + k } op true = some c' →
        AliasAtRest c' rs) →
        ((Cpu.submit { c with nextReq := c.nextReq + k } op true).bind (fun c => c.run (rs ++ [.service]))).map (·.mem) =
        ((Cpu.submit { d with nextReq := d.nextReq + k } op false).bind (fun d => d.run (rs.map immediate))).map (·.mem) := by
      intro op k _ h
      exact rel_submit R op rs k IH hds h
    simp only [List.cons_append, List.map_cons, Cpu.run]
    cases r with
    | ram s z i =>
      cases hr
      simp only [Cpu.step, Cpu.initRam, immediate] at hrest2 ⊢
      split
      · next hz =>
        simp only [hz, if_true, Option.some.injEq, Prod.mk.injEq] at hrest2
        exact IH c d R (hrest2 c _ ⟨rfl, rfl⟩)
      · next hz =>
        rw [← R.next]
        have := sub (.insert { start := s, stop := endOf maxAddr s z, type := .ram, buffOff := s } (.req c.nextReq)) 1 (fun _ => .success)
          (fun c' hc' => hrest2 c' .success (by simp [hz, hc']))
        rw [← R.next] at this
        simpa [Option.bind_assoc] using this
    | rom s z b i =>
      cases hr
      simp only [Cpu.step, Cpu.initRom, immediate] at hrest2 ⊢
      cases b with
      | none =>
        simp only [Option.some.injEq, Prod.mk.injEq] at hrest2
        exact IH c d R (hrest2 c _ ⟨rfl, rfl⟩)
      | some b =>
        simp only at hrest2 ⊢
        split
        · next hz =>
          simp only [hz, if_true, Option.some.injEq, Prod.mk.injEq] at hrest2
          exact IH c d R (hrest2 c _ ⟨rfl, rfl⟩)
        · next hz =>
          rw [← R.next]
          have := sub (.insert { start := s, stop := endOf maxAddr s z, type := .rom, romPtr := b, buffOff := s } (.req c.nextReq)) 1 (fun _ => .success)
            (fun c' hc' => hrest2 c' .success (by simp [hz, hc']))
          rw [← R.next] at this
          simpa [Option.bind_assoc] using this
    | io s z sp h o i u =>
      obtain ⟨rfl, rfl⟩ := hr
      simp only [Cpu.step, Cpu.initIo, immediate, ne_eq, not_true_eq_false, if_false] at hrest2 ⊢
      split
      · next hz =>
        simp only [hz, if_true, Option.some.injEq, Prod.mk.injEq] at hrest2
        exact IH c d R (hrest2 c _ ⟨rfl, rfl⟩)
      · next hz =>
        cases sp with
        | true =>
          simp only [hz, if_false, if_true] at hrest2 ⊢
          split
          · next hb =>
            simp only [hb, if_true, Option.some.injEq, Prod.mk.injEq] at hrest2
            exact IH c d R (hrest2 c _ ⟨rfl, rfl⟩)
          · next hb =>
            simp only [hb, if_false] at hrest2
            rw [← R.next, ← R.io]
            cases hio : c.io.step (.insert { start := s, stop := endOf maxPort s z, type := .pmio, handlers := { pmioDefaults h with r64 := .null, w64 := .null }, opaq := o } (.req c.nextReq)) with
            | none => simp
            | some io' =>
              simp only [hio, Option.bind_eq_bind, Option.bind_some, Option.pure_def, Option.some.injEq, Prod.mk.injEq] at hrest2 ⊢
              refine IH _ { d with io := io', nextReq := c.nextReq + 1 } ⟨R.mem, rfl, rfl, R.pend, R.noUpd, R.rest⟩ (hrest2 _ .success ⟨rfl, rfl⟩)
        | false =>
          simp only [hz, Bool.false_eq_true, if_false] at hrest2 ⊢
          rw [← R.next]
          have := sub (.insert { start := s, stop := endOf maxAddr s z, type := .mmio, handlers := mmioDefaults h, opaq := o } (.req c.nextReq)) 1 (fun _ => .success)
            (fun c' hc' => hrest2 c' .success (by simp [hc']))
          rw [← R.next] at this
          simpa [Option.bind_assoc] using this
    | alias a s z i =>
      cases hr
      have hch := hrest1 a s z true rfl
      have hmm : c.mem = d.mem := by have := R.mem; rw [hch] at this; simpa [Space.run] using this
      simp only [Cpu.step, Cpu.initAlias, immediate] at hrest2 ⊢
      split
      · next hz =>
        simp only [hz, if_true, Option.some.injEq, Prod.mk.injEq] at hrest2
        exact IH c d R (hrest2 c _ ⟨rfl, rfl⟩)
      · next hz =>
        simp only [hz, if_false] at hrest2
        have hg2 : getIt c.mem.nodes s = getIt d.mem.nodes s := by rw [hmm]
        rw [hg2] at hrest2 ⊢
        cases hg : getIt d.mem.nodes s with
        | none => simp
        | some n =>
          simp only [hg, Option.bind_eq_bind, Option.bind_some] at hrest2 ⊢
          split
          · next hok =>
            rw [if_pos hok] at hrest2
            rw [← R.next]
            have := sub (.insert { start := a, stop := endOf maxAddr a z, type := .alias, aliasOff := s - n.reg.start, aliased := some n.oid } (.req c.nextReq)) 1 (fun _ => .success)
              (fun c' hc' => hrest2 c' .success (by simp [hc']))
            rw [← R.next] at this
            simpa [Option.bind_assoc] using this
          · next hok =>
            rw [if_neg hok] at hrest2
            simp only [Option.pure_def, Option.some.injEq, Prod.mk.injEq] at hrest2
            exact IH c d R (hrest2 c _ ⟨rfl, rfl⟩)
    | destroy s z sp i =>
      cases hr
      simp only [Cpu.step, Cpu.destroy, immediate] at hrest2 ⊢
      cases sp with
      | true =>
        simp only [if_true] at hrest2 ⊢
        rw [← R.io]
        cases hio : c.io.step (.erase (s % 65536) (endOf maxPort (s % 65536) z)) with
        | none => simp
        | some io' =>
          simp only [hio, Option.bind_eq_bind, Option.bind_some, Option.pure_def, Option.some.injEq, Prod.mk.injEq] at hrest2 ⊢
          refine IH _ { d with io := io' } ⟨R.mem, rfl, R.next, R.pend, R.noUpd, R.rest⟩ (hrest2 _ .success ⟨rfl, rfl⟩)
      | false =>
        simp only [Bool.false_eq_true, if_false] at hrest2 ⊢
        have := sub (.erase s (endOf maxAddr s z)) 0 (fun _ => .success)
          (fun c' hc' => hrest2 c' .success (by simp only [Nat.add_zero] at hc'; simp [hc']))
        simp only [Nat.add_zero] at this
        simpa [Option.bind_assoc] using this
    | a20 cl i =>
      cases hr
      simp only [Cpu.step, immediate, Option.bind_some, Option.some.injEq, Prod.mk.injEq] at hrest2 ⊢
      refine IH _ _ ?_ (hrest2 _ .success ⟨rfl, rfl⟩)
      have e1 : (c.setA20 cl true).mem = c.mem ∧ (c.setA20 cl true).changed = c.changed ∧ (c.setA20 cl true).io = c.io ∧
          (c.setA20 cl true).nextReq = c.nextReq ∧ (c.setA20 cl true).pRegion = c.pRegion ∧
          (c.setA20 cl true).updated = c.updated ∧ (c.setA20 cl true).pHandler = c.pHandler := by
        unfold Cpu.setA20; dsimp only; split <;> simp
      have e2 : (d.setA20 cl false).mem = d.mem ∧ (d.setA20 cl false).io = d.io ∧ (d.setA20 cl false).nextReq = d.nextReq ∧
          (d.setA20 cl false).changed = d.changed ∧ (d.setA20 cl false).pHandler = d.pHandler := by
        unfold Cpu.setA20; dsimp only; split <;> simp [Cpu.clearCaches]
      obtain ⟨a1, a2, a3, a4, a5, a6, a7⟩ := e1
      obtain ⟨b1, b2, b3, b4, b5⟩ := e2
      exact ⟨by rw [a1, a2, b1]; exact R.mem, by rw [a3, b2]; exact R.io, by rw [a4, b3]; exact R.next, by rw [a2, a5]; exact R.pend,
        by rw [a6, a7]; exact R.noUpd, by rw [b4, b5]; exact R.rest⟩
    | service =>
      obtain ⟨c', h1, h2, h3, h4, h5, h6, h7⟩ := (service_rel R.pend R.noUpd.2).2 _ R.mem
      have hdr : d.mem.run d.changed = some d.mem := by rw [R.rest.1]; rfl
      obtain ⟨d', g1, g2, g3, g4, g5, -, g7⟩ := (service_rel (c := d) (by simp [R.rest.1]) R.rest.2).2 _ hdr
      simp only [Cpu.step, immediate, h1, g1, Option.map_some, Option.bind_some, Option.some.injEq, Prod.mk.injEq] at hrest2 ⊢
      refine IH c' d' ⟨by rw [h3, h2, g2]; rfl, by rw [h4, g4]; exact R.io, by rw [h5, g5]; exact R.next, by simp [h3],
        ⟨by rw [h6]; exact R.noUpd.1, h7⟩, ⟨g3, g7⟩⟩ (hrest2 c' .success ⟨rfl, rfl⟩)
    | exec =>
      simp only [Cpu.step, immediate, Option.bind_some, Option.some.injEq, Prod.mk.injEq] at hrest2 ⊢
      have e : ∀ x : Cpu, x.exec.mem = x.mem ∧ x.exec.changed = x.changed ∧ x.exec.io = x.io ∧ x.exec.nextReq = x.nextReq ∧
          x.exec.pRegion = x.pRegion ∧ x.exec.updated = x.updated ∧ x.exec.pHandler = x.pHandler := by
        intro x; unfold Cpu.exec; split <;> simp
      obtain ⟨a1, a2, a3, a4, a5, a6, a7⟩ := e c
      obtain ⟨b1, b2, b3, b4, b5, b6, b7⟩ := e d
      refine IH c.exec d.exec ⟨?_, ?_, ?_, ?_, ?_, ?_⟩ (hrest2 _ .success ⟨rfl, rfl⟩)
      · rw [a1, a2, b1]; exact R.mem
      · rw [a3, b3]; exact R.io
      · rw [a4, b4]; exact R.next
      · rw [a2, a5]; exact R.pend
      · rw [a6, a7]; exact R.noUpd
      · rw [b2, b7]; exact R.rest

/-- **C07 (partial)**: any sequence of deferred region requests, a20 requests, guest execution and interrupt services, followed
by a service, ends in the memory map that the same requests produce when each takes effect immediately; in particular nothing is
lost or applied twice, whichever interrupts are pending together.  (Both sides may be undefined behaviour, then both are.)
Missing: alias requests are only covered when no other change is waiting, see `C07_deferred_alias_violation`; handler updates
are in C08. -/
theorem C07_deferred_equals_immediate_partial (rs : List Req) (hd : ∀ r ∈ rs, Deferred r) (hal : AliasAtRest Cpu.init rs) :
    (Cpu.init.run (rs ++ [.service])).map (·.mem) = (Cpu.init.run (rs.map immediate)).map (·.mem) :=
  run_rel rs hd Cpu.init Cpu.init ⟨rfl, rfl, rfl, by simp [Cpu.init], by simp [Cpu.init], by simp [Cpu.init]⟩ hal

/-- A mixture of requests that meets the hypotheses. -/
example : (Cpu.init.run [.ram 0 0x8000000 true, .a20 false true, .exec, .io 0xA0000 0x20000 false {} 1 true 0, .service,
      .alias 0xF0000000 0 0x10000 true, .destroy 0x1000 0x1000 false true, .service]).map (·.mem) =
    (Cpu.init.run [.ram 0 0x8000000 false, .a20 false false, .exec, .io 0xA0000 0x20000 false {} 1 false 0, .service,
      .alias 0xF0000000 0 0x10000 false, .destroy 0x1000 0x1000 false false]).map (·.mem) := by
  refine C07_deferred_equals_immediate_partial [.ram 0 0x8000000 true, .a20 false true, .exec, .io 0xA0000 0x20000 false {} 1 true 0, .service,
      .alias 0xF0000000 0 0x10000 true, .destroy 0x1000 0x1000 false true] (by simp [Deferred]) ?_
  refine ⟨by simp, fun c' st h => ?_⟩
  cases h
  refine ⟨by simp, fun c' st h => ?_⟩
  cases h
  refine ⟨by simp, fun c' st h => ?_⟩
  cases h
  refine ⟨by simp, fun c' st h => ?_⟩
  cases h
  refine ⟨by simp, fun c' st h => ?_⟩
  cases h
  refine ⟨fun _ _ _ _ _ => rfl, fun c' st h => ?_⟩
  exact ⟨by simp, fun _ _ _ => trivial⟩

/-- **C07 is violated by the code**: the target of a deferred alias is looked up when the request is made, so an alias of a ram
region that was itself requested (and deferred) just before is refused, although the same two requests succeed when
immediate. -/
theorem C07_deferred_alias_violation :
    (∃ c c', Cpu.init.step (.ram 0x10000 0x4000 true) = some (c, .success) ∧ c.step (.alias 0x20000 0x10000 0x4000 true) = some (c', .invalidParameter)) ∧
    (∃ c c', Cpu.init.step (.ram 0x10000 0x4000 false) = some (c, .success) ∧ c.step (.alias 0x20000 0x10000 0x4000 false) = some (c', .success)) :=
  ⟨⟨_, _, rfl, rfl⟩, ⟨_, _, rfl, rfl⟩⟩

end Verif.Region
