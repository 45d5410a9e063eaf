import Verif.Spec.Tramp
import Verif.Lemmas.Bits
import Verif.Lemmas.TcLink
import Verif.Lemmas.TcHook

/-
Lemmas for C91: links and predictions that lead to the return address of a trampoline.
-/
namespace Verif.Tc
open Spec (Leads dest NoAlias CallOk CallsOk Fair FairRun noTramp)

/-- Links and predictions only disappear. -/
structure Fades (s s' : St) : Prop where
  jmp : ∀ i, (s'.jmp i).flags &&& INVALID = 0#32 → s'.jmp i = s.jmp i
  rsb : ∀ i, (s'.rsb i).valid = true → s'.rsb i = s.rsb i

theorem Fades.of {s s' : St} (h1 : s'.jmp = s.jmp) (h2 : s'.rsb = s.rsb) : Fades s s' :=
  ⟨fun i _ => by rw [h1], fun i _ => by rw [h2]⟩
theorem Fades.trans {s1 s2 s3 : St} (h : Fades s1 s2) (g : Fades s2 s3) : Fades s1 s3 :=
  ⟨fun i hi => by have e := g.jmp i hi; rw [e] at hi ⊢; exact h.jmp i hi, fun i hi => by have e := g.rsb i hi; rw [e] at hi ⊢; exact h.rsb i hi⟩

theorem fades_drop (s : St) (t : Tc) : Fades s (drop s t) := let u := unlink_mono (s := s) t.virt; ⟨u.2.1, u.2.2⟩
theorem fades_drops (l : List Tc) (s : St) : Fades s (l.foldl drop s) := by
  induction l generalizing s with
  | nil => exact .of rfl rfl
  | cons t l ih => exact (fades_drop s t).trans (ih _)
theorem fades_invalidate (s : St) (p : BitVec 32) (n : Nat) : Fades s (invalidate s p n) := by
  unfold invalidate
  dsimp only
  split
  · exact .of rfl rfl
  · exact (fades_drops _ s).trans (.of rfl rfl)
theorem fades_invalidateHook (s : St) (p : BitVec 32) : Fades s (invalidateHook s p) := by
  unfold invalidateHook
  dsimp only
  split
  · exact .of rfl rfl
  · exact (fades_drop s _).trans (.of rfl rfl)
theorem fades_flush (s : St) : Fades s (rsbFlush s) := ⟨fun _ _ => rfl, fun _ h => by cases h⟩
theorem fades_flushPage (s : St) (a : BitVec 32) : Fades s (rsbFlushPage s a) := ⟨fun _ _ => rfl, fun _ h => (rsbFlushPage_valid h).2.2⟩
theorem kill_dead (e : Elem) : ¬ e.kill.flags &&& INVALID = 0#32 := by show ¬ INVALID &&& INVALID = 0#32; decide
theorem fades_all (s : St) : Fades s (unlinkAll s) := ⟨fun _ h => absurd h (kill_dead _), fun _ h => by cases h⟩
theorem fades_page (s : St) (v : BitVec 32) : Fades s (unlinkPage s v) := by
  unfold unlinkPage
  dsimp only
  refine Fades.trans (s2 := { s with jmp := fun i => if i ∈ (s.jmpMap (page v)).map jidx then (s.jmp i).kill else s.jmp i, jmpMap := upd s.jmpMap (page v) [] }) ?_ (fades_flushPage _ v)
  refine ⟨fun i h => ?_, fun _ _ => rfl⟩
  dsimp only at h ⊢
  split at h
  · exact absurd h (kill_dead _)
  · rename_i h'; rw [if_neg h']

/-- Nothing leads to `ret` past the loop. -/
structure Clear (ret : BitVec 32) (s : St) : Prop where
  leads : ¬ Leads s ret
  mode : s.flags &&& INVALID = 0#32

theorem Clear.fades {ret : BitVec 32} {s s' : St} (h : Clear ret s) (f : Fades s s') (hm : s'.flags &&& INVALID = 0#32) : Clear ret s' := by
  refine ⟨?_, hm⟩
  rintro (⟨i, h1, h2⟩ | ⟨i, t, h1, h2, h3⟩)
  · have e := f.jmp i h1; rw [e] at h1 h2; exact h.leads (.inl ⟨i, h1, h2⟩)
  · have e := f.rsb i h1; rw [e] at h1 h2 h3; exact h.leads (.inr ⟨i, t, h1, h2, h3⟩)

theorem Clear.same {ret : BitVec 32} {s s' : St} (h : Clear ret s) (h1 : s'.jmp = s.jmp) (h2 : s'.rsb = s.rsb) (h3 : s'.flags = s.flags) : Clear ret s' :=
  h.fades (.of h1 h2) (by rw [h3]; exact h.mode)

theorem clear_push {ret : BitVec 32} {s : St} (h : Clear ret s) {tc : Option Tc} {off : Nat} {target : BitVec 32}
    (ht : ∀ t, tc = some t → target - t.csBase ≠ ret) : Clear ret (rsbPush s tc off target) := by
  refine ⟨?_, h.mode⟩
  rintro (⟨i, h1, h2⟩ | ⟨i, t, h1, h2, h3⟩)
  · exact h.leads (.inl ⟨i, h1, h2⟩)
  · unfold rsbPush at h1 h2 h3
    dsimp only at h1 h2 h3
    by_cases hi : i = s.rsbPtr - 1#6
    · subst hi; rw [upd_same] at h2 h3; exact ht t h2 h3
    · rw [upd_ne _ _ hi] at h1 h2 h3; exact h.leads (.inr ⟨i, t, h1, h2, h3⟩)

theorem clear_link {ret : BitVec 32} {s : St} (h : Clear ret s) {t : Tc} (ht : t.virt - t.csBase ≠ ret) : Clear ret (linkJmp s t) := by
  refine ⟨?_, h.mode⟩
  rintro (⟨i, h1, h2⟩ | ⟨i, u, h1, h2, h3⟩)
  · unfold linkJmp at h1 h2
    dsimp only at h1 h2
    by_cases hi : i = jidx t.virt
    · subst hi; rw [upd_same] at h2; exact ht h2
    · rw [upd_ne _ _ hi] at h1 h2; exact h.leads (.inl ⟨i, h1, h2⟩)
  · exact h.leads (.inr ⟨i, u, h1, h2, h3⟩)

theorem flags_drop (s : St) (t : Tc) : (drop s t).flags = s.flags := by unfold drop unlink rsbFlushPage; dsimp only; split <;> rfl
theorem flags_drops (l : List Tc) (s : St) : (l.foldl drop s).flags = s.flags := by
  induction l generalizing s with
  | nil => rfl
  | cons t l ih => exact (ih _).trans (flags_drop s t)
theorem flags_invalidate (s : St) (p : BitVec 32) (n : Nat) : (invalidate s p n).flags = s.flags := by
  unfold invalidate; dsimp only; split
  · rfl
  · exact flags_drops _ s
theorem flags_invalidateHook (s : St) (p : BitVec 32) : (invalidateHook s p).flags = s.flags := by
  unfold invalidateHook; dsimp only; split
  · rfl
  · exact flags_drop s _
theorem write_fades (s : St) (p : BitVec 32) (bs : List (BitVec 8)) : Fades s (Tc.write s p bs) ∧ (Tc.write s p bs).flags = s.flags := by
  unfold Tc.write; dsimp only; split
  · exact ⟨(fades_invalidate s p _).trans (.of rfl rfl), flags_invalidate s p _⟩
  · exact ⟨.of rfl rfl, rfl⟩
theorem ite_fades (c : Bool) (s : St) (p : BitVec 32) (n : Nat) :
    Fades s (if c then invalidate s p n else s) ∧ (if c then invalidate s p n else s).flags = s.flags := by
  cases c
  · exact ⟨.of rfl rfl, rfl⟩
  · exact ⟨fades_invalidate s p n, flags_invalidate s p n⟩
theorem writeCross_fades (s : St) (v : BitVec 32) (bs : List (BitVec 8)) : Fades s (Tc.writeCross s v bs) ∧ (Tc.writeCross s v bs).flags = s.flags := by
  unfold Tc.writeCross
  extract_lets last ps pe n1 c1 c2 s1 s2
  have h1 : Fades s s1 ∧ s1.flags = s.flags := ite_fades c1 s ps n1
  have h2 : Fades s1 s2 ∧ s2.flags = s1.flags := ite_fades c2 s1 pe (bs.length - n1)
  exact ⟨(h1.1.trans h2.1).trans (.of rfl rfl), h2.2.trans h1.2⟩

theorem invalid_mode (h e : BitVec 32) : modeOf h e &&& INVALID = 0#32 := by
  unfold modeOf HFLG_CONST EFLAGS_CONST INVALID; bits32

/-- The running block's actions keep it so. -/
theorem clear_inner {ret : BitVec 32} {d : Decoder} {s : St} (h : Clear ret s) {o : Op} (ho : CallOk s ret o) (hi : o.inner = true) :
    Clear ret (step d s o).2 := by
  cases o with
  | run v link => cases hi
  | jump v => cases hi
  | ret v => cases hi
  | call off target => exact clear_push h ho
  | event target => exact clear_push h (fun t e => by cases e)
  | advance v => exact h.same rfl rfl rfl
  | write p bs => have w := write_fades s p bs; exact h.fades w.1 (by show (Tc.write s p bs).flags &&& _ = _; rw [w.2]; exact h.mode)
  | writeCross v bs => have w := writeCross_fades s v bs; exact h.fades w.1 (by show (Tc.writeCross s v bs).flags &&& _ = _; rw [w.2]; exact h.mode)
  | setMode b hf e => exact h.fades (.of rfl rfl) (invalid_mode hf e)
  | invlpg v to => exact h.fades (Fades.trans (s1 := s) (s2 := { s with map := upd s.map (page v) to }) (.of rfl rfl) (fades_page _ v)) h.mode
  | flush map => exact h.fades (Fades.trans (s1 := s) (s2 := { s with map := map }) (.of rfl rfl) (fades_all _)) h.mode
  | clear => exact h.fades (⟨fun _ h => absurd h (kill_dead _), fun _ h => by cases h⟩) h.mode
  | purge => exact h.fades (⟨fun _ h => absurd h (kill_dead _), fun _ h => by cases h⟩) h.mode
  | flushCall v => exact h.fades (fades_flushPage s v) h.mode
  | hookAdd a k =>
    refine h.fades (Fades.trans (s2 := { s with smc := upd s.smc (page (phys s.map a)) true }) (.of rfl rfl)
      ((fades_invalidate _ (phys s.map a) 1).trans (.of rfl rfl))) ?_
    show (invalidate _ _ _).flags &&& _ = _
    rw [flags_invalidate]; exact h.mode
  | hookRemove a =>
    show Clear ret (hookRemove s a).2
    unfold hookRemove
    split
    · exact h
    · refine h.fades (Fades.trans (s2 := { s with hooks := upd s.hooks a none }) (.of rfl rfl) (fades_invalidateHook _ _)) ?_
      show (invalidateHook _ _).flags &&& _ = _
      rw [flags_invalidateHook]; exact h.mode
  | serviced => exact h.same rfl rfl rfl

theorem clear_act {ret : BitVec 32} {d : Decoder} {s : St} (h : Clear ret s) {o : Op} (ho : CallOk s ret o) : Clear ret (acts d s [o]) := by
  unfold acts acts
  split
  · rename_i hi; exact clear_inner h ho hi
  · exact h
theorem clear_acts {ret : BitVec 32} {d : Decoder} {os : List Op} {s : St} (h : Clear ret s) (ho : CallsOk d ret s os) : Clear ret (acts d s os) := by
  induction os generalizing s with
  | nil => exact h
  | cons o os ih => exact ih (clear_act h ho.1) ho.2

theorem clear_untramp {ret : BitVec 32} {s : St} (h : Clear ret s) : Clear ret (untramp s) := by
  refine h.fades (.of rfl rfl) ?_
  have := h.mode
  show s.flags &&& ~~~TRAMP &&& INVALID = 0#32
  have e : s.flags &&& ~~~TRAMP &&& INVALID = (s.flags &&& INVALID) &&& ~~~TRAMP := by
    generalize s.flags = f; unfold TRAMP INVALID; bits32
  rw [e, this]; rfl

theorem clear_mainLoop {ret : BitVec 32} {d : Decoder} {s : St} (h : Clear ret s) {v : BitVec 32} {link : Bool} (hv : v - s.csBase ≠ ret)
    (ha : NoAlias s v) : Clear ret (mainLoop d s v link).2 := by
  unfold mainLoop
  extract_lets pc s1 r s2 full s3 s4 src
  have h1 : Clear ret s1 := h.same rfl rfl rfl
  have e1 : s1.csBase = s.csBase := rfl
  have es : search s1 pc = search s (phys s.map v) := rfl
  split
  · rename_i t ht
    rw [es] at ht
    have hs := search_in ht
    have hq : t.virt - t.csBase ≠ ret := by rw [ha t ht, hs.2.1]; exact hv
    cases link with
    | false => exact h1.same rfl rfl rfl
    | true => exact (clear_link h1 hq).same rfl rfl rfl
  · have hk : _ ∧ _ ∧ r.1.virt = v ∧ r.1.csBase = s1.csBase ∧ _ := translate_key d s1 v
    have hq : r.1.virt - r.1.csBase ≠ ret := by rw [hk.2.2.1, hk.2.2.2.1]; exact hv
    have h2 : Clear ret s2 := h1.same rfl rfl rfl
    have hp : Clear ret s3 := by
      show Clear ret (if full = true then purge s2 else s2)
      split
      · exact h2.fades (⟨fun _ h => absurd h (kill_dead _), fun _ h => by cases h⟩) h2.mode
      · exact h2
    clear_value r s3
    split
    · have hi : Clear ret s4 := hp.same rfl rfl rfl
      clear_value s4
      have hs : Clear ret src := by
        show Clear ret (if (link && !full) = true then linkJmp s4 r.1 else s4)
        split
        · exact clear_link hi hq
        · exact hi
      exact hs.same rfl rfl rfl
    · exact hp.same rfl rfl rfl

theorem clear_pop {ret : BitVec 32} {s : St} (h : Clear ret s) : Clear ret (rsbPop s).2 := by
  have hp : Fades s { s with rsb := upd s.rsb s.rsbPtr (s.rsb s.rsbPtr).clear, rsbPtr := s.rsbPtr + 1#6 } := by
    refine ⟨fun _ _ => rfl, fun i hi => ?_⟩
    dsimp only at hi ⊢
    by_cases e : i = s.rsbPtr
    · subst e; rw [upd_same] at hi; cases hi
    · rw [upd_ne _ _ e]
  unfold rsbPop
  dsimp only
  split
  · exact h.fades (fades_flush s) h.mode
  · split
    · exact h.fades hp h.mode
    · split
      · exact h.fades hp h.mode
      · exact h.fades (fades_flush s) h.mode

/-- A predicted return does not go to `ret`. -/
theorem pop_away {ret : BitVec 32} {s : St} (h : Clear ret s) {p : Tc × Nat} (e : (rsbPop s).1 = some p) : s.now - s.csBase ≠ ret := by
  unfold rsbPop at e
  dsimp only at e
  split at e
  · cases e
  · rename_i hv
    split at e
    · cases e
    · rename_i t ht
      split at e
      · rename_i hc
        intro hr
        refine h.leads (.inr ⟨s.rsbPtr, t, by simpa using hv, ht, ?_⟩)
        rw [← hc.1, ← hc.2.1]; exact hr
      · cases e
theorem jump_away {ret : BitVec 32} {s : St} (h : Clear ret s) {v : BitVec 32} {t : Tc} (e : jumpTo s v = some t) : v - s.csBase ≠ ret := by
  unfold jumpTo at e
  dsimp only at e
  split at e
  · rename_i hc
    intro hr
    refine h.leads (.inl ⟨jidx v, by rw [hc.2.2]; exact h.mode, ?_⟩)
    rw [hc.1, hc.2.1]; exact hr
  · cases e
theorem pop_csBase (s : St) : (rsbPop s).2.csBase = s.csBase ∧ (rsbPop s).2.now = s.now := by
  unfold rsbPop; dsimp only
  split
  · exact ⟨rfl, rfl⟩
  · split
    · exact ⟨rfl, rfl⟩
    · split <;> exact ⟨rfl, rfl⟩
theorem pop_cache (s : St) : (rsbPop s).2.cache = s.cache ∧ (rsbPop s).2.map = s.map ∧ (rsbPop s).2.flags = s.flags := by
  unfold rsbPop; dsimp only
  split
  · exact ⟨rfl, rfl, rfl⟩
  · split
    · exact ⟨rfl, rfl, rfl⟩
    · split <;> exact ⟨rfl, rfl, rfl⟩

theorem flags_inv_step {d : Decoder} {s : St} (h : s.flags &&& INVALID = 0#32) (o : Op) : (step d s o).2.flags &&& INVALID = 0#32 := by
  cases o with
  | setMode b hf e => exact invalid_mode hf e
  | run v link =>
    show (mainLoop d s v link).2.flags &&& _ = _
    have e : (mainLoop d s v link).2.flags = s.flags := by
      unfold mainLoop
      dsimp only
      split
      · cases link <;> rfl
      · split
        · split <;> split <;> rfl
        · split <;> rfl
    rw [e]; exact h
  | jump v => show (step d s (.jump v)).2.flags &&& _ = _; unfold step; dsimp only; split <;> exact h
  | ret v =>
    unfold step; dsimp only
    have e := (pop_cache { s with now := v }).2.2
    split <;> (dsimp only; rw [e]; exact h)
  | call off target => exact h
  | event target => exact h
  | advance v => exact h
  | write p bs => show (Tc.write s p bs).flags &&& _ = _; rw [(write_fades s p bs).2]; exact h
  | writeCross v bs => show (Tc.writeCross s v bs).flags &&& _ = _; rw [(writeCross_fades s v bs).2]; exact h
  | invlpg v to => exact h
  | flush map => exact h
  | clear => exact h
  | purge => exact h
  | flushCall v => exact h
  | hookAdd a k => show (invalidate _ _ _).flags &&& _ = _; rw [flags_invalidate]; exact h
  | hookRemove a =>
    show (hookRemove s a).2.flags &&& _ = _
    unfold hookRemove
    split
    · exact h
    · show (invalidateHook _ _).flags &&& _ = _
      rw [flags_invalidateHook]; exact h
  | serviced => exact h
theorem flags_inv_hist {d : Decoder} (os : List Op) {s : St} (h : s.flags &&& INVALID = 0#32) : (hist d s os).flags &&& INVALID = 0#32 := by
  induction os generalizing s with
  | nil => exact h
  | cons o os ih => exact ih (flags_inv_step h o)

/-- One step of the loop. -/
theorem clear_step {d : Decoder} {L : Loop} (h : Clear L.ret L.s) {e : Ev} (hf : Fair d L e) : Clear L.ret (L.step d e).s ∧ (L.step d e).ret = L.ret := by
  have hround : ∀ (L' : Loop) (v : BitVec 32) (link : Bool), L'.ret = L.ret → Clear L.ret L'.s → NoAlias L'.s v →
      Clear L.ret (round d L' v link).s ∧ (round d L' v link).ret = L.ret := by
    intro L' v link hr hc ha
    unfold round
    split
    · rename_i hg
      refine ⟨clear_untramp (clear_mainLoop hc ?_ ha), hr⟩
      unfold goesOn at hg
      rw [← hr]; simpa using hg
    · exact ⟨hc.same rfl rfl rfl, hr⟩
  unfold Loop.step
  split
  · exact ⟨h, rfl⟩
  · cases e with
    | act o => exact ⟨clear_act h hf, rfl⟩
    | next v link => exact hround L v link rfl h hf
    | fault v os hd =>
      dsimp only
      split
      · exact ⟨clear_untramp (clear_mainLoop (clear_acts (clear_untramp h) hf.1) hf.2.1 hf.2.2), rfl⟩
      · exact ⟨h.same rfl rfl rfl, rfl⟩
    | jump v link =>
      dsimp only
      split
      · exact ⟨h.same rfl rfl rfl, rfl⟩
      · exact hround _ v link rfl (h.same rfl rfl rfl) hf
    | ret v link =>
      dsimp only
      have h0 : Clear L.ret { L.s with now := v } := h.same rfl rfl rfl
      have hp := clear_pop h0
      have hq := pop_cache { L.s with now := v }
      have hb := pop_csBase { L.s with now := v }
      generalize rsbPop { L.s with now := v } = r at hp hq hb
      obtain ⟨r1, r2⟩ := r
      have ha : NoAlias r2 v := by
        intro t ht
        refine hf t ?_
        unfold search at ht ⊢
        dsimp only at hq hb
        rw [hq.1, hq.2.1, hq.2.2, hb.1] at ht
        exact ht
      cases r1 with
      | some p => exact ⟨Clear.same hp rfl rfl rfl, rfl⟩
      | none => exact hround _ v link rfl (Clear.same hp rfl rfl rfl) ha

theorem clear_run {d : Decoder} (es : List Ev) {L : Loop} (h : Clear L.ret L.s) (hf : FairRun d L es) : Clear L.ret (L.run d es).s ∧ (L.run d es).ret = L.ret := by
  induction es generalizing L with
  | nil => exact ⟨h, rfl⟩
  | cons e es ih =>
    have hs := clear_step h hf.1
    have := ih (L := L.step d e) (by rw [hs.2]; exact hs.1) hf.2
    rw [hs.2] at this
    exact this

/-- An event at `ret` ends the loop. -/
theorem step_ends {d : Decoder} {L : Loop} (h : Clear L.ret L.s) (hd : L.done = false) {e : Ev} {v : BitVec 32} (hv : dest e = some v)
    (hr : v - L.s.csBase = L.ret) : (L.step d e).done = true ∧ (L.step d e).log = L.log ∧ (L.step d e).s.now = v := by
  have hround : ∀ (L' : Loop) (link : Bool), L'.ret = L.ret → L'.s.csBase = L.s.csBase → L'.log = L.log →
      (round d L' v link).done = true ∧ (round d L' v link).log = L.log ∧ (round d L' v link).s.now = v := by
    intro L' link h1 h2 h3
    unfold round
    have : goesOn L' v = false := by unfold goesOn; rw [h1, h2, hr]; simp
    rw [this]
    exact ⟨rfl, h3, rfl⟩
  unfold Loop.step
  rw [hd]
  cases e with
  | act o => cases hv
  | next w link => cases hv; exact hround L link rfl rfl rfl
  | fault w os hh =>
    cases hv
    have : goesOn L v = false := by unfold goesOn; rw [hr]; simp
    dsimp only
    rw [this]
    exact ⟨rfl, rfl, rfl⟩
  | jump w link =>
    cases hv
    have : jumpTo L.s v = none := by
      cases e : jumpTo L.s v with
      | none => rfl
      | some t => exact absurd hr (jump_away h e)
    dsimp only
    rw [this]
    exact hround _ link rfl rfl rfl
  | ret w link =>
    cases hv
    have h0 : Clear L.ret { L.s with now := v } := h.same rfl rfl rfl
    have hp := @pop_away _ _ h0
    have hb := pop_csBase { L.s with now := v }
    dsimp only
    generalize rsbPop { L.s with now := v } = r at hp hb
    obtain ⟨r1, r2⟩ := r
    cases r1 with
    | some p => exact absurd hr (hp rfl)
    | none => exact hround _ link rfl hb.1 rfl

/-- The loop ends only at `ret`. -/
theorem step_done {d : Decoder} {L : Loop} (hd : L.done = false) {e : Ev} (h : (L.step d e).done = true) :
    (L.step d e).s.now - (L.step d e).s.csBase = L.ret ∧ (L.step d e).log = L.log := by
  have hround : ∀ (L' : Loop) (v : BitVec 32) (link : Bool), L'.done = false → L'.ret = L.ret → L'.log = L.log → (round d L' v link).done = true →
      (round d L' v link).s.now - (round d L' v link).s.csBase = L.ret ∧ (round d L' v link).log = L.log := by
    intro L' v link h1 h2 h3 h4
    unfold round at h4 ⊢
    cases hg : goesOn L' v with
    | true => rw [hg] at h4; exact absurd (show L'.done = true from h4) (by rw [h1]; simp)
    | false =>
      refine ⟨?_, h3⟩
      unfold goesOn at hg
      show v - L'.s.csBase = _
      rw [← h2]; simpa using hg
  obtain ⟨s, ret, done, log⟩ := L
  dsimp only at hd; subst hd
  unfold Loop.step at h ⊢
  cases e with
  | act o => exact Bool.noConfusion (show false = true from h)
  | next v link => exact hround _ v link rfl rfl rfl h
  | fault v os hh =>
    dsimp only at h ⊢
    cases hg : goesOn ⟨s, ret, false, log⟩ v with
    | true => rw [hg] at h; exact Bool.noConfusion (show false = true from h)
    | false =>
      refine ⟨?_, rfl⟩
      unfold goesOn at hg
      show v - s.csBase = _
      simpa using hg
  | jump v link =>
    dsimp only at h ⊢
    cases hj : jumpTo s v with
    | some t => rw [hj] at h; exact Bool.noConfusion (show false = true from h)
    | none => rw [hj] at h; exact hround _ v link rfl rfl rfl h
  | ret v link =>
    dsimp only at h ⊢
    generalize rsbPop { s with now := v } = r at h
    obtain ⟨r1, r2⟩ := r
    cases r1 with
    | some p => exact Bool.noConfusion (show false = true from h)
    | none => exact hround { s := { r2 with cur := none }, ret := ret, done := false, log := log } v link rfl rfl rfl h

end Verif.Tc
