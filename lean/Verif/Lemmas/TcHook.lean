import Verif.Lemmas.TcFresh
/-
Hooks in cached blocks, and what an event executes.
-/
namespace Verif.Tc

/-- Every cached block is a hook exactly if its address is hooked. -/
def HookOk (s : St) : Prop :=
  ∀ t, In s t → t.hook = (if t.flags &&& 0x40#32 = 0#32 then s.hooks t.virt else none) ∧
    (t.hook ≠ none → t.size = 0 ∧ t.body = [])

/-- Hooks are added and removed where the defects of hook_add and hook_remove do not show: the blocks cached for
the address are at its current translation; no hook and no undecodable block is cached when one is added; a single
block is a candidate for removal. -/
def SaneHook (s : St) : Op → Prop
  | .hookAdd a _ => ∀ t, In s t → t.virt = a → t.pc = phys s.map a ∧ t.size ≠ 0
  | .hookRemove a => ∀ t, In s t → t.virt = a → t.hook ≠ none → t.pc = phys s.map a ∧
      ∀ u, In s u → u.size = 0 → u.pc = phys s.map a → u = t
  | _ => True

theorem drop_hooks (s : St) (t : Tc) : (drop s t).hooks = s.hooks := by
  unfold drop unlink rsbFlushPage; dsimp only; split <;> rfl
theorem drops_hooks (l : List Tc) (s : St) : (l.foldl drop s).hooks = s.hooks := by
  induction l generalizing s with
  | nil => rfl
  | cons t l ih => exact (ih _).trans (drop_hooks s t)
theorem invalidate_hooks (s : St) (p : BitVec 32) (n : Nat) : (invalidate s p n).hooks = s.hooks := by
  unfold invalidate; dsimp only
  split
  · rfl
  · exact drops_hooks _ s
theorem rsbPop_hooks (s : St) : (rsbPop s).2.hooks = s.hooks := by
  unfold rsbPop rsbFlush; dsimp only
  split
  · rfl
  · split
    · rfl
    · split <;> rfl

/-- The hooks after an event. -/
def hooksAfter (m : BitVec 32 → Option Nat) : Op → (BitVec 32 → Option Nat)
  | .hookAdd a h => fun x => if x = a then some h else m x
  | .hookRemove a => fun x => if x = a then none else m x
  | _ => m

theorem hooks_step (d : Decoder) (s : St) (o : Op) : (step d s o).2.hooks = hooksAfter s.hooks o := by
  cases o with
  | run v link => exact (mainLoop_frame d s v link).2.2
  | jump v => unfold step; dsimp only; split <;> rfl
  | call off target => rfl
  | event target => rfl
  | ret v =>
    have := rsbPop_hooks { s with now := v }
    unfold step; dsimp only
    split <;> exact this
  | advance v => rfl
  | write p bs =>
    show (Tc.write s p bs).hooks = s.hooks
    unfold Tc.write; dsimp only
    split
    · exact invalidate_hooks ..
    · rfl
  | writeCross v bs =>
    show (Tc.writeCross s v bs).hooks = s.hooks
    unfold Tc.writeCross; dsimp only
    split <;> split
    · exact (invalidate_hooks ..).trans (invalidate_hooks ..)
    · exact invalidate_hooks ..
    · exact invalidate_hooks ..
    · rfl
  | setMode b hf e => rfl
  | invlpg v to => rfl
  | flush map => rfl
  | clear => rfl
  | purge => rfl
  | flushCall v => rfl
  | hookAdd a hk =>
    show upd (invalidate _ _ _).hooks a (some hk) = _
    rw [invalidate_hooks]; rfl
  | hookRemove a =>
    show (hookRemove s a).2.hooks = _
    unfold hookRemove hooksAfter
    split
    · rename_i h
      funext x
      by_cases e : x = a
      · subst e; dsimp only; rw [if_pos rfl]; exact h
      · dsimp only; rw [if_neg e]
    · unfold invalidateHook; dsimp only
      split
      · rfl
      · exact drop_hooks ..
  | serviced => rfl

theorem overlaps_start {t : Tc} {p : BitVec 32} (h : t.size ≠ 0) (e : t.pc = p) : overlaps t p 1 = true := by
  unfold overlaps
  rw [e]
  simp only [Bool.and_eq_true, bne_iff_ne, ne_eq, h, not_false_eq_true, Bool.not_eq_true', decide_eq_false_iff_not, true_and]
  omega

theorem hook_step {d : Decoder} {s : St} (h : Inv s []) (hk : HookOk s) (o : Op) (hh : SaneHook s o) :
    HookOk (step d s o).2 := by
  intro t ht
  rw [hooks_step]
  rcases in_step d s o t ht with h1 | ⟨v, link, rfl, rfl, hc⟩
  · have hb := hk t h1
    refine ⟨?_, hb.2⟩
    rw [hb.1]
    cases o with
    | hookAdd a hk' =>
      by_cases e : t.virt = a
      · exfalso
        have hs := hh t h1 e
        have h2 : Inv { s with smc := upd s.smc (page (phys s.map a)) true } [] := by
          refine h.same rfl rfl ?_ rfl rfl rfl (Nat.le_refl _) h.mode
          intro p hp
          show upd s.smc _ true p = true
          unfold upd; split
          · rfl
          · exact hp
        have := (invalidate_sub h2 (phys s.map a) 1 t ht).2 (by rw [hs.1])
        rw [overlaps_start hs.2 hs.1] at this
        cases this
      · unfold hooksAfter; dsimp only; rw [if_neg e]
    | hookRemove a =>
      by_cases e : t.virt = a
      · unfold hooksAfter; dsimp only; rw [if_pos e]
        by_cases hn : t.hook = none
        · rw [← hb.1, hn]; split <;> rfl
        · exfalso
          have hs := hh t h1 e hn
          have hsz := (hb.2 hn).1
          have ht : In (hookRemove s a).2 t := ht
          unfold hookRemove at ht
          split at ht
          · rename_i h0
            rw [← e] at h0
            rw [h0] at hb
            apply hn
            rw [hb.1]; split <;> rfl
          · unfold invalidateHook at ht
            dsimp only at ht
            have hp : t ∈ s.pages (page (phys s.map a)) := by
              rw [← hs.1]; exact (h.cachePages _ t h1).2.1
            split at ht
            · rename_i hf
              rw [List.find?_eq_none] at hf
              exact hf t hp (by simp [hsz, hs.1])
            · rename_i u hu
              have hu1 := List.find?_some hu
              have hu2 := List.mem_of_find?_eq_some hu
              simp only [Bool.and_eq_true, beq_iff_eq] at hu1
              have : u = t := hs.2 u ((h.pagesCache _ u hu2).2.resolve_right (by simp)) hu1.1 hu1.2
              subst this
              have := ((in_drop u u).1 ht).2
              simp at this
      · unfold hooksAfter; dsimp only; rw [if_neg e]
    | _ => rfl
  · show _ = (if _ then s.hooks _ else none) ∧ _
    have hkey := translate_key d s v
    rw [hkey.2.2.2.2, hkey.2.2.1]
    unfold translate
    dsimp only
    split
    · rename_i x hx; rw [hx]; exact ⟨rfl, fun _ => ⟨rfl, rfl⟩⟩
    · rename_i hx; rw [hx]; exact ⟨rfl, fun h => absurd rfl h⟩

theorem hook_hist {d : Decoder} (hl : LenOk d) (os : List Op) (s : St) (h : Inv s []) (hk : HookOk s)
    (hs : All d (fun s o => Sane s o ∧ SaneHook s o) s os) : HookOk (hist d s os) := by
  induction os generalizing s with
  | nil => exact hk
  | cons o os ih => exact ih _ (inv_step h d hl o hs.1.1) (hook_step h hk o hs.1.2) hs.2

theorem hook_reset (mem : BitVec 32 → BitVec 8) (map : BitVec 20 → BitVec 20) : HookOk (reset mem map) := by
  intro t ht; cases ht

theorem All.imp {d : Decoder} {P Q : St → Op → Prop} (h : ∀ s o, P s o → Q s o) (s : St) (os : List Op)
    (hs : All d P s os) : All d Q s os := by
  induction os generalizing s with
  | nil => trivial
  | cons o os ih => exact ⟨h _ _ hs.1, ih _ hs.2⟩

theorem run_exec (d : Decoder) (s : St) (v : BitVec 32) (link : Bool) :
    (∃ t, search s (phys s.map v) = some t ∧ (step d s (.run v link)).1 = some t) ∨
    (search s (phys s.map v) = none ∧ (step d s (.run v link)).1 = some (translate d s v).1) := by
  show (∃ t, _ ∧ some (mainLoop d s v link).1 = _) ∨ (_ ∧ some (mainLoop d s v link).1 = _)
  have e : search { s with smc := upd s.smc (page (phys s.map v)) true, now := v } (phys s.map v) = search s (phys s.map v) := rfl
  unfold mainLoop
  dsimp only
  rw [e]
  cases h : search s (phys s.map v) with
  | some t => exact .inl ⟨t, rfl, rfl⟩
  | none =>
    right
    refine ⟨rfl, ?_⟩
    dsimp only
    split <;> rfl

/-- A direct jump goes to a cached block for this address and mode. -/
theorem jump_in {s : St} (h : Inv s []) {v : BitVec 32} {t : Tc} (hj : jumpTo s v = some t) :
    In s t ∧ t.virt = v ∧ t.csBase = s.csBase ∧ t.flags = s.flags ∧ (s.jmp (jidx v)).flags &&& INVALID = 0#32 ∧
    (s.jmp (jidx v)).tc = some t := by
  unfold jumpTo at hj
  dsimp only at hj
  split at hj
  · rename_i hc
    have hv : (s.jmp (jidx v)).flags &&& INVALID = 0#32 := by rw [hc.2.2]; exact h.mode
    obtain ⟨u, h1, h2, h3, h4, h5⟩ := (h.jmpOk _ hv).2.2
    rw [h1] at hj; cases hj
    exact ⟨h2, by rw [h3, hc.1], by rw [h4, hc.2.1], by rw [h5, hc.2.2], hv, h1⟩
  · cases hj

theorem jump_exec {d : Decoder} {s : St} {v : BitVec 32} {t : Tc} (h : (step d s (.jump v)).1 = some t) : jumpTo s v = some t := by
  unfold step at h
  dsimp only at h
  cases hj : jumpTo s v with
  | none => rw [hj] at h; cases h
  | some u => rw [hj] at h; exact h

theorem pop_exec {s : St} {t : Tc} {off : Nat} (h : (rsbPop s).1 = some (t, off)) :
    (s.rsb s.rsbPtr).valid = true ∧ (s.rsb s.rsbPtr).tc = some t ∧ (s.rsb s.rsbPtr).off = off ∧
    (s.rsb s.rsbPtr).target = s.now ∧ t.csBase = s.csBase ∧ t.flags = s.flags := by
  unfold rsbPop at h
  dsimp only at h
  split at h
  · cases h
  · rename_i hv
    split at h
    · cases h
    · rename_i u hu
      split at h
      · rename_i hc
        cases h
        exact ⟨by simpa using hv, hu, rfl, hc.1.symm, hc.2.1.symm, hc.2.2.symm⟩
      · cases h

theorem ret_exec {d : Decoder} {s : St} {v : BitVec 32} {t : Tc} (h : (step d s (.ret v)).1 = some t) :
    ∃ off, (rsbPop { s with now := v }).1 = some (t, off) := by
  unfold step at h
  dsimp only at h
  cases hj : (rsbPop { s with now := v }).1 with
  | none => rw [hj] at h; cases h
  | some u => rw [hj] at h; cases h; exact ⟨_, rfl⟩

/-- An executed block is cached or just translated. -/
theorem exec_in {d : Decoder} {s : St} (h : Inv s []) (hr : RsbOk s) {o : Op} {t : Tc} (he : (step d s o).1 = some t) :
    (In s t ∧ t.csBase = s.csBase ∧ t.flags = s.flags) ∨ ∃ v link, o = .run v link ∧ t = (translate d s v).1 := by
  cases o with
  | run v link =>
    rcases run_exec d s v link with ⟨u, h1, h2⟩ | ⟨_, h2⟩
    · rw [h2] at he; cases he
      have := search_in h1
      exact .inl ⟨this.1, this.2.1, this.2.2.2⟩
    · rw [h2] at he; cases he; exact .inr ⟨v, link, rfl, rfl⟩
  | jump v =>
    have := jump_in h (jump_exec he)
    exact .inl ⟨this.1, this.2.2.1, this.2.2.2.1⟩
  | ret v =>
    obtain ⟨off, ho⟩ := ret_exec he
    have := pop_exec ho
    exact .inl ⟨(hr _ t this.1 this.2.1).1, this.2.2.2.2.1, this.2.2.2.2.2⟩
  | _ => cases he

end Verif.Tc
