import Verif.Lemmas.Tc
/-
Invariants of the return stack buffer and of the links.
-/
namespace Verif.Tc

/-- Every valid entry of the return stack buffer that names a block names one in the cache, on the page of its
target, which is `off` bytes into the block. -/
def RsbOk (s : St) : Prop :=
  ∀ i t, (s.rsb i).valid = true → (s.rsb i).tc = some t → In s t ∧ page (s.rsb i).target = page t.virt ∧
    (s.rsb i).target = t.virt + BitVec.ofNat 32 (s.rsb i).off

/-- Links go to the block at the current translation of the address. -/
structure LinkOk (s : St) : Prop where
  jmp : ∀ i t, (s.jmp i).flags &&& INVALID = 0#32 → (s.jmp i).tc = some t → t.pc = phys s.map t.virt
  rsb : ∀ i t, (s.rsb i).valid = true → (s.rsb i).tc = some t → t.pc = phys s.map t.virt

theorem rsbFlushPage_valid {s : St} {a : BitVec 32} {i : BitVec 6} (h : ((rsbFlushPage s a).rsb i).valid = true) :
    (s.rsb i).valid = true ∧ page (s.rsb i).target ≠ page a ∧ (rsbFlushPage s a).rsb i = s.rsb i := by
  unfold rsbFlushPage at h ⊢
  dsimp only at h ⊢
  split at h
  · cases h
  · rename_i hp; rw [if_neg hp]; exact ⟨h, hp, rfl⟩

theorem unlink_rsb (s : St) (v : BitVec 32) : (unlink s v).rsb = (rsbFlushPage s v).rsb := by
  unfold unlink rsbFlushPage
  dsimp only
  split <;> rfl

theorem rsb_drop {s : St} {D : List Tc} (h : Inv s D) (hr : RsbOk s) (t : Tc) (hin : In s t ∨ t ∈ D) : RsbOk (drop s t) := by
  intro i u hv hu
  have e : (drop s t).rsb = (rsbFlushPage s t.virt).rsb := unlink_rsb s t.virt
  rw [e] at hv hu ⊢
  obtain ⟨h1, h2, h3⟩ := rsbFlushPage_valid hv
  rw [h3] at hu ⊢
  obtain ⟨h4, h5⟩ := hr i u h1 hu
  refine ⟨?_, h5⟩
  rw [in_drop]
  refine ⟨h4, .inl fun e => ?_⟩
  rcases hin with h6 | h6
  · have := h.uniq u t h4 h6 e
    subst this
    exact h2 h5.1
  · exact (h.cachePages _ u h4).2.2 t h6 e.symm

theorem rsb_drops {s : St} {D : List Tc} (h : Inv s D) (hr : RsbOk s) (l : List Tc) (hl : ∀ t, t ∈ l → In s t ∨ t ∈ D) :
    RsbOk (l.foldl drop s) := by
  induction l generalizing s D with
  | nil => exact hr
  | cons t l ih =>
    have h1 := inv_drop h t (hl t (.head _))
    refine ih h1 (rsb_drop h hr t (hl t (.head _))) ?_
    intro u hu
    have : u ∈ s.pages (page u.pc) ∨ u ∈ D := by
      rcases hl u (.tail _ hu) with h2 | h2
      · exact .inl (h.cachePages _ u h2).2.1
      · exact .inr h2
    rcases this with h2 | h2
    · exact ((h1.pagesCache (page u.pc) u (by rw [drop_pages]; exact h2)).2)
    · exact .inr (.tail _ h2)

theorem rsb_invalidate {s : St} (h : Inv s []) (hr : RsbOk s) (p : BitVec 32) (n : Nat) : RsbOk (invalidate s p n) := by
  unfold invalidate
  dsimp only
  split
  · exact hr
  · exact rsb_drops h hr _ fun t ht => (h.pagesCache _ t (List.mem_filter.1 ht).1).2

theorem rsb_invalidateHook {s : St} (h : Inv s []) (hr : RsbOk s) (p : BitVec 32) : RsbOk (invalidateHook s p) := by
  unfold invalidateHook
  dsimp only
  split
  · exact hr
  · rename_i t ht
    exact rsb_drop h hr t (h.pagesCache _ t (List.mem_of_find?_eq_some ht)).2

theorem rsb_flush (s : St) (i : BitVec 6) : ((rsbFlush s).rsb i).valid = false := rfl

/-- Blocks are pushed while they are in the cache, with a return address on their page. -/
def SaneCall (s : St) : Op → Prop
  | .call off target => ∀ t, s.cur = some t → In s t ∧ page target = page t.virt ∧
    target = t.virt + BitVec.ofNat 32 off
  | _ => True

theorem rsb_push {s : St} (hr : RsbOk s) (tc : Option Tc) (off : Nat) (target : BitVec 32)
    (h : ∀ t, tc = some t → In s t ∧ page target = page t.virt ∧ target = t.virt + BitVec.ofNat 32 off) : RsbOk (rsbPush s tc off target) := by
  intro i t hv ht
  unfold rsbPush at hv ht ⊢
  dsimp only at hv ht ⊢
  by_cases hi : i = s.rsbPtr - 1#6
  · subst hi; rw [upd_same] at ht ⊢; exact h t ht
  · rw [upd_ne _ _ hi] at hv ht ⊢; exact hr i t hv ht

/-- The entries valid after a pop were valid before. -/
theorem rsbPop_valid {s : St} {i : BitVec 6} (h : ((rsbPop s).2.rsb i).valid = true) :
    (s.rsb i).valid = true ∧ (rsbPop s).2.rsb i = s.rsb i := by
  unfold rsbPop at h ⊢
  dsimp only at h ⊢
  have key : ∀ {i}, (upd s.rsb s.rsbPtr (s.rsb s.rsbPtr).clear i).valid = true →
      (s.rsb i).valid = true ∧ upd s.rsb s.rsbPtr (s.rsb s.rsbPtr).clear i = s.rsb i := by
    intro i h
    by_cases hi : i = s.rsbPtr
    · subst hi; rw [upd_same] at h; cases h
    · rw [upd_ne _ _ hi] at h ⊢; exact ⟨h, rfl⟩
  by_cases h1 : (s.rsb s.rsbPtr).valid = false
  · rw [if_pos h1] at h; cases h
  · rw [if_neg h1] at h ⊢
    cases h2 : (s.rsb s.rsbPtr).tc with
    | none => rw [h2] at h; exact key h
    | some t =>
      rw [h2] at h
      dsimp only at h ⊢
      split at h
      · rename_i h3; rw [if_pos h3]; exact key h
      · cases h
theorem rsbPop_cache (s : St) : (rsbPop s).2.cache = s.cache := by
  unfold rsbPop rsbFlush; dsimp only
  split
  · rfl
  · split
    · rfl
    · split <;> rfl
theorem rsbPop_jmp (s : St) : (rsbPop s).2.jmp = s.jmp ∧ (rsbPop s).2.map = s.map := by
  unfold rsbPop rsbFlush; dsimp only
  split
  · exact ⟨rfl, rfl⟩
  · split
    · exact ⟨rfl, rfl⟩
    · split <;> exact ⟨rfl, rfl⟩

theorem in_insert (s : St) (t u : Tc) : In (insert s t) u ↔ u = t ∨ In s u := by
  unfold In insert
  dsimp only
  by_cases he : hash u.pc = hash t.pc
  · rw [he, upd_same, List.mem_cons]
  · rw [upd_ne _ _ he]
    exact ⟨.inr, fun h => h.resolve_left fun e => he (by rw [e])⟩

theorem RsbOk.mono {s s' : St} (h : RsbOk s) (h1 : s'.rsb = s.rsb) (h2 : ∀ t, In s t → In s' t) : RsbOk s' := by
  intro i t hv ht
  rw [h1] at hv ht ⊢
  exact ⟨h2 t (h i t hv ht).1, (h i t hv ht).2⟩

theorem linkJmp_rsb (s : St) (t : Tc) : (linkJmp s t).rsb = s.rsb := rfl
theorem linkJmp_cache (s : St) (t : Tc) : (linkJmp s t).cache = s.cache := rfl

theorem rsb_mainLoop {s : St} (hr : RsbOk s) (d : Decoder) (v : BitVec 32) (link : Bool) (hn : s.num ≠ 32768) :
    RsbOk (mainLoop d s v link).2 := by
  unfold mainLoop
  dsimp only
  have hfull : (s.num == 32768) = false := by simpa using hn
  rw [hfull]
  simp only [Bool.false_eq_true, if_false, Bool.not_false, Bool.and_true]
  split
  · rename_i t ht
    cases link <;> exact hr.mono rfl fun _ h => h
  · split
    · cases link
      · exact hr.mono rfl fun u hu => (in_insert _ _ u).2 (.inr hu)
      · exact hr.mono rfl fun u hu => (in_insert _ _ u).2 (.inr hu)
    · exact hr.mono rfl fun _ h => h

theorem rsb_step {s : St} (h : Inv s []) (hr : RsbOk s) (d : Decoder) (o : Op) (ho : Sane s o) (hc : SaneCall s o) :
    RsbOk (step d s o).2 := by
  have hpage : ∀ s : St, RsbOk s → ∀ a, RsbOk (rsbFlushPage s a) := by
    intro s hr a i t hv ht
    obtain ⟨h1, h2, h3⟩ := rsbFlushPage_valid hv
    rw [h3] at ht ⊢
    exact hr i t h1 ht
  cases o with
  | run v link => exact rsb_mainLoop hr d v link ho
  | jump v =>
    unfold step
    dsimp only
    split <;> exact hr.mono rfl fun _ h => h
  | call off target => exact rsb_push hr _ _ _ hc
  | event target => exact rsb_push hr _ _ _ (by intro t ht; cases ht)
  | ret v =>
    have key : RsbOk (rsbPop { s with now := v }).2 := by
      intro i t hv ht
      obtain ⟨h1, h2⟩ := rsbPop_valid hv
      rw [h2] at ht ⊢
      have := hr i t h1 ht
      refine ⟨?_, this.2⟩
      unfold In; rw [rsbPop_cache]; exact this.1
    unfold step
    dsimp only
    split <;> exact key.mono rfl fun _ h => h
  | advance v => exact hr.mono rfl fun _ h => h
  | write p bs =>
    show RsbOk (Tc.write s p bs)
    unfold Tc.write
    dsimp only
    split
    · exact (rsb_invalidate h hr p _).mono rfl fun _ h => h
    · exact hr.mono rfl fun _ h => h
  | writeCross v bs => exact ho.elim
  | setMode b hf e => exact hr.mono rfl fun _ h => h
  | invlpg v to =>
    have : RsbOk (rsbFlushPage s v) := hpage s hr v
    exact this.mono rfl fun _ h => h
  | flush map => intro i t hv _; cases hv
  | clear => intro i t hv _; cases hv
  | purge => intro i t hv _; cases hv
  | flushCall v => exact hpage s hr v
  | hookAdd a hk =>
    have h1 : Inv { s with smc := upd s.smc (page (phys s.map a)) true } [] := by
      refine h.same rfl rfl ?_ rfl rfl rfl (Nat.le_refl _) h.mode
      intro p hp
      show upd s.smc _ true p = true
      unfold upd; split
      · rfl
      · exact hp
    exact (rsb_invalidate h1 (hr.mono rfl fun _ h => h) (phys s.map a) 1).mono rfl fun _ h => h
  | hookRemove a =>
    show RsbOk (hookRemove s a).2
    unfold hookRemove
    split
    · exact hr
    · exact rsb_invalidateHook (s := { s with hooks := upd s.hooks a none })
        (h.same rfl rfl (fun _ h => h) rfl rfl rfl (Nat.le_refl _) h.mode) (hr.mono rfl fun _ h => h) _
  | serviced => exact hr.mono rfl fun _ h => h

/-- The block of a linear address is only entered through that address, and calls are pushed by a block at the
current translation. -/
def SaneMap (s : St) : Op → Prop
  | .run v _ => ∀ t, search s (phys s.map v) = some t → t.virt = v
  | .call _ _ => ∀ t, s.cur = some t → t.pc = phys s.map t.virt
  | _ => True

theorem phys_upd {map : BitVec 20 → BitVec 20} {v w : BitVec 32} (to : BitVec 20) (h : page w ≠ page v) :
    phys (upd map (page v) to) w = phys map w := by
  unfold phys; rw [upd_ne _ _ h]

/-- Links that disappear. -/
theorem LinkOk.mono {s s' : St} (h : LinkOk s) (h1 : s'.map = s.map)
    (h2 : ∀ i, (s'.jmp i).flags &&& INVALID = 0#32 → s'.jmp i = s.jmp i)
    (h3 : ∀ i, (s'.rsb i).valid = true → s'.rsb i = s.rsb i) : LinkOk s' := by
  refine ⟨fun i t hv ht => ?_, fun i t hv ht => ?_⟩
  · have e := h2 i hv; rw [e] at hv ht; rw [h1]; exact h.jmp i t hv ht
  · have e := h3 i hv; rw [e] at hv ht; rw [h1]; exact h.rsb i t hv ht

theorem unlink_mono {s : St} (v : BitVec 32) : (unlink s v).map = s.map ∧
    (∀ i, ((unlink s v).jmp i).flags &&& INVALID = 0#32 → (unlink s v).jmp i = s.jmp i) ∧
    (∀ i, ((unlink s v).rsb i).valid = true → (unlink s v).rsb i = s.rsb i) := by
  refine ⟨?_, ?_, ?_⟩
  · unfold unlink rsbFlushPage; dsimp only; split <;> rfl
  · intro i hi
    unfold unlink rsbFlushPage at hi ⊢
    dsimp only at hi ⊢
    split at hi
    · rename_i hv
      rw [if_pos hv]
      dsimp only at hi ⊢
      by_cases hi' : i = jidx v
      · subst hi'; rw [upd_same] at hi; exact absurd hi invalid_self
      · rw [upd_ne _ _ hi']
    · rename_i hv
      rw [if_neg hv]
  · intro i hi
    rw [unlink_rsb] at hi ⊢
    exact (rsbFlushPage_valid hi).2.2

theorem link_drop {s : St} (h : LinkOk s) (t : Tc) : LinkOk (drop s t) :=
  let u := unlink_mono (s := s) t.virt
  h.mono u.1 u.2.1 u.2.2

theorem link_drops {s : St} (h : LinkOk s) (l : List Tc) : LinkOk (l.foldl drop s) := by
  induction l generalizing s with
  | nil => exact h
  | cons t l ih => exact ih (link_drop h t)

theorem LinkOk.eq {s s' : St} (h : LinkOk s) (h1 : s'.map = s.map) (h2 : s'.jmp = s.jmp) (h3 : s'.rsb = s.rsb) : LinkOk s' :=
  h.mono h1 (fun i _ => by rw [h2]) (fun i _ => by rw [h3])

theorem link_invalidate {s : St} (h : LinkOk s) (p : BitVec 32) (n : Nat) : LinkOk (invalidate s p n) := by
  unfold invalidate
  dsimp only
  split
  · exact h
  · exact (link_drops h _).eq rfl rfl rfl

theorem link_linkJmp {s : St} (h : LinkOk s) (t : Tc) (ht : t.pc = phys s.map t.virt) : LinkOk (linkJmp s t) := by
  refine ⟨fun i u hv hu => ?_, fun i u hv hu => h.rsb i u hv hu⟩
  unfold linkJmp at hv hu ⊢
  dsimp only at hv hu ⊢
  by_cases hi : i = jidx t.virt
  · subst hi; rw [upd_same] at hu; cases hu; exact ht
  · rw [upd_ne _ _ hi] at hv hu; exact h.jmp i u hv hu

theorem link_step {s : St} (h : Inv s []) (hr : RsbOk s) (hk : LinkOk s) (d : Decoder) (o : Op) (ho : Sane s o)
    (hm : SaneMap s o) : LinkOk (step d s o).2 := by
  have hpush : ∀ tc off target, (∀ t, tc = some t → t.pc = phys s.map t.virt) → LinkOk (rsbPush s tc off target) := by
    intro tc off target ht
    refine ⟨hk.jmp, fun i t hv hu => ?_⟩
    unfold rsbPush at hv hu ⊢
    dsimp only at hv hu ⊢
    by_cases hi : i = s.rsbPtr - 1#6
    · subst hi; rw [upd_same] at hu; exact ht t hu
    · rw [upd_ne _ _ hi] at hv hu; exact hk.rsb i t hv hu
  cases o with
  | run v link =>
    show LinkOk (mainLoop d s v link).2
    unfold mainLoop
    dsimp only
    have ho' : s.num ≠ 32768 := ho
    have hfull : (s.num == 32768) = false := by simpa using ho'
    rw [hfull]
    simp only [Bool.false_eq_true, if_false, Bool.not_false, Bool.and_true]
    split
    · rename_i t ht
      have hs := search_in ht
      have hvirt := hm t ht
      cases link with
      | false => exact hk.eq rfl rfl rfl
      | true =>
        have : LinkOk (linkJmp { s with smc := upd s.smc (page (phys s.map v)) true, now := v } t) :=
          link_linkJmp (s := { s with smc := upd s.smc (page (phys s.map v)) true, now := v }) (hk.eq rfl rfl rfl) t
            (by rw [hs.2.2.1, hvirt])
        exact this.eq rfl rfl rfl
    · have htk := translate_key d { s with smc := upd s.smc (page (phys s.map v)) true, now := v } v
      split
      · cases link with
        | false => exact hk.eq rfl rfl rfl
        | true =>
          have : LinkOk (linkJmp (insert { s with smc := upd s.smc (page (phys s.map v)) true, now := v, next := s.next + 1 }
              (translate d { s with smc := upd s.smc (page (phys s.map v)) true, now := v } v).1)
              (translate d { s with smc := upd s.smc (page (phys s.map v)) true, now := v } v).1) :=
            link_linkJmp (s := insert { s with smc := upd s.smc (page (phys s.map v)) true, now := v, next := s.next + 1 }
              (translate d { s with smc := upd s.smc (page (phys s.map v)) true, now := v } v).1)
              (hk.eq rfl rfl rfl) _ (by rw [htk.2.1, htk.2.2.1]; rfl)
          exact this.eq rfl rfl rfl
      · exact hk.eq rfl rfl rfl
  | jump v =>
    unfold step
    dsimp only
    split <;> exact hk.eq rfl rfl rfl
  | call off target => exact hpush _ _ _ hm
  | event target => exact hpush _ _ _ (by intro t ht; cases ht)
  | ret v =>
    have key : LinkOk (rsbPop { s with now := v }).2 := by
      have := rsbPop_jmp { s with now := v }
      refine hk.mono this.2 (fun i _ => by rw [this.1]) fun i hi => (rsbPop_valid hi).2
    unfold step
    dsimp only
    split <;> exact key.eq rfl rfl rfl
  | advance v => exact hk.eq rfl rfl rfl
  | write p bs =>
    show LinkOk (Tc.write s p bs)
    unfold Tc.write
    dsimp only
    split
    · exact (link_invalidate hk p _).eq rfl rfl rfl
    · exact hk.eq rfl rfl rfl
  | writeCross v bs => exact ho.elim
  | setMode b hf e => exact hk.eq rfl rfl rfl
  | invlpg v to =>
    have hi := inv_unlinkPage h v
    refine ⟨fun i t hv ht => ?_, fun i t hv ht => ?_⟩
    · have hg := unlinkPage_gone h v i hv
      have hj := hi.jmpOk i hv
      have e : (unlinkPage s v).jmp i = s.jmp i := by
        unfold unlinkPage rsbFlushPage
        dsimp only
        split
        · rename_i hm
          have hv' : ((unlinkPage s v).jmp i).flags &&& INVALID = 0#32 := hv
          unfold unlinkPage rsbFlushPage at hv'
          dsimp only at hv'
          rw [if_pos hm] at hv'
          exact absurd hv' invalid_self
        · rfl
      have hv2 : ((unlinkPage s v).jmp i).flags &&& INVALID = 0#32 := hv
      have ht2 : ((unlinkPage s v).jmp i).tc = some t := ht
      obtain ⟨u, hu, _, huv, _⟩ := hj.2.2
      rw [ht2] at hu; cases hu
      rw [e] at hv2 ht2
      have hb := hk.jmp i t hv2 ht2
      show t.pc = phys (upd s.map (page v) to) t.virt
      rw [phys_upd to (by rw [huv]; exact hg)]
      exact hb
    · have hv2 : ((rsbFlushPage s v).rsb i).valid = true := hv
      have ht2 : ((rsbFlushPage s v).rsb i).tc = some t := ht
      obtain ⟨h1, h2, h3⟩ := rsbFlushPage_valid hv2
      rw [h3] at ht2
      have hb := hk.rsb i t h1 ht2
      have hp := (hr i t h1 ht2).2.1
      show t.pc = phys (upd s.map (page v) to) t.virt
      rw [phys_upd to (by rw [← hp]; exact h2)]
      exact hb
  | flush map =>
    refine ⟨fun i t hv _ => ?_, fun i t hv _ => ?_⟩
    · exact absurd hv invalid_self
    · cases hv
  | clear =>
    refine ⟨fun i t hv _ => ?_, fun i t hv _ => ?_⟩
    · exact absurd hv invalid_self
    · cases hv
  | purge =>
    refine ⟨fun i t hv _ => ?_, fun i t hv _ => ?_⟩
    · exact absurd hv invalid_self
    · cases hv
  | flushCall v => exact hk.mono rfl (fun _ _ => rfl) fun i hi => (rsbFlushPage_valid hi).2.2
  | hookAdd a hh =>
    exact (link_invalidate (s := { s with smc := upd s.smc (page (phys s.map a)) true }) (hk.eq rfl rfl rfl) (phys s.map a) 1).eq rfl rfl rfl
  | hookRemove a =>
    show LinkOk (hookRemove s a).2
    unfold hookRemove
    split
    · exact hk
    · unfold invalidateHook
      dsimp only
      split
      · exact hk.eq rfl rfl rfl
      · exact (link_drop (s := { s with hooks := upd s.hooks a none }) (hk.eq rfl rfl rfl) _).eq rfl rfl rfl
  | serviced => exact hk.eq rfl rfl rfl

/-- All events of a history satisfy a condition in the state they occur in. -/
def All (d : Decoder) (P : St → Op → Prop) (s : St) : List Op → Prop
  | [] => True
  | o :: os => P s o ∧ All d P (step d s o).2 os

theorem inv_hist (d : Decoder) (hl : LenOk d) (os : List Op) (s : St) (h : Inv s []) (hs : All d Sane s os) :
    Inv (hist d s os) [] := by
  induction os generalizing s with
  | nil => exact h
  | cons o os ih => exact ih _ (inv_step h d hl o hs.1) hs.2

theorem rsb_hist (d : Decoder) (hl : LenOk d) (os : List Op) (s : St) (h : Inv s []) (hr : RsbOk s)
    (hs : All d (fun s o => Sane s o ∧ SaneCall s o) s os) : Inv (hist d s os) [] ∧ RsbOk (hist d s os) := by
  induction os generalizing s with
  | nil => exact ⟨h, hr⟩
  | cons o os ih => exact ih _ (inv_step h d hl o hs.1.1) (rsb_step h hr d o hs.1.1 hs.1.2) hs.2

theorem link_hist (d : Decoder) (hl : LenOk d) (os : List Op) (s : St) (h : Inv s []) (hr : RsbOk s) (hk : LinkOk s)
    (hs : All d (fun s o => Sane s o ∧ SaneCall s o ∧ SaneMap s o) s os) :
    Inv (hist d s os) [] ∧ RsbOk (hist d s os) ∧ LinkOk (hist d s os) := by
  induction os generalizing s with
  | nil => exact ⟨h, hr, hk⟩
  | cons o os ih =>
    exact ih _ (inv_step h d hl o hs.1.1) (rsb_step h hr d o hs.1.1 hs.1.2.1) (link_step h hr hk d o hs.1.1 hs.1.2.2) hs.2

theorem rsb_reset (mem : BitVec 32 → BitVec 8) (map : BitVec 20 → BitVec 20) : RsbOk (reset mem map) := by
  intro i t hv _; cases hv
theorem link_reset (mem : BitVec 32 → BitVec 8) (map : BitVec 20 → BitVec 20) : LinkOk (reset mem map) :=
  ⟨fun _ _ hv _ => absurd hv invalid_self, fun i t hv _ => by cases hv⟩

end Verif.Tc
