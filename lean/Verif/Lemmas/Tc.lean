import Verif.Model.Tc
/-
Invariants of the code cache.
-/
namespace Verif.Tc

theorem page_eq {a b : BitVec 32} : page a = page b ↔ a.toNat / 4096 = b.toNat / 4096 := by
  rw [← BitVec.toNat_inj]
  unfold page
  simp only [BitVec.toNat_setWidth, BitVec.toNat_ushiftRight, Nat.shiftRight_eq_div_pow]
  have := a.isLt; have := b.isLt
  have h1 : a.toNat / 2 ^ 12 < 2 ^ 20 := by omega
  have h2 : b.toNat / 2 ^ 12 < 2 ^ 20 := by omega
  rw [Nat.mod_eq_of_lt h1, Nat.mod_eq_of_lt h2]

theorem page_phys (m : BitVec 20 → BitVec 20) (v : BitVec 32) : page (phys m v) = m (page v) := by
  unfold phys
  generalize m (page v) = x
  unfold page
  apply BitVec.eq_of_getLsbD_eq
  intro i hi
  have h32 : 12 + i < 32 := by omega
  have h12 : ¬ (12 + i < 12) := by omega
  simp only [BitVec.getLsbD_setWidth, BitVec.getLsbD_ushiftRight, BitVec.getLsbD_or, BitVec.getLsbD_shiftLeft, BitVec.getLsbD_and, hi, h32, h12, decide_true, decide_false, Bool.not_false, Bool.true_and, Nat.add_sub_cancel_left]
  have : (0xFFF#32).getLsbD (12 + i) = false := by
    have : (0xFFF : Nat) < 2 ^ (12 + i) := Nat.lt_of_lt_of_le (by decide : 0xFFF < 2 ^ 12) (Nat.pow_le_pow_right (by decide) (by omega))
    rw [BitVec.getLsbD_ofNat, Nat.testBit_lt_two_pow this, Bool.and_false]
  rw [this, Bool.and_false, Bool.or_false]
  have : i < 32 := by omega
  simp [this]

theorem low_phys (m : BitVec 20 → BitVec 20) (v : BitVec 32) : (phys m v).toNat % 4096 = v.toNat % 4096 := by
  have h : (phys m v) &&& 0xFFF#32 = v &&& 0xFFF#32 := by
    unfold phys
    apply BitVec.eq_of_getLsbD_eq
    intro i hi
    by_cases h12 : i < 12
    · simp [h12, hi]
    · have : (0xFFF#32).getLsbD i = false := by
        have : (0xFFF : Nat) < 2 ^ i := Nat.lt_of_lt_of_le (by decide : 0xFFF < 2 ^ 12) (Nat.pow_le_pow_right (by decide) (by omega))
        rw [BitVec.getLsbD_ofNat, Nat.testBit_lt_two_pow this, Bool.and_false]
      simp only [BitVec.getLsbD_and, this, Bool.and_false]
  have := congrArg BitVec.toNat h
  simp only [BitVec.toNat_and, BitVec.toNat_ofNat] at this
  have e : (4095 % 2 ^ 32 : Nat) = 2 ^ 12 - 1 := by decide
  rw [e, Nat.and_two_pow_sub_one_eq_mod, Nat.and_two_pow_sub_one_eq_mod] at this
  exact this

theorem upd_same {α β : Type} [DecidableEq α] (f : α → β) (k : α) (v : β) : upd f k v k = v := if_pos rfl
theorem upd_ne {α β : Type} [DecidableEq α] (f : α → β) {k x : α} (v : β) (h : x ≠ k) : upd f k v x = f x := if_neg h

/-- Bytes of the decoded instructions of a block. -/
def bytesOf : List Ins → List (BitVec 8)
  | [] => []
  | .ok b :: r => b ++ bytesOf r
  | .bad :: r => bytesOf r

/-- Instructions are between 1 and 15 bytes long. -/
def LenOk (d : Decoder) : Prop := ∀ fl f n e, d fl f = .ok n e → 1 ≤ n ∧ n ≤ 15

theorem fetch_shift (mem : BitVec 32 → BitVec 8) (map : BitVec 20 → BitVec 20) (pc v : BitVec 32) (l i : Nat)
    (h : page v = page (v + BitVec.ofNat 32 l)) :
    fetch mem map (pc + BitVec.ofNat 32 l) (v + BitVec.ofNat 32 l) i = fetch mem map pc v (l + i) := by
  unfold fetch
  dsimp only
  rw [BitVec.add_assoc, BitVec.add_assoc, ← BitVec.ofNat_add, h]

/-- The bytes of a translated block are those fetched, and their number is the size. -/
theorem loop_bytes (d : Decoder) (fl : BitVec 32) (mem : BitVec 32 → BitVec 8) (map : BitVec 20 → BitVec 20)
    (fuel : Nat) (pc v : BitVec 32) :
    bytesOf (translateLoop d fl mem map fuel pc v).1 =
      (List.range (translateLoop d fl mem map fuel pc v).2.1).map (fetch mem map pc v) := by
  induction fuel generalizing pc v with
  | zero => rfl
  | succ fuel ih =>
    unfold translateLoop
    split
    · rfl
    · rename_i len ends hd
      dsimp only
      split
      · simp [bytesOf]
      · rename_i hc
        have hp : page v = page (v + BitVec.ofNat 32 len) := by
          simp only [Bool.or_eq_true, not_or, bne_iff_ne, ne_eq, Decidable.not_not] at hc
          exact hc.1.2
        simp only [bytesOf, ih, List.range_add, List.map_append, List.map_map]
        congr 1
        apply List.map_congr_left
        intro i _
        exact fetch_shift mem map pc v len i hp

/-- A block that does not cross ends on its page. -/
theorem loop_size (d : Decoder) (hl : LenOk d) (fl : BitVec 32) (mem : BitVec 32 → BitVec 8)
    (map : BitVec 20 → BitVec 20) (fuel : Nat) (pc v : BitVec 32)
    (hc : (translateLoop d fl mem map fuel pc v).2.2 = false) :
    v.toNat % 4096 + (translateLoop d fl mem map fuel pc v).2.1 ≤ 4096 := by
  induction fuel generalizing pc v with
  | zero => show v.toNat % 4096 + 0 ≤ 4096; omega
  | succ fuel ih =>
    unfold translateLoop at hc ⊢
    split at hc
    · show v.toNat % 4096 + 0 ≤ 4096; omega
    · rename_i len ends hd
      have hlen := hl _ _ _ _ hd
      dsimp only at hc ⊢
      split
      · rename_i hif
        rw [if_pos hif] at hc
        simp only [bne_eq_false_iff_eq] at hc
        rw [page_eq] at hc
        have : (v + BitVec.ofNat 32 len - 1#32).toNat = (v.toNat + len - 1) % 2 ^ 32 := by
          simp only [BitVec.toNat_sub, BitVec.toNat_add, BitVec.toNat_ofNat]
          omega
        rw [this] at hc
        have := v.isLt
        simp only
        omega
      · rename_i hif
        rw [if_neg hif] at hc
        have hp : page v = page (v + BitVec.ofNat 32 len) := by
          simp only [Bool.or_eq_true, not_or, bne_iff_ne, ne_eq, Decidable.not_not] at hif
          exact hif.1.2
        have := ih (pc + BitVec.ofNat 32 len) (v + BitVec.ofNat 32 len) hc
        rw [page_eq] at hp
        have e : (v + BitVec.ofNat 32 len).toNat = (v.toNat + len) % 2 ^ 32 := by
          simp only [BitVec.toNat_add, BitVec.toNat_ofNat]; omega
        rw [e] at hp this
        have := v.isLt
        simp only
        omega

/-- A block that stays on its page is fetched from its physical address. -/
theorem fetch_page (mem : BitVec 32 → BitVec 8) (map : BitVec 20 → BitVec 20) (pc v : BitVec 32) (i : Nat)
    (h : v.toNat % 4096 + i < 4096) : fetch mem map pc v i = mem (pc + BitVec.ofNat 32 i) := by
  unfold fetch
  dsimp only
  rw [if_pos]
  rw [page_eq]
  simp only [BitVec.toNat_add, BitVec.toNat_ofNat]
  have := v.isLt
  omega

/-- A block in the code cache. -/
abbrev In (s : St) (t : Tc) : Prop := t ∈ s.cache (hash t.pc)

/-- A block on one page whose instructions are the bytes in memory. -/
structure Good (mem : BitVec 32 → BitVec 8) (t : Tc) : Prop where
  onPage : t.pc.toNat % 4096 + t.size ≤ 4096
  low : t.pc.toNat % 4096 = t.virt.toNat % 4096
  mode : t.flags &&& INVALID = 0#32
  len : (bytesOf t.body).length = t.size
  bytes : ∀ i, i < t.size → (bytesOf t.body)[i]? = some (mem (t.pc + BitVec.ofNat 32 i))

/-- The invariant; `D` are blocks being removed. -/
structure Inv (s : St) (D : List Tc) : Prop where
  cachePages : ∀ i t, t ∈ s.cache i → i = hash t.pc ∧ t ∈ s.pages (page t.pc) ∧ ∀ u, u ∈ D → u.id ≠ t.id
  pagesCache : ∀ p t, t ∈ s.pages p → p = page t.pc ∧ (In s t ∨ t ∈ D)
  ids : ∀ t, In s t → t.id < s.next
  uniq : ∀ t u, In s t → In s u → t.id = u.id → t = u
  smcOk : ∀ p t, t ∈ s.pages p → s.smc p = true
  good : ∀ t, In s t → Good s.mem t
  jmpOk : ∀ i, (s.jmp i).flags &&& INVALID = 0#32 → jidx (s.jmp i).virt = i ∧
    (s.jmp i).virt ∈ s.jmpMap (page (s.jmp i).virt) ∧ ∃ t, (s.jmp i).tc = some t ∧ In s t ∧
      t.virt = (s.jmp i).virt ∧ t.csBase = (s.jmp i).csBase ∧ t.flags = (s.jmp i).flags
  mapOk : ∀ p v, v ∈ s.jmpMap p → p = page v ∧ (s.jmp (jidx v)).virt = v ∧ (s.jmp (jidx v)).flags &&& INVALID = 0#32
  mode : s.flags &&& INVALID = 0#32

theorem invalid_self : INVALID &&& INVALID ≠ 0#32 := by decide

/-- Changes outside the cache. -/
theorem Inv.same {s s' : St} {D : List Tc} (h : Inv s D) (h1 : s'.cache = s.cache) (h2 : s'.pages = s.pages)
    (h3 : ∀ p, s.smc p = true → s'.smc p = true) (h4 : s'.jmp = s.jmp) (h5 : s'.jmpMap = s.jmpMap) (h6 : s'.mem = s.mem)
    (h7 : s.next ≤ s'.next) (h8 : s'.flags &&& INVALID = 0#32) : Inv s' D := by
  obtain ⟨a, b, c, d, e, f, g, i, j⟩ := h
  refine ⟨?_, ?_, ?_, ?_, ?_, ?_, ?_, ?_, h8⟩
  · intro i t ht; rw [h1] at ht; rw [h2]; exact a i t ht
  · intro p t ht; rw [h2] at ht; unfold In; rw [h1]; exact b p t ht
  · intro t ht; unfold In at ht; rw [h1] at ht; exact Nat.lt_of_lt_of_le (c t ht) h7
  · intro t u ht hu; unfold In at ht hu; rw [h1] at ht hu; exact d t u ht hu
  · intro p t ht; rw [h2] at ht; exact h3 p (e p t ht)
  · intro t ht; unfold In at ht; rw [h1] at ht; rw [h6]; exact f t ht
  · intro i hi; unfold In; rw [h4] at hi ⊢; rw [h5, h1]; exact g i hi
  · intro p v hv; rw [h5] at hv; rw [h4]; exact i p v hv

theorem inv_rsbFlush {s : St} {D : List Tc} (h : Inv s D) : Inv (rsbFlush s) D :=
  h.same rfl rfl (fun _ h => h) rfl rfl rfl (Nat.le_refl _) h.mode
theorem inv_rsbFlushPage {s : St} {D : List Tc} (h : Inv s D) (a : BitVec 32) : Inv (rsbFlushPage s a) D :=
  h.same rfl rfl (fun _ h => h) rfl rfl rfl (Nat.le_refl _) h.mode
theorem inv_rsbPush {s : St} {D : List Tc} (h : Inv s D) (t : Option Tc) (o : Nat) (v : BitVec 32) :
    Inv (rsbPush s t o v) D :=
  h.same rfl rfl (fun _ h => h) rfl rfl rfl (Nat.le_refl _) h.mode

theorem Inv.of_jmp {s : St} {D : List Tc} {jmp : BitVec 12 → Elem} {jmpMap : BitVec 20 → List (BitVec 32)} (h : Inv s D)
    (g : ∀ i, (jmp i).flags &&& INVALID = 0#32 → jidx (jmp i).virt = i ∧
      (jmp i).virt ∈ jmpMap (page (jmp i).virt) ∧ ∃ t, (jmp i).tc = some t ∧ In s t ∧
      t.virt = (jmp i).virt ∧ t.csBase = (jmp i).csBase ∧ t.flags = (jmp i).flags)
    (i : ∀ p v, v ∈ jmpMap p → p = page v ∧ (jmp (jidx v)).virt = v ∧ (jmp (jidx v)).flags &&& INVALID = 0#32) :
    Inv { s with jmp := jmp, jmpMap := jmpMap } D :=
  ⟨h.cachePages, h.pagesCache, h.ids, h.uniq, h.smcOk, h.good, g, i, h.mode⟩

theorem kill_flags (e : Elem) : e.kill.flags = INVALID := rfl

/-- Unlinking keeps the invariant, and no valid entry for the address remains. -/
theorem inv_unlink {s : St} {D : List Tc} (h : Inv s D) (v : BitVec 32) : Inv (unlink s v) D := by
  unfold unlink
  apply inv_rsbFlushPage
  split
  · rename_i hv
    refine h.of_jmp ?_ ?_
    · intro i hi
      by_cases hi' : i = jidx v
      · subst hi'; rw [upd_same, kill_flags] at hi; exact absurd hi invalid_self
      · rw [upd_ne _ _ hi'] at hi ⊢
        have g := h.jmpOk i hi
        refine ⟨g.1, ?_, g.2.2⟩
        have hne : (s.jmp i).virt ≠ v := fun e => hi' (by rw [← g.1, e])
        by_cases hp : page (s.jmp i).virt = page v
        · rw [hp, upd_same, List.mem_filter]
          exact ⟨hp ▸ g.2.1, by simpa using hne⟩
        · rw [upd_ne _ _ hp]; exact g.2.1
    · intro p w hw
      have hw' : w ∈ s.jmpMap p ∧ w ≠ v := by
        by_cases hp : p = page v
        · subst hp; rw [upd_same, List.mem_filter] at hw; exact ⟨hw.1, by simpa using hw.2⟩
        · rw [upd_ne _ _ hp] at hw
          exact ⟨hw, fun e => hp (by rw [(h.mapOk p w hw).1, e])⟩
      have g := h.mapOk p w hw'.1
      have gv := h.mapOk _ v hv
      have hj : jidx w ≠ jidx v := fun e => hw'.2 (by rw [← g.2.1, ← gv.2.1, e])
      rw [upd_ne _ _ hj]
      exact g
  · exact h

theorem unlink_gone {s : St} {D : List Tc} (h : Inv s D) (v : BitVec 32) (i : BitVec 12)
    (hi : ((unlink s v).jmp i).flags &&& INVALID = 0#32) : ((unlink s v).jmp i).virt ≠ v := by
  unfold unlink at hi ⊢
  split at hi
  · rename_i hv
    simp only [rsbFlushPage, if_pos hv] at hi ⊢
    by_cases hi' : i = jidx v
    · subst hi'; rw [upd_same, kill_flags] at hi; exact absurd hi invalid_self
    · rw [upd_ne _ _ hi'] at hi ⊢
      intro e
      exact hi' (by rw [← (h.jmpOk i hi).1, e])
  · rename_i hv
    simp only [rsbFlushPage, if_neg hv] at hi ⊢
    intro e
    exact hv (e ▸ (h.jmpOk i hi).2.1)

theorem unlink_cache (s : St) (v : BitVec 32) : (unlink s v).cache = s.cache := by
  unfold unlink rsbFlushPage; dsimp only; split <;> rfl
theorem unlink_pages (s : St) (v : BitVec 32) : (unlink s v).pages = s.pages := by
  unfold unlink rsbFlushPage; dsimp only; split <;> rfl
theorem unlink_mem (s : St) (v : BitVec 32) : (unlink s v).mem = s.mem := by
  unfold unlink rsbFlushPage; dsimp only; split <;> rfl

/-- Blocks left by drop. -/
theorem in_drop {s : St} (t u : Tc) : In (drop s t) u ↔ In s u ∧ (u.id ≠ t.id ∨ hash u.pc ≠ hash t.pc) := by
  unfold drop In
  dsimp only
  rw [unlink_cache]
  by_cases he : hash u.pc = hash t.pc
  · rw [he, upd_same, List.mem_filter]
    simp
  · rw [upd_ne _ _ he]
    exact ⟨fun h => ⟨h, .inr he⟩, fun h => h.1⟩

theorem drop_pages (s : St) (t : Tc) : (drop s t).pages = s.pages := unlink_pages s t.virt
theorem drop_mem (s : St) (t : Tc) : (drop s t).mem = s.mem := unlink_mem s t.virt
theorem drop_smc (s : St) (t : Tc) : (drop s t).smc = s.smc := by
  unfold drop unlink rsbFlushPage; dsimp only; split <;> rfl
theorem drop_next (s : St) (t : Tc) : (drop s t).next = s.next := by
  unfold drop unlink rsbFlushPage; dsimp only; split <;> rfl
theorem drop_flags (s : St) (t : Tc) : (drop s t).flags = s.flags := by
  unfold drop unlink rsbFlushPage; dsimp only; split <;> rfl

theorem inv_drop {s : St} {D : List Tc} (h : Inv s D) (t : Tc) (hin : In s t ∨ t ∈ D) : Inv (drop s t) (t :: D) := by
  have h0 := inv_unlink h t.virt
  have hin0 : ∀ u, In (unlink s t.virt) u ↔ In s u := fun u => by unfold In; rw [unlink_cache]
  refine ⟨?_, ?_, ?_, ?_, ?_, ?_, ?_, ?_, ?_⟩
  · intro i u hu
    have hc : u ∈ s.cache i ∧ (i = hash t.pc → u.id ≠ t.id) := by
      unfold drop at hu
      dsimp only at hu
      rw [unlink_cache] at hu
      by_cases he : i = hash t.pc
      · subst he; rw [upd_same, List.mem_filter] at hu; exact ⟨hu.1, fun _ => by simpa using hu.2⟩
      · rw [upd_ne _ _ he] at hu; exact ⟨hu, fun e => absurd e he⟩
    have hc' := h.cachePages i u hc.1
    refine ⟨hc'.1, by rw [drop_pages]; exact hc'.2.1, ?_⟩
    intro w hw
    rcases List.mem_cons.1 hw with rfl | hw
    · rcases hin with h1 | h1
      · intro e
        have : w = u := h.uniq w u h1 (by unfold In; rw [← hc'.1]; exact hc.1) e
        subst this
        exact hc.2 hc'.1 rfl
      · exact hc'.2.2 w h1
    · exact hc'.2.2 w hw
  · intro p u hu
    rw [drop_pages] at hu
    have := h.pagesCache p u hu
    refine ⟨this.1, ?_⟩
    rcases this.2 with h1 | h1
    · by_cases hut : u = t
      · exact .inr (by rw [hut]; exact .head _)
      · left
        rw [in_drop]
        refine ⟨h1, .inl fun e => ?_⟩
        rcases hin with h2 | h2
        · exact hut (h.uniq u t h1 h2 e)
        · exact (h.cachePages _ u h1).2.2 t h2 e.symm
    · exact .inr (.tail _ h1)
  · intro u hu; rw [drop_next]; exact h.ids u ((in_drop t u).1 hu).1
  · intro u w hu hw; exact h.uniq u w ((in_drop t u).1 hu).1 ((in_drop t w).1 hw).1
  · intro p u hu; rw [drop_pages] at hu; rw [drop_smc]; exact h.smcOk p u hu
  · intro u hu; rw [drop_mem]; exact h.good u ((in_drop t u).1 hu).1
  · intro i hi
    have hj : (drop s t).jmp = (unlink s t.virt).jmp := rfl
    have hm : (drop s t).jmpMap = (unlink s t.virt).jmpMap := rfl
    rw [hj] at hi ⊢
    rw [hm]
    have hg := unlink_gone h t.virt i hi
    obtain ⟨g1, g2, u, g3, g4, g5, g6⟩ := h0.jmpOk i hi
    refine ⟨g1, g2, u, g3, ?_, g5, g6⟩
    rw [in_drop]
    refine ⟨(hin0 u).1 g4, .inl fun e => ?_⟩
    rcases hin with h2 | h2
    · have := h.uniq u t ((hin0 u).1 g4) h2 e
      exact hg (by rw [← g5, this])
    · exact (h.cachePages _ u ((hin0 u).1 g4)).2.2 t h2 e.symm
  · exact h0.mapOk
  · rw [drop_flags]; exact h.mode

/-- Dropping a list of blocks. -/
theorem inv_drops {s : St} {D : List Tc} (h : Inv s D) (l : List Tc) (hl : ∀ t, t ∈ l → In s t ∨ t ∈ D) :
    ∃ D', Inv (l.foldl drop s) D' ∧ (∀ t, t ∈ D' ↔ t ∈ D ∨ t ∈ l) ∧ (l.foldl drop s).pages = s.pages ∧
      (l.foldl drop s).mem = s.mem ∧ (l.foldl drop s).smc = s.smc := by
  induction l generalizing s D with
  | nil => exact ⟨D, h, by simp, rfl, rfl, rfl⟩
  | cons t l ih =>
    have h1 := inv_drop h t (hl t (.head _))
    obtain ⟨D', a, b, c, d, e⟩ := ih h1 (by
      intro u hu
      have : u ∈ s.pages (page u.pc) ∨ u ∈ D := by
        rcases hl u (.tail _ hu) with h2 | h2
        · exact .inl (h.cachePages _ u h2).2.1
        · exact .inr h2
      rcases this with h2 | h2
      · exact ((h1.pagesCache (page u.pc) u (by rw [drop_pages]; exact h2)).2)
      · exact .inr (.tail _ h2))
    refine ⟨D', a, ?_, c.trans (drop_pages s t), d.trans (drop_mem s t), e.trans (drop_smc s t)⟩
    intro u
    rw [b]
    simp only [List.mem_cons]
    constructor
    · rintro ((h | h) | h)
      · exact .inr (.inl h)
      · exact .inl h
      · exact .inr (.inr h)
    · rintro (h | h | h)
      · exact .inl (.inr h)
      · exact .inl (.inl h)
      · exact .inr h

/-- Removing the blocks of `D` from the page map. -/
theorem inv_dropPage {s : St} {D : List Tc} (h : Inv s D) (q : BitVec 20) (live : List Tc)
    (h1 : ∀ t, t ∈ live ↔ t ∈ s.pages q ∧ t ∉ D) (h2 : ∀ t, t ∈ D → page t.pc = q) : Inv (dropPage s q live) [] := by
  have hpg : ∀ p t, t ∈ (dropPage s q live).pages p → t ∈ s.pages p ∧ t ∉ D := by
    intro p t ht
    unfold dropPage at ht
    dsimp only at ht
    by_cases hp : p = q
    · subst hp; rw [upd_same] at ht; exact (h1 t).1 ht
    · rw [upd_ne _ _ hp] at ht
      exact ⟨ht, fun hd => hp (by rw [(h.pagesCache p t ht).1]; exact h2 t hd)⟩
  refine ⟨?_, ?_, h.ids, h.uniq, ?_, h.good, h.jmpOk, h.mapOk, h.mode⟩
  · intro i t ht
    have hc := h.cachePages i t ht
    refine ⟨hc.1, ?_, by simp⟩
    unfold dropPage
    dsimp only
    by_cases hp : page t.pc = q
    · rw [hp, upd_same, h1]
      exact ⟨hp ▸ hc.2.1, fun hd => hc.2.2 t hd rfl⟩
    · rw [upd_ne _ _ hp]; exact hc.2.1
  · intro p t ht
    have := hpg p t ht
    have hc := h.pagesCache p t this.1
    refine ⟨hc.1, .inl ?_⟩
    rcases hc.2 with h3 | h3
    · exact h3
    · exact absurd h3 this.2
  · intro p t ht
    have hh := hpg p t ht
    have hs := h.smcOk p t hh.1
    unfold dropPage
    dsimp only
    split
    · rename_i hnil
      by_cases hp : p = q
      · subst hp
        have := (h1 t).2 hh
        rw [hnil] at this; cases this
      · rw [upd_ne _ _ hp]; exact hs
    · exact hs

theorem inv_invalidate {s : St} (h : Inv s []) (p : BitVec 32) (n : Nat) : Inv (invalidate s p n) [] := by
  unfold invalidate
  dsimp only
  split
  · exact h
  · obtain ⟨D', a, b, c, d, e⟩ := inv_drops h ((s.pages (page p)).filter (overlaps · p n)) (by
      intro t ht
      exact (h.pagesCache _ t (List.mem_filter.1 ht).1).2)
    refine inv_dropPage a (page p) _ ?_ ?_
    · intro t
      rw [c, List.mem_filter, b, List.mem_filter]
      simp only [List.not_mem_nil, false_or, Bool.not_eq_true']
      constructor
      · rintro ⟨h1, h2⟩; exact ⟨h1, fun h3 => by rw [h2] at h3; exact absurd h3.2 (by simp)⟩
      · rintro ⟨h1, h2⟩
        refine ⟨h1, ?_⟩
        cases ho : overlaps t p n with
        | false => rfl
        | true => exact absurd ⟨h1, ho⟩ h2
    · intro t ht
      have := (b t).1 ht
      simp only [List.not_mem_nil, false_or, List.mem_filter] at this
      exact (h.pagesCache _ t this.1).1.symm

/-- What is left after an invalidation does not overlap the range. -/
theorem invalidate_sub {s : St} (h : Inv s []) (p : BitVec 32) (n : Nat) (t : Tc) (ht : In (invalidate s p n) t) :
    In s t ∧ (page t.pc = page p → overlaps t p n = false) := by
  have hi := inv_invalidate h p n
  have hp := (hi.cachePages _ t ht).2.1
  unfold invalidate at ht hp
  dsimp only at ht hp
  split at ht
  · rename_i hnil
    refine ⟨ht, fun e => ?_⟩
    have := (h.cachePages _ t ht).2.1
    rw [e, hnil] at this; cases this
  · rename_i hnil
    rw [if_neg hnil] at hp
    constructor
    · have key : ∀ (l : List Tc) (s : St), In (l.foldl drop s) t → In s t := by
        intro l
        induction l with
        | nil => exact fun s h => h
        | cons u l ih => intro s h; exact ((in_drop u t).1 (ih _ h)).1
      exact key _ s ht
    · intro e
      unfold dropPage at hp
      dsimp only at hp
      rw [e, upd_same, List.mem_filter] at hp
      simpa using hp.2

theorem invalidate_mem (s : St) (p : BitVec 32) (n : Nat) : (invalidate s p n).mem = s.mem := by
  unfold invalidate
  dsimp only
  split
  · rfl
  · have key : ∀ (l : List Tc) (s : St), (l.foldl drop s).mem = s.mem := by
      intro l
      induction l with
      | nil => exact fun _ => rfl
      | cons u l ih => intro s; exact (ih _).trans (drop_mem s u)
    exact key _ s

/-- A byte outside the stored range. -/
theorem store_other (mem : BitVec 32 → BitVec 8) (p a : BitVec 32) (bs : List (BitVec 8))
    (h : bs.length ≤ (a - p).toNat) : store mem p bs a = mem a := by
  unfold store
  rw [List.getD_eq_getElem?_getD, List.getElem?_eq_none h]
  rfl

/-- A block that does not overlap the range stays current. -/
theorem good_store {mem : BitVec 32 → BitVec 8} {t : Tc} (h : Good mem t) (p : BitVec 32) (bs : List (BitVec 8))
    (hp : p.toNat % 4096 + bs.length ≤ 4096) (ho : page t.pc = page p → overlaps t p bs.length = false) :
    Good (store mem p bs) t := by
  refine ⟨h.onPage, h.low, h.mode, h.len, ?_⟩
  intro i hi
  rw [h.bytes i hi]
  congr 1
  symm
  by_cases hb : bs = []
  · subst hb; rfl
  have hlen : 0 < bs.length := List.length_pos_iff.2 hb
  apply store_other
  have h1 := h.onPage
  have h2 := t.pc.isLt
  have h3 := p.isLt
  have e1 : (t.pc + BitVec.ofNat 32 i).toNat = t.pc.toNat + i := by
    simp only [BitVec.toNat_add, BitVec.toNat_ofNat]; omega
  rw [BitVec.toNat_sub, e1]
  by_cases hpg : page t.pc = page p
  · have ho := ho hpg
    rw [page_eq] at hpg
    unfold overlaps at ho
    simp only [Bool.and_eq_false_iff, bne_eq_false_iff_eq, Bool.not_eq_false', decide_eq_true_eq] at ho
    rcases ho with ho | ho
    · omega
    · omega
  · rw [page_eq] at hpg
    omega

theorem inv_write {s : St} (h : Inv s []) (p : BitVec 32) (bs : List (BitVec 8))
    (hp : p.toNat % 4096 + bs.length ≤ 4096) : Inv (write s p bs) [] := by
  unfold write
  dsimp only
  have key : ∀ s' : St, Inv s' [] → (∀ t, In s' t → page t.pc = page p → overlaps t p bs.length = false) →
      Inv { s' with mem := store s'.mem p bs } [] := by
    intro s' h' ho
    exact ⟨h'.cachePages, h'.pagesCache, h'.ids, h'.uniq, h'.smcOk,
      fun t ht => good_store (h'.good t ht) p bs hp (ho t ht), h'.jmpOk, h'.mapOk, h'.mode⟩
  split
  · exact key _ (inv_invalidate h p _) fun t ht => (invalidate_sub h p _ t ht).2
  · rename_i hs
    refine key s h fun t ht e => ?_
    exact absurd (h.smcOk _ t ((h.cachePages _ t ht).2.1)) (by rw [e]; exact hs)

theorem inv_unlinkAll {s : St} {D : List Tc} (h : Inv s D) : Inv (unlinkAll s) D := by
  unfold unlinkAll
  apply inv_rsbFlush
  refine h.of_jmp ?_ ?_
  · intro i hi; exact absurd hi invalid_self
  · intro p v hv; cases hv

theorem inv_unlinkPage {s : St} {D : List Tc} (h : Inv s D) (v : BitVec 32) : Inv (unlinkPage s v) D := by
  unfold unlinkPage
  apply inv_rsbFlushPage
  refine h.of_jmp ?_ ?_
  · intro i hi
    by_cases hm : i ∈ (s.jmpMap (page v)).map jidx
    · rw [if_pos hm] at hi; exact absurd hi invalid_self
    · rw [if_neg hm] at hi ⊢
      have g := h.jmpOk i hi
      refine ⟨g.1, ?_, g.2.2⟩
      have : page (s.jmp i).virt ≠ page v := by
        intro e
        apply hm
        rw [List.mem_map]
        exact ⟨_, e ▸ g.2.1, g.1⟩
      rw [upd_ne _ _ this]
      exact g.2.1
  · intro p w hw
    by_cases hp : p = page v
    · subst hp; rw [upd_same] at hw; cases hw
    · rw [upd_ne _ _ hp] at hw
      have g := h.mapOk p w hw
      have : ¬ jidx w ∈ (s.jmpMap (page v)).map jidx := by
        rw [List.mem_map]
        rintro ⟨x, hx, e⟩
        have gx := h.mapOk _ x hx
        have : x = w := by rw [← gx.2.1, ← g.2.1, e]
        subst this
        exact hp (by rw [g.1, gx.1])
      rw [if_neg this]
      exact g

theorem unlinkPage_gone {s : St} {D : List Tc} (h : Inv s D) (v : BitVec 32) (i : BitVec 12)
    (hi : ((unlinkPage s v).jmp i).flags &&& INVALID = 0#32) : page ((unlinkPage s v).jmp i).virt ≠ page v := by
  have hi2 := (inv_unlinkPage h v).jmpOk i hi
  intro e
  have := hi2.2.1
  rw [e] at this
  unfold unlinkPage rsbFlushPage at this
  dsimp only at this
  rw [upd_same] at this
  cases this

theorem inv_clear {s : St} (h : Inv s []) : Inv (clear s) [] := by
  have hj : ∀ i, ((clear s).jmp i).flags = INVALID := fun _ => rfl
  refine ⟨?_, ?_, ?_, ?_, ?_, ?_, ?_, ?_, h.mode⟩
  · intro i t ht; cases ht
  · intro p t ht; cases ht
  · intro t ht; cases ht
  · intro t u ht; cases ht
  · intro p t ht; cases ht
  · intro t ht; cases ht
  · intro i hi; rw [hj] at hi; exact absurd hi invalid_self
  · intro p v hv; cases hv

theorem inv_linkJmp {s : St} {D : List Tc} (h : Inv s D) (t : Tc) (ht : In s t) : Inv (linkJmp s t) D := by
  unfold linkJmp
  dsimp only
  have hmode := (h.good t ht).mode
  -- the map without the old entry
  have hm : ∀ p w, w ∈ (if (s.jmp (jidx t.virt)).flags &&& INVALID = 0#32 then
      upd s.jmpMap (page (s.jmp (jidx t.virt)).virt)
        ((s.jmpMap (page (s.jmp (jidx t.virt)).virt)).filter (· ≠ (s.jmp (jidx t.virt)).virt)) else s.jmpMap) p ↔
      w ∈ s.jmpMap p ∧ jidx w ≠ jidx t.virt := by
    intro p w
    split
    · rename_i hv
      have g := h.jmpOk _ hv
      generalize s.jmp (jidx t.virt) = e at hv g
      by_cases hp : p = page e.virt
      · subst hp
        rw [upd_same, List.mem_filter]
        constructor
        · rintro ⟨h1, h2⟩
          refine ⟨h1, fun e' => ?_⟩
          have gw := h.mapOk _ w h1
          have ge := h.mapOk _ _ g.2.1
          have : w = e.virt := by rw [← gw.2.1, ← ge.2.1, e', g.1]
          rw [this] at h2
          simp at h2
        · rintro ⟨h1, h2⟩
          refine ⟨h1, ?_⟩
          simp only [decide_eq_true_eq]
          intro e'
          exact h2 (by rw [e', g.1])
      · rw [upd_ne _ _ hp]
        refine ⟨fun h1 => ⟨h1, fun e' => ?_⟩, fun h1 => h1.1⟩
        have gw := h.mapOk _ w h1
        have ge := h.mapOk _ _ g.2.1
        have : w = e.virt := by rw [← gw.2.1, ← ge.2.1, e', g.1]
        exact hp (by rw [gw.1, this])
    · rename_i hv
      refine ⟨fun h1 => ⟨h1, fun e' => ?_⟩, fun h1 => h1.1⟩
      have gw := h.mapOk _ w h1
      rw [e'] at gw
      exact hv gw.2.2
  generalize (if (s.jmp (jidx t.virt)).flags &&& INVALID = 0#32 then
      upd s.jmpMap (page (s.jmp (jidx t.virt)).virt)
        ((s.jmpMap (page (s.jmp (jidx t.virt)).virt)).filter (· ≠ (s.jmp (jidx t.virt)).virt)) else s.jmpMap) = m at hm
  have hm2 : ∀ p w, w ∈ upd m (page t.virt) (t.virt :: (m (page t.virt)).filter (· ≠ t.virt)) p ↔
      (w = t.virt ∧ p = page t.virt) ∨ w ∈ m p := by
    intro p w
    by_cases hp : p = page t.virt
    · subst hp
      rw [upd_same, List.mem_cons, List.mem_filter]
      simp only [ne_eq, decide_not, Bool.not_eq_eq_eq_not, Bool.not_true, decide_eq_false_iff_not, and_true]
      constructor
      · rintro (h | h)
        · exact .inl h
        · exact .inr h.1
      · rintro (h | h)
        · exact .inl h
        · by_cases e : w = t.virt
          · exact .inl e
          · exact .inr ⟨h, e⟩
    · rw [upd_ne _ _ hp]
      exact ⟨.inr, fun h => h.resolve_left fun h => hp h.2⟩
  refine h.of_jmp ?_ ?_
  · intro i hi
    by_cases hi' : i = jidx t.virt
    · subst hi'
      rw [upd_same] at hi ⊢
      refine ⟨rfl, (hm2 _ _).2 (.inl ⟨rfl, rfl⟩), t, rfl, ht, rfl, rfl, rfl⟩
    · rw [upd_ne _ _ hi'] at hi ⊢
      have g := h.jmpOk i hi
      refine ⟨g.1, (hm2 _ _).2 (.inr ((hm _ _).2 ⟨g.2.1, ?_⟩)), g.2.2⟩
      rw [g.1]; exact hi'
  · intro p w hw
    rcases (hm2 p w).1 hw with ⟨rfl, rfl⟩ | hw
    · exact ⟨rfl, by rw [upd_same], by rw [upd_same]; exact hmode⟩
    · have := (hm p w).1 hw
      rw [upd_ne _ _ this.2]
      exact h.mapOk p w this.1

theorem inv_insert {s : St} (h : Inv s []) (t : Tc) (hid : t.id + 1 = s.next) (hnew : ∀ u, In s u → u.id < t.id)
    (hg : Good s.mem t) (hs : s.smc (page t.pc) = true) : Inv (insert s t) [] := by
  have hin : ∀ u, In (insert s t) u ↔ u = t ∨ In s u := by
    intro u
    unfold In insert
    dsimp only
    by_cases he : hash u.pc = hash t.pc
    · rw [he, upd_same, List.mem_cons]
    · rw [upd_ne _ _ he]
      exact ⟨.inr, fun h => h.resolve_left fun e => he (by rw [e])⟩
  have hpg : ∀ p u, u ∈ (insert s t).pages p ↔ (u = t ∧ p = page t.pc) ∨ u ∈ s.pages p := by
    intro p u
    unfold insert
    dsimp only
    by_cases he : p = page t.pc
    · subst he; rw [upd_same, List.mem_append, List.mem_singleton]
      exact ⟨fun h => h.elim .inr fun h => .inl ⟨h, rfl⟩, fun h => h.elim (fun h => .inr h.1) .inl⟩
    · rw [upd_ne _ _ he]
      exact ⟨.inr, fun h => h.resolve_left fun e => he e.2⟩
  refine ⟨?_, ?_, ?_, ?_, ?_, ?_, ?_, h.mapOk, h.mode⟩
  · intro i u hu
    have : u = t ∧ i = hash t.pc ∨ u ∈ s.cache i := by
      unfold insert at hu
      dsimp only at hu
      by_cases he : i = hash t.pc
      · subst he; rw [upd_same, List.mem_cons] at hu
        exact hu.elim (fun h => .inl ⟨h, rfl⟩) .inr
      · rw [upd_ne _ _ he] at hu; exact .inr hu
    rcases this with ⟨rfl, rfl⟩ | hu
    · exact ⟨rfl, (hpg _ _).2 (.inl ⟨rfl, rfl⟩), by simp⟩
    · have := h.cachePages i u hu
      exact ⟨this.1, (hpg _ _).2 (.inr this.2.1), by simp⟩
  · intro p u hu
    rcases (hpg p u).1 hu with ⟨rfl, rfl⟩ | hu
    · exact ⟨rfl, .inl ((hin _).2 (.inl rfl))⟩
    · have := h.pagesCache p u hu
      exact ⟨this.1, .inl ((hin _).2 (.inr (this.2.resolve_right (by simp))))⟩
  · intro u hu
    show u.id < s.next
    rcases (hin u).1 hu with rfl | hu
    · omega
    · exact h.ids u hu
  · intro u w hu hw e
    rcases (hin u).1 hu with hu' | hu' <;> rcases (hin w).1 hw with hw' | hw'
    · rw [hu', hw']
    · have := hnew w hw'; rw [hu'] at e; omega
    · have := hnew u hu'; rw [hw'] at e; omega
    · exact h.uniq u w hu' hw' e
  · intro p u hu
    show s.smc p = true
    rcases (hpg p u).1 hu with ⟨rfl, rfl⟩ | hu
    · exact hs
    · exact h.smcOk p u hu
  · intro u hu
    rcases (hin u).1 hu with rfl | hu
    · exact hg
    · exact h.good u hu
  · intro i hi
    obtain ⟨g1, g2, u, g3, g4, g5⟩ := h.jmpOk i hi
    exact ⟨g1, g2, u, g3, (hin u).2 (.inr g4), g5⟩

theorem search_in {s : St} {pc : BitVec 32} {t : Tc} (hs : search s pc = some t) :
    In s t ∧ t.csBase = s.csBase ∧ t.pc = pc ∧ t.flags = s.flags := by
  unfold search at hs
  have h1 := List.find?_some hs
  have h2 := List.mem_of_find?_eq_some hs
  simp only [Bool.and_eq_true, beq_iff_eq] at h1
  refine ⟨?_, h1.1.1, h1.1.2, h1.2⟩
  unfold In; rw [h1.1.2]; exact h2

/-- A freshly translated block. -/
theorem good_translate (d : Decoder) (hl : LenOk d) (s : St) (hmode : s.flags &&& INVALID = 0#32) (v : BitVec 32)
    (hc : (translate d s v).2 = true) : Good s.mem (translate d s v).1 := by
  unfold translate at hc ⊢
  dsimp only at hc ⊢
  split at hc
  · refine ⟨?_, low_phys _ _, hmode, rfl, ?_⟩
    · dsimp only; have := Nat.mod_lt (phys s.map v).toNat (by decide : 0 < 4096); omega
    · intro i hi; cases hi
  · simp only [Bool.not_eq_true', Bool.or_eq_false_iff] at hc
    have hsz := loop_size d hl s.flags s.mem s.map 4096 (phys s.map v) v hc.1
    have hb := loop_bytes d s.flags s.mem s.map 4096 (phys s.map v) v
    refine ⟨by dsimp only; rw [low_phys]; exact hsz, low_phys _ _, hmode, by dsimp only; rw [hb]; simp, ?_⟩
    intro i hi
    dsimp only at hi ⊢
    rw [hb, List.getElem?_map, List.getElem?_range hi]
    simp only [Option.map_some]
    rw [fetch_page]
    omega

theorem translate_key (d : Decoder) (s : St) (v : BitVec 32) : (translate d s v).1.id = s.next ∧
    (translate d s v).1.pc = phys s.map v ∧ (translate d s v).1.virt = v ∧ (translate d s v).1.csBase = s.csBase ∧
    (translate d s v).1.flags = s.flags := by
  unfold translate
  dsimp only
  split <;> exact ⟨rfl, rfl, rfl, rfl, rfl⟩

theorem inv_mainLoop {s : St} (h : Inv s []) (d : Decoder) (hl : LenOk d) (v : BitVec 32) (link : Bool)
    (hn : s.num ≠ 32768) : Inv (mainLoop d s v link).2 [] := by
  unfold mainLoop
  dsimp only
  have h0 : Inv { s with smc := upd s.smc (page (phys s.map v)) true, now := v } [] := by
    refine h.same rfl rfl ?_ rfl rfl rfl (Nat.le_refl _) h.mode
    intro p hp
    show upd s.smc _ true p = true
    unfold upd; split
    · rfl
    · exact hp
  have hcur : ∀ (s' : St) (c : Option Tc), Inv s' [] → Inv { s' with cur := c } [] := fun s' c h' =>
    h'.same rfl rfl (fun _ h => h) rfl rfl rfl (Nat.le_refl _) h'.mode
  split
  · rename_i t ht
    apply hcur
    split
    · exact inv_linkJmp h0 t (search_in ht).1
    · exact h0
  · have hfull : (s.num == 32768) = false := by simpa using hn
    rw [hfull]
    simp only [Bool.false_eq_true, if_false, Bool.not_false, Bool.and_true]
    have hk := translate_key d { s with smc := upd s.smc (page (phys s.map v)) true, now := v } v
    have h1 : Inv { s with smc := upd s.smc (page (phys s.map v)) true, now := v, next := s.next + 1 } [] :=
      h0.same rfl rfl (fun _ h => h) rfl rfl rfl (Nat.le_succ _) h.mode
    split
    · rename_i hc
      have hg := good_translate d hl _ h0.mode v hc
      have h2 := inv_insert h1 (translate d { s with smc := upd s.smc (page (phys s.map v)) true, now := v } v).1
        (by rw [hk.1]) (by intro u hu; rw [hk.1]; exact h.ids u hu) hg (by
          rw [hk.2.1]; exact upd_same ..)
      apply hcur
      split
      · refine inv_linkJmp h2 _ ?_
        show _ ∈ upd _ _ _ _
        rw [upd_same]; exact .head _
      · exact h2
    · exact hcur _ _ h1

theorem inv_invalidateHook {s : St} (h : Inv s []) (p : BitVec 32) : Inv (invalidateHook s p) [] := by
  unfold invalidateHook
  dsimp only
  split
  · exact h
  · rename_i t ht
    have hm := List.mem_of_find?_eq_some ht
    have hp := h.pagesCache _ t hm
    have hin := hp.2.resolve_right (by simp)
    refine inv_dropPage (inv_drop h t (.inl hin)) (page p) _ ?_ ?_
    · intro u
      rw [drop_pages, List.mem_filter]
      simp only [List.mem_cons, List.not_mem_nil, or_false, decide_eq_true_eq, ne_eq]
      refine ⟨fun hh => ⟨hh.1, fun e => hh.2 (by rw [e])⟩, fun hh => ⟨hh.1, fun e => hh.2 ?_⟩⟩
      exact h.uniq u t ((h.pagesCache _ u hh.1).2.resolve_right (by simp)) hin e
    · intro u hu
      rcases List.mem_cons.1 hu with rfl | hu
      · exact hp.1.symm
      · cases hu

theorem inv31 : ∀ j : Fin 32, j.val ≠ 31 → (0x80000000#32)[j.val] = false := by decide
theorem modeOf_valid (a b : BitVec 32) : modeOf a b &&& INVALID = 0#32 := by
  unfold modeOf HFLG_CONST EFLAGS_CONST INVALID
  ext i hi
  by_cases h31 : i = 31
  · subst h31; simp
  · have := inv31 ⟨i, hi⟩ h31
    simp only at this
    simp [this]

/-- Events the invariant survives: the known defects are excluded. -/
def Sane (s : St) : Op → Prop
  | .run _ _ => s.num ≠ 32768
  | .write p bs => p.toNat % 4096 + bs.length ≤ 4096
  | .writeCross _ _ => False
  | _ => True

theorem inv_rsbPop {s : St} (h : Inv s []) : Inv (rsbPop s).2 [] := by
  unfold rsbPop
  dsimp only
  have hp : ∀ (r : BitVec 6 → Rsb) (q : BitVec 6), Inv { s with rsb := r, rsbPtr := q } [] := fun r q =>
    h.same rfl rfl (fun _ h => h) rfl rfl rfl (Nat.le_refl _) h.mode
  split
  · exact inv_rsbFlush h
  · split
    · exact hp _ _
    · split
      · exact hp _ _
      · exact inv_rsbFlush h

theorem inv_step {s : St} (h : Inv s []) (d : Decoder) (hl : LenOk d) (o : Op) (ho : Sane s o) : Inv (step d s o).2 [] := by
  have hany : ∀ (s' : St), Inv s' [] → ∀ (n : BitVec 32) (c : Option Tc), Inv { s' with now := n, cur := c } [] :=
    fun s' h' n c => h'.same rfl rfl (fun _ h => h) rfl rfl rfl (Nat.le_refl _) h'.mode
  cases o with
  | run v link => exact inv_mainLoop h d hl v link ho
  | jump v =>
    unfold step
    dsimp only
    split
    · exact hany s h _ _
    · exact hany s h _ _
  | call off target => exact inv_rsbPush h _ _ _
  | event target => exact inv_rsbPush h _ _ _
  | ret v =>
    have h1 := inv_rsbPop (hany s h v s.cur)
    unfold step
    dsimp only
    split
    · exact h1.same rfl rfl (fun _ h => h) rfl rfl rfl (Nat.le_refl _) h1.mode
    · exact h1.same rfl rfl (fun _ h => h) rfl rfl rfl (Nat.le_refl _) h1.mode
  | advance v => exact h.same rfl rfl (fun _ h => h) rfl rfl rfl (Nat.le_refl _) h.mode
  | write p bs => exact inv_write h p bs ho
  | writeCross v bs => exact ho.elim
  | setMode b hf e => exact h.same rfl rfl (fun _ h => h) rfl rfl rfl (Nat.le_refl _) (modeOf_valid hf e)
  | invlpg v to =>
    exact inv_unlinkPage (s := { s with map := upd s.map (page v) to }) (h.same rfl rfl (fun _ h => h) rfl rfl rfl (Nat.le_refl _) h.mode) v
  | flush map =>
    exact inv_unlinkAll (s := { s with map := map }) (h.same rfl rfl (fun _ h => h) rfl rfl rfl (Nat.le_refl _) h.mode)
  | clear => exact inv_clear h
  | purge => exact (inv_clear h).same rfl rfl (fun _ h => h) rfl rfl rfl (Nat.le_refl _) h.mode
  | flushCall v => exact inv_rsbFlushPage h v
  | hookAdd a hk =>
    have h1 : Inv { s with smc := upd s.smc (page (phys s.map a)) true } [] := by
      refine h.same rfl rfl ?_ rfl rfl rfl (Nat.le_refl _) h.mode
      intro p hp
      show upd s.smc _ true p = true
      unfold upd; split
      · rfl
      · exact hp
    have h2 := inv_invalidate h1 (phys s.map a) 1
    exact h2.same rfl rfl (fun _ h => h) rfl rfl rfl (Nat.le_refl _) h2.mode
  | hookRemove a =>
    show Inv (hookRemove s a).2 []
    unfold hookRemove
    split
    · exact h
    · exact inv_invalidateHook (s := { s with hooks := upd s.hooks a none }) (h.same rfl rfl (fun _ h => h) rfl rfl rfl (Nat.le_refl _) h.mode) _
  | serviced => exact h.same rfl rfl (fun _ h => h) rfl rfl rfl (Nat.le_refl _) h.mode

theorem inv_reset (mem : BitVec 32 → BitVec 8) (map : BitVec 20 → BitVec 20) : Inv (reset mem map) [] := by
  refine ⟨?_, ?_, ?_, ?_, ?_, ?_, ?_, ?_, by show 0#32 &&& INVALID = 0#32; decide⟩
  · intro i t ht; cases ht
  · intro p t ht; cases ht
  · intro t ht; cases ht
  · intro t u ht; cases ht
  · intro p t ht; cases ht
  · intro t ht; cases ht
  · intro i hi; exact absurd hi invalid_self
  · intro p v hv; cases hv

end Verif.Tc
