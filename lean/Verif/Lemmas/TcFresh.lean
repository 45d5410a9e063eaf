import Verif.Lemmas.TcLink
/-
Cached blocks are what translating the current memory gives; hooks in cached blocks.
-/
namespace Verif.Tc

/-- The decoder looks only at the bytes of the instruction it finds. -/
def Local (d : Decoder) : Prop :=
  ∀ fl f g n e, d fl f = .ok n e → (∀ i, i < n → f i = g i) → d fl g = .ok n e

/-- No instruction of the block is the inline exception for undecodable bytes. -/
def NoBad (l : List Ins) : Prop := Ins.bad ∉ l

theorem loop_congr (d : Decoder) (hl : LenOk d) (hd : Local d) (fl : BitVec 32) (mem mem' : BitVec 32 → BitVec 8)
    (map map' : BitVec 20 → BitVec 20) (fuel : Nat) (pc v : BitVec 32)
    (hb : NoBad (translateLoop d fl mem map fuel pc v).1) (hc : (translateLoop d fl mem map fuel pc v).2.2 = false)
    (hm : ∀ i, i < (translateLoop d fl mem map fuel pc v).2.1 →
      mem' (pc + BitVec.ofNat 32 i) = mem (pc + BitVec.ofNat 32 i)) :
    translateLoop d fl mem' map' fuel pc v = translateLoop d fl mem map fuel pc v := by
  induction fuel generalizing pc v with
  | zero => rfl
  | succ fuel ih =>
    have hsz := loop_size d hl fl mem map (fuel + 1) pc v hc
    unfold translateLoop at hb hc hm hsz ⊢
    cases hdec : d fl (fetch mem map pc v) with
    | bad => rw [hdec] at hb; exact absurd (List.mem_singleton.2 rfl) hb
    | ok len ends =>
      rw [hdec] at hb hc hm hsz
      have hlen := hl _ _ _ _ hdec
      dsimp only at hb hc hm hsz ⊢
      have hn : len ≤ (if (ends || page v != page (v + BitVec.ofNat 32 len - 1#32) || page v != page (v + BitVec.ofNat 32 len) || oneInstr fl) = true then
          ([Ins.ok ((List.range len).map (fetch mem map pc v))], len, page v != page (v + BitVec.ofNat 32 len - 1#32))
        else (Ins.ok ((List.range len).map (fetch mem map pc v)) :: (translateLoop d fl mem map fuel (pc + BitVec.ofNat 32 len) (v + BitVec.ofNat 32 len)).1, len + (translateLoop d fl mem map fuel (pc + BitVec.ofNat 32 len) (v + BitVec.ofNat 32 len)).2.1, (translateLoop d fl mem map fuel (pc + BitVec.ofNat 32 len) (v + BitVec.ofNat 32 len)).2.2)).2.1 := by
        split
        · exact Nat.le_refl _
        · exact Nat.le_add_right _ _
      have hf : ∀ i, i < len → fetch mem map pc v i = fetch mem' map' pc v i := by
        intro i hi
        rw [fetch_page _ _ _ _ _ (by omega), fetch_page _ _ _ _ _ (by omega)]
        exact (hm i (by omega)).symm
      rw [hd _ _ _ _ _ hdec hf]
      dsimp only
      have hbytes : (List.range len).map (fetch mem' map' pc v) = (List.range len).map (fetch mem map pc v) :=
        List.map_congr_left fun i hi => (hf i (List.mem_range.1 hi)).symm
      rw [hbytes]
      split
      · rfl
      · rename_i hif
        rw [if_neg hif] at hb hc hm
        dsimp only at hb hc hm
        rw [ih (pc + BitVec.ofNat 32 len) (v + BitVec.ofNat 32 len)]
        · exact fun h => hb (.tail _ h)
        · exact hc
        · intro i hi
          have := hm (len + i) (by omega)
          rw [BitVec.ofNat_add, ← BitVec.add_assoc] at this
          exact this

/-- Cached blocks of decoded instructions are what translating them again would give. -/
def FreshOk (d : Decoder) (s : St) : Prop :=
  ∀ t, In s t → t.hook = none → NoBad t.body → ∀ map, translateLoop d t.flags s.mem map 4096 t.pc t.virt = (t.body, t.size, false)

/-- Only the main loop adds blocks. -/
theorem in_drops (l : List Tc) (s : St) (t : Tc) (h : In (l.foldl drop s) t) : In s t := by
  induction l generalizing s with
  | nil => exact h
  | cons u l ih => exact ((in_drop u t).1 (ih _ h)).1

theorem in_invalidate (s : St) (p : BitVec 32) (n : Nat) (t : Tc) (h : In (invalidate s p n) t) : In s t := by
  unfold invalidate at h
  dsimp only at h
  split at h
  · exact h
  · exact in_drops _ s t h

theorem in_invalidateHook (s : St) (p : BitVec 32) (t : Tc) (h : In (invalidateHook s p) t) : In s t := by
  unfold invalidateHook at h
  dsimp only at h
  split at h
  · exact h
  · exact ((in_drop _ t).1 h).1

/-- The block made by the main loop. -/
def made (d : Decoder) (s : St) (v : BitVec 32) : Tc × Bool :=
  translate d { s with smc := upd s.smc (page (phys s.map v)) true, now := v } v

theorem made_eq (d : Decoder) (s : St) (v : BitVec 32) : made d s v = translate d s v := rfl

theorem in_mainLoop (d : Decoder) (s : St) (v : BitVec 32) (link : Bool) (t : Tc) (h : In (mainLoop d s v link).2 t) :
    In s t ∨ (t = (translate d s v).1 ∧ (translate d s v).2 = true) := by
  unfold mainLoop at h
  dsimp only at h
  split at h
  · cases link <;> exact .inl h
  · split at h
    · rename_i hc
      have hcl : ∀ s', In (purge s') t → False := fun s' h => by cases h
      have key : ∀ s' : St, (In s' t → In s t) → In (insert s' (made d s v).1) t →
          In s t ∨ (t = (made d s v).1 ∧ (made d s v).2 = true) := by
        intro s' hs' hin
        rcases (in_insert _ _ _).1 hin with h | h
        · exact .inr ⟨h, hc⟩
        · exact .inl (hs' h)
      have h' : In (insert (if (s.num == 32768) = true then purge { s with smc := upd s.smc (page (phys s.map v)) true, now := v, next := s.next + 1 } else { s with smc := upd s.smc (page (phys s.map v)) true, now := v, next := s.next + 1 }) (made d s v).1) t := by
        split at h <;> exact h
      refine key _ ?_ h'
      split
      · exact fun h => (hcl _ h).elim
      · exact fun h => h
    · left
      split at h
      · cases h
      · exact h

theorem in_step (d : Decoder) (s : St) (o : Op) (t : Tc) (h : In (step d s o).2 t) :
    In s t ∨ ∃ v link, o = .run v link ∧ t = (translate d s v).1 ∧ (translate d s v).2 = true := by
  cases o with
  | run v link =>
    rcases in_mainLoop d s v link t h with h | h
    · exact .inl h
    · exact .inr ⟨v, link, rfl, h⟩
  | jump v => left; unfold step at h; dsimp only at h; split at h <;> exact h
  | call off target => exact .inl h
  | event target => exact .inl h
  | ret v =>
    left
    have := rsbPop_cache { s with now := v }
    unfold step at h; dsimp only at h
    split at h <;> (unfold In at h ⊢; dsimp only at h; rw [this] at h; exact h)
  | advance v => exact .inl h
  | write p bs =>
    left
    have h : In (Tc.write s p bs) t := h
    unfold Tc.write at h
    dsimp only at h
    split at h
    · exact in_invalidate s p _ t h
    · exact h
  | writeCross v bs =>
    left
    have h : In (Tc.writeCross s v bs) t := h
    unfold Tc.writeCross at h
    dsimp only at h
    split at h <;> split at h
    · exact in_invalidate _ _ _ t (in_invalidate _ _ _ t h)
    · exact in_invalidate _ _ _ t h
    · exact in_invalidate _ _ _ t h
    · exact h
  | setMode b hf e => exact .inl h
  | invlpg v to => exact .inl h
  | flush map => exact .inl h
  | clear => cases h
  | purge => cases h
  | flushCall v => exact .inl h
  | hookAdd a hk =>
    have h : In (invalidate { s with smc := upd s.smc (page (phys s.map a)) true } (phys s.map a) 1) t := h
    exact .inl (in_invalidate { s with smc := upd s.smc (page (phys s.map a)) true } _ _ _ h)
  | hookRemove a =>
    have h : In (hookRemove s a).2 t := h
    unfold hookRemove at h
    split at h
    · exact .inl h
    · exact .inl (in_invalidateHook { s with hooks := upd s.hooks a none } _ t h)
  | serviced => exact .inl h

theorem mainLoop_frame (d : Decoder) (s : St) (v : BitVec 32) (link : Bool) : (mainLoop d s v link).2.mem = s.mem ∧
    (mainLoop d s v link).2.map = s.map ∧ (mainLoop d s v link).2.hooks = s.hooks := by
  unfold mainLoop
  dsimp only
  split
  · cases link <;> exact ⟨rfl, rfl, rfl⟩
  · generalize (s.num == 32768) = c
    cases c <;> cases link <;> split <;> exact ⟨rfl, rfl, rfl⟩

theorem mainLoop_mem (d : Decoder) (s : St) (v : BitVec 32) (link : Bool) : (mainLoop d s v link).2.mem = s.mem :=
  (mainLoop_frame d s v link).1

/-- Two memories a block is current in agree on its bytes. -/
theorem good_agree {m m' : BitVec 32 → BitVec 8} {t : Tc} (h : Good m t) (h' : Good m' t) (i : Nat) (hi : i < t.size) :
    m' (t.pc + BitVec.ofNat 32 i) = m (t.pc + BitVec.ofNat 32 i) := by
  have a := h.bytes i hi
  have b := h'.bytes i hi
  rw [a] at b
  exact (Option.some.inj b).symm

theorem translate_loop (d : Decoder) (s : St) (v : BitVec 32) (hh : (translate d s v).1.hook = none) :
    (translate d s v).1.body = (translateLoop d s.flags s.mem s.map 4096 (phys s.map v) v).1 ∧
    (translate d s v).1.size = (translateLoop d s.flags s.mem s.map 4096 (phys s.map v) v).2.1 ∧
    ((translate d s v).2 = true → (translateLoop d s.flags s.mem s.map 4096 (phys s.map v) v).2.2 = false) := by
  unfold translate at hh ⊢
  dsimp only at hh ⊢
  split at hh
  · cases hh
  · refine ⟨rfl, rfl, ?_⟩
    simp only [Bool.not_eq_true', Bool.or_eq_false_iff]
    exact fun h => h.1

theorem fresh_step {d : Decoder} (hl : LenOk d) (hd : Local d) {s : St} (h : Inv s []) (hf : FreshOk d s) (o : Op)
    (ho : Sane s o) : FreshOk d (step d s o).2 := by
  intro t ht hh hb map
  have h' := inv_step h d hl o ho
  rcases in_step d s o t ht with h1 | ⟨v, link, rfl, rfl, hc⟩
  · have e := hf t h1 hh hb map
    rw [loop_congr d hl hd t.flags s.mem (step d s o).2.mem map map 4096 t.pc t.virt (by rw [e]; exact hb) (by rw [e])
      (by rw [e]; exact good_agree (h.good t h1) (h'.good t ht)), e]
  · have hk := translate_key d s v
    have ht := translate_loop d s v hh
    have hm : (step d s (.run v link)).2.mem = s.mem := mainLoop_mem d s v link
    rw [hk.2.1, hk.2.2.1, hk.2.2.2.2, hm, loop_congr d hl hd s.flags s.mem s.mem s.map map 4096 _ _ (by rw [← ht.1]; exact hb) (ht.2.2 hc)
      (fun _ _ => rfl), ht.1, ht.2.1, ← ht.2.2 hc]

theorem fresh_hist {d : Decoder} (hl : LenOk d) (hd : Local d) (os : List Op) (s : St) (h : Inv s []) (hf : FreshOk d s)
    (hs : All d Sane s os) : FreshOk d (hist d s os) := by
  induction os generalizing s with
  | nil => exact hf
  | cons o os ih => exact ih _ (inv_step h d hl o hs.1) (fresh_step hl hd h hf o hs.1) hs.2

theorem fresh_reset (d : Decoder) (mem : BitVec 32 → BitVec 8) (map : BitVec 20 → BitVec 20) : FreshOk d (reset mem map) := by
  intro t ht; cases ht

end Verif.Tc
