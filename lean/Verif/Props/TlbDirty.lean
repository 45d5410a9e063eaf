/-
C18 with the TLB in front of the page walk: a hit skips the walk, so the accessed and dirty bits must have been set when the entry
was made.
-/
import Verif.Props.Tlb

namespace Verif.Paging
open Verif.Paging.Spec Verif.Bits

namespace Spec

/-- The entries that map `va` are marked: accessed on both levels, and dirty if `d`. -/
def MarkedPage (b : Bus) (c : Ctl) (m : Mem) (va : Addr) (d : Bool) : Prop :=
  pagingOn c = true → ∃ mp, mapping b.fix c m va = some mp ∧ accessed (word m mp.pdeAddr) = true ∧ accessed (word m mp.leafAddr) = true ∧
    (d = true → dirty (word m mp.leafAddr) = true)

/-- Guest stores and partial flushes do not take accessed and dirty bits away (software that clears them must flush). -/
def KeepsMarks (b : Bus) (s : St) : Op → Prop
  | .store m => ∀ va d, MarkedPage b s.ctl s.mem va d → MarkedPage b s.ctl m va d
  | .reloadLocal c m => ∀ va d, GlobalPage b s.ctl s.mem va → MarkedPage b s.ctl s.mem va d → MarkedPage b c m va d
  | _ => True

/-- The translation for a write that may hit an entry without the dirty flag: get_write_addr, used by the block api. -/
def IsGetWrite : Op → Bool
  | .write .. => true
  | _ => false

/-- Histories that respect the accessed and dirty bits; with `guestOnly` no translation is made by get_write_addr. -/
inductive ReachableM (b : Bus) (guestOnly : Bool) : St → Prop
  | start (c : Ctl) (m : Mem) (smc : Addr → Bool) : ReachableM b guestOnly { ctl := c, mem := m, dtlb := fun _ _ => Line.zero, itlb := fun _ _ => Line.zero, smc := smc }
  | next {s : St} (op : Op) : ReachableM b guestOnly s → Respects b s op → KeepsMarks b s op → (guestOnly = true → IsGetWrite op = false) →
      ReachableM b guestOnly (step b s op)

end Spec

theorem reachableM_reachable {b : Bus} {q : Bool} {s : St} (h : ReachableM b q s) : Reachable b s := by
  induction h with
  | start c m smc => exact .start c m smc
  | next op _ hr _ _ ih => exact .next op ih hr

def LineM (b : Bus) (q : Bool) (c : Ctl) (m : Mem) (g : Geo) (set : Addr) (e : Entry) : Prop :=
  ∀ va, g.set va = set → e &&& 0xF#64 ≠ 0#64 → e &&& g.tagMask = g.tag va → MarkedPage b c m va (q && e.getLsbD 9)

structure MInv (b : Bus) (q : Bool) (s : St) : Prop where
  d : ∀ set i, LineM b q s.ctl s.mem dGeo set (s.dtlb set i).entry
  i : ∀ set i, LineM b q s.ctl s.mem iGeo set (s.itlb set i).entry

theorem lineM_zero (b : Bus) (q : Bool) (c : Ctl) (m : Mem) (g : Geo) (set : Addr) : LineM b q c m g set Line.zero.entry := by
  intro va _ h; simp [Line.zero] at h

/-- A walk never clears an accessed or dirty bit. -/
theorem marked_mono {m m' : Mem} {mp : Mapping} {wr : Bool} (hp : mp.pdeAddr.toNat % 4 = 0) (hl : mp.leafAddr.toNat % 4 = 0)
    (h : Marked m mp wr m') (a : Addr) (ha : a.toNat % 4 = 0) (i : Nat) (hb : (word m a).getLsbD i = true) : (word m' a).getLsbD i = true := by
  by_cases h1 : a = mp.leafAddr
  · subst h1; rw [h.leaf i, hb]; rfl
  · by_cases h2 : a = mp.pdeAddr
    · subst h2; rw [h.pde h1 i, hb]; rfl
    · have hb' : ∀ j : Addr, j.toNat < 4 → m' (a + j) = m (a + j) := fun j hj =>
        h.other _ (fun k hk => aligned_ne ha hp h2 hj hk) (fun k hk => aligned_ne ha hl h1 hj hk)
      have e0 : m' a = m a := by have := hb' 0#32 (by decide); simpa using this
      have : word m' a = word m a := by
        unfold word
        rw [e0, hb' 1#32 (by decide), hb' 2#32 (by decide), hb' 3#32 (by decide)]
      rw [this]; exact hb

theorem markedPage_mono {b : Bus} (hb : PageWise b) {c : Ctl} {m m' : Mem} (hs : SameAD m m')
    (hm : ∀ a : Addr, a.toNat % 4 = 0 → ∀ i, (word m a).getLsbD i = true → (word m' a).getLsbD i = true) {va : Addr} {d : Bool}
    (h : MarkedPage b c m va d) : MarkedPage b c m' va d := by
  intro hp
  obtain ⟨mp, h1, h2, h3, h4⟩ := h hp
  obtain ⟨a1, a2⟩ := mapping_aligned (keeps_of hb) h1
  exact ⟨mp, by rw [(mapping_sameAD (keeps_of hb) hs va).1]; exact h1, hm _ a1 _ h2, hm _ a2 _ h3, fun hd => hm _ a2 _ (h4 hd)⟩

/-- A granted walk marks the whole page. -/
theorem walk_marks {b : Bus} (hb : PageWise b) {c : Ctl} {m m' : Mem} {va phys : Addr} {prot : Word} {wr pr sc : Bool}
    (h : walk b.fix c m va wr pr sc = (.ok phys prot, m')) :
    (∀ a : Addr, a.toNat % 4 = 0 → ∀ i, (word m a).getLsbD i = true → (word m' a).getLsbD i = true) ∧
    ∀ va', pageBase va = pageBase va' → MarkedPage b c m' va' (if pagingOn c then prot.getLsbD 9 else true) := by
  obtain ⟨hpo, hs⟩ := walk_protOk hb h
  cases hp : pagingOn c with
  | false =>
    have hpg : c.cr0 &&& 0x80000000#32 = 0#32 := by
      rw [bit_test c.cr0 _ 31 (by decide) (by omega)]
      simpa [pagingOn] using hp
    unfold walk at h
    rw [if_pos hpg] at h
    simp only [Prod.mk.injEq, Walk.ok.injEq] at h
    obtain ⟨_, rfl⟩ := h
    exact ⟨fun _ _ _ h => h, fun va' _ hp' => by rw [hp] at hp'; simp at hp'⟩
  | true =>
    cases hmp : mapping b.fix c m va with
    | none => rw [walk_none hp hmp] at h; simp at h
    | some mp =>
      obtain ⟨h0, h1⟩ := walk_some (wr := wr) (pr := pr) (sc := sc) hp hmp
      cases hg : granted (writeProtect c) mp.user (codeWritable m mp) (userAccess c pr) wr with
      | false => rw [h0 hg] at h; simp at h
      | true =>
        obtain ⟨m2, e, hm⟩ := h1 hg
        rw [e] at h
        simp only [Prod.mk.injEq, Walk.ok.injEq] at h
        obtain ⟨⟨rfl, rfl⟩, rfl⟩ := h
        have M := hm (keeps_of hb)
        obtain ⟨a1, a2⟩ := mapping_aligned (keeps_of hb) hmp
        refine ⟨marked_mono a1 a2 M, fun va' hpage _ => ?_⟩
        have hm2 := mapping_samePage hpage hmp
        refine ⟨_, by rw [(mapping_sameAD (keeps_of hb) hs va').1]; exact hm2, ?_, ?_, ?_⟩
        · show (word m2 mp.pdeAddr).getLsbD 5 = true
          by_cases he : mp.pdeAddr = mp.leafAddr
          · rw [he, M.leaf 5]; simp
          · rw [M.pde he 5]; simp
        · show (word m2 mp.leafAddr).getLsbD 5 = true
          rw [M.leaf 5]; simp
        · intro hd
          show (word m2 mp.leafAddr).getLsbD 6 = true
          simp only [if_true] at hd
          rw [BitVec.getLsbD_or, (rightsMask_low _ _ _).2.2.2, (protTail_low _ _ _ _).2.2.2] at hd
          rw [M.leaf 6]; simp at hd; simp [hd]

theorem markedPage_weaken {b : Bus} {c : Ctl} {m : Mem} {va : Addr} {d d' : Bool} (h : MarkedPage b c m va d) (hd : d' = true → d = true) :
    MarkedPage b c m va d' := fun hp => by
  obtain ⟨mp, h1, h2, h3, h4⟩ := h hp
  exact ⟨mp, h1, h2, h3, fun hh => h4 (hd hh)⟩

theorem mInv_translate {b : Bus} (hb : PageWise b) {q : Bool} {s : St} (h : MInv b q s) (f : Bool) (va : Addr) (wr pr sc : Bool) (v : Nat) :
    MInv b q (translate b s f va wr pr sc v).1 := by
  unfold translate
  cases hw : walk b.fix s.ctl s.mem va wr pr sc with
  | mk w m' =>
    cases w with
    | fault a code => have := fault_mem hw (by simp); subst this; simpa using h
    | ub => have := fault_mem hw (by simp); subst this; simpa using h
    | ok phys prot =>
      obtain ⟨hpo, hsame⟩ := walk_protOk hb hw
      obtain ⟨hmono, hmark⟩ := walk_marks hb hw
      have hd : ∀ set i, LineM b q s.ctl m' dGeo set (s.dtlb set i).entry := fun set i va' h1 h2 h3 => markedPage_mono hb hsame hmono (h.d set i va' h1 h2 h3)
      have hi : ∀ set i, LineM b q s.ctl m' iGeo set (s.itlb set i).entry := fun set i va' h1 h2 h3 => markedPage_mono hb hsame hmono (h.i set i va' h1 h2 h3)
      have key : ∀ {g : Geo}, IsGeo g → ∀ t : Tlb, (∀ set i, LineM b q s.ctl m' g set (t set i).entry) →
          ∀ set i, LineM b q s.ctl m' g set (fillTlb g t va (b.locate phys).2 (b.locate phys).1 prot v set i).entry := by
        intro g hg t ht set i
        unfold fillTlb Tlb.put
        by_cases hh : set = g.set va ∧ i = pickLine g (t (g.set va)) (mkEntry g va (b.locate phys).2 (b.locate phys).1 prot) v
        · rw [if_pos hh]
          intro va' h1 _ h3
          simp only at h3 ⊢
          rw [mkEntry_tag hg] at h3
          rw [mkEntry_bit hg _ _ _ _ (Or.inr (Or.inr rfl))]
          refine markedPage_weaken (hmark va' (tag_page hg (hh.1.symm.trans h1.symm) h3)) ?_
          intro hd; simp only [Bool.and_eq_true] at hd
          split
          · exact hd.2
          · rfl
        · rw [if_neg hh]; exact ht set i
      simp only [fill]
      cases f
      · exact ⟨key .d s.dtlb hd, hi⟩
      · exact ⟨hd, key .i s.itlb hi⟩

theorem mInv_step {b : Bus} (hb : PageWise b) {q : Bool} {s : St} (hr0 : Reachable b s) (h : MInv b q s) (op : Op) (hk : KeepsMarks b s op)
    (hq : q = true → IsGetWrite op = false) : MInv b q (step b s op) := by
  cases op with
  | read va pr v =>
    simp only [step, getRead]
    split
    · exact h
    · exact mInv_translate hb h _ _ _ _ _ _
  | readSlow va pr v => exact mInv_translate hb h _ _ _ _ _ _
  | write va pr v =>
    have hq' : q = false := by cases q; rfl; simp [IsGetWrite] at hq
    subst hq'
    simp only [step, getWrite]
    split
    · refine ⟨fun set i => ?_, h.i⟩
      simp only [Tlb.put]
      split
      · rename_i hh
        rw [hh.1]
        intro va' h1 h2 h3
        have e1 : ∀ (e k : Entry), 0x200#64 &&& k = 0#64 → (e ||| 0x200#64) &&& k = e &&& k := by
          intro e k hk; rw [or_and_right, hk, BitVec.or_zero]
        simp only [Bool.false_and] at *
        rw [e1 _ _ (by decide)] at h2
        rw [e1 _ _ (by decide)] at h3
        exact h.d _ _ va' h1 h2 h3
      · exact h.d set i
    · exact mInv_translate hb h _ _ _ _ _ _
  | writeSlow va pr v => exact mInv_translate hb h _ _ _ _ _ _
  | code va sc v =>
    simp only [step, getCode]
    split
    · exact ⟨h.d, h.i⟩
    · exact mInv_translate hb h _ _ _ _ _ _
  | inval va =>
    have key : ∀ (g : Geo) (t : Tlb), (∀ set i, LineM b q s.ctl s.mem g set (t set i).entry) → ∀ set i, LineM b q s.ctl s.mem g set (invalidateTlb g t va set i).entry := by
      intro g t ht set i
      unfold invalidateTlb
      cases List.find? (fun i => matches' g (1#64) va (t (g.set va) i).entry) (List.range g.lines) with
      | none => exact ht set i
      | some k =>
        simp only [Tlb.put]; split
        · exact lineM_zero _ _ _ _ _ _
        · exact ht set i
    exact ⟨key _ _ h.d, key _ _ h.i⟩
  | cpl l => exact ⟨h.d, h.i⟩
  | store m => exact ⟨fun set i va h1 h2 h3 => hk va _ (h.d set i va h1 h2 h3), fun set i va h1 h2 h3 => hk va _ (h.i set i va h1 h2 h3)⟩
  | reload c m => exact ⟨fun set i => lineM_zero _ _ _ _ _ _, fun set i => lineM_zero _ _ _ _ _ _⟩
  | reloadLocal c m =>
    have I := inv_reachable hb hr0
    have key : ∀ {g : Geo} (set : Addr) (l : Line), LineOk b s.ctl s.mem g set l.entry → LineM b q s.ctl s.mem g set l.entry → LineM b q c m g set (keepGlobal l).entry := by
      intro g set l hok hl
      rw [keepGlobal_entry]
      split
      · rename_i h8
        intro va h1 h2 h3
        exact hk va _ (hok.glob va h1 h8 h3) (hl va h1 h2 h3)
      · exact lineM_zero _ _ _ _ _ _
    exact ⟨fun set i => key set _ (I.d set i) (h.d set i), fun set i => key set _ (I.i set i) (h.i set i)⟩

theorem mInv_reachable {b : Bus} (hb : PageWise b) {q : Bool} {s : St} (h : ReachableM b q s) : MInv b q s := by
  induction h with
  | start c m smc => exact ⟨fun set i => lineM_zero _ _ _ _ _ _, fun set i => lineM_zero _ _ _ _ _ _⟩
  | next op hr' hr hk hq ih => exact mInv_step hb (reachableM_reachable hr') ih op hk hq

theorem valid_of_access {e acc : Entry} (ha : IsAccess acc) (h : e &&& acc = acc) : e &&& 0xF#64 ≠ 0#64 := by
  intro h0
  have e2 := congrArg (fun v : Entry => v &&& 0xF#64) h
  simp only [BitVec.and_assoc] at e2
  rw [BitVec.and_comm _ (0xF#64), ← BitVec.and_assoc, h0] at e2
  rcases ha with h | h | h | h <;> subst h <;> revert e2 <;> decide

/-- C18 through the TLB, accessed bits: whenever any access is served by the data TLB, the accessed bits of the entries that map the
page are set in memory, provided the guest does not clear them without a flush. All histories, including the block api. -/
theorem C18_hit_page_is_accessed (b : Bus) (hb : PageWise b) (s : St) (hr : ReachableM b false s) (va : Addr) (hp : pagingOn s.ctl = true)
    (h : DataHit s va ∨ CodeHit s va) :
    ∃ mp, mapping b.fix s.ctl s.mem va = some mp ∧ accessed (word s.mem mp.pdeAddr) = true ∧ accessed (word s.mem mp.leafAddr) = true := by
  have I := mInv_reachable hb hr
  have fin : MarkedPage b s.ctl s.mem va false := by
    rcases h with ⟨cpl, wr, pr, h⟩ | ⟨cpl, h⟩
    · obtain ⟨i, hi⟩ := Option.isSome_iff_exists.1 h
      have hm := (lookup_some hi).1
      rw [matches_iff .d (accessBit_isAccess _ _ _)] at hm
      exact I.d _ i va rfl (valid_of_access (accessBit_isAccess _ _ _) hm.1) hm.2
    · obtain ⟨i, hi⟩ := Option.isSome_iff_exists.1 h
      have hm := (lookup_some hi).1
      rw [matches_iff .i (accessBit_isAccess _ _ _)] at hm
      exact I.i _ i va rfl (valid_of_access (accessBit_isAccess _ _ _) hm.1) hm.2
  obtain ⟨mp, h1, h2, h3, _⟩ := fin hp
  exact ⟨mp, h1, h2, h3⟩

/-- C18 through the TLB, dirty bit: a guest write served directly from the data TLB is to a page whose dirty bit is set in memory.
Partial: for histories of guest accesses; the block api's virtual writes mark the TLB entry dirty without touching the page table,
after which also guest writes leave the bit clear (`C18_block_write_violation`). -/
theorem C18_fast_write_is_dirty_partial (b : Bus) (hb : PageWise b) (s : St) (hr : ReachableM b true s) (n : Nat) (va : Addr) (pr : Bool) (i : Nat)
    (hp : pagingOn s.ctl = true) (h : helperLookup s n va true pr = some i) :
    ∃ mp, mapping b.fix s.ctl s.mem va = some mp ∧ accessed (word s.mem mp.pdeAddr) = true ∧ accessed (word s.mem mp.leafAddr) = true ∧
      dirty (word s.mem mp.leafAddr) = true := by
  have I := mInv_reachable hb hr
  have hm : helperMatches (accessBit s.ctl true pr ||| 0x200#64) n va (s.dtlb (dGeo.set va) i).entry = true := by
    unfold helperLookup at h; simpa using List.find?_some h
  have hacc : ∀ acc : Entry, IsAccess acc → ((acc ||| 0x200#64) &&& 0xFFFFFC00#64 = 0#64 ∧ (acc ||| 0x200#64) &&& dGeo.tagMask = 0#64) := by
    intro acc ha; rcases ha with h | h | h | h <;> subst h <;> decide
  rw [helperMatches_iff _ (hacc _ (accessBit_isAccess _ _ _))] at hm
  obtain ⟨h1, h2, _⟩ := hm
  have ha := accessBit_isAccess s.ctl true pr
  generalize accessBit s.ctl true pr = acc at h1 ha
  generalize he : (s.dtlb (dGeo.set va) i).entry = e at h1 h2
  have hbit : ∀ k, acc.getLsbD k = true ∨ (0x200#64 : Entry).getLsbD k = true → e.getLsbD k = true := by
    intro k hk
    have := congrArg (fun v : Entry => v.getLsbD k) h1
    simp only [BitVec.getLsbD_and, BitVec.getLsbD_or] at this
    rcases hk with hk | hk <;> rw [hk] at this <;> simpa using this
  have h9 : e.getLsbD 9 = true := hbit 9 (Or.inr (by decide))
  have hacc2 : e &&& acc = acc := by
    obtain ⟨k, hk, e1⟩ := access_index ha
    rw [and_acc_iff k (by omega) e1]
    apply hbit k; left; rw [e1, BitVec.getLsbD_twoPow]; simp; omega
  have := I.d (dGeo.set va) i va rfl
  rw [he] at this
  obtain ⟨mp, g1, g2, g3, g4⟩ := this (valid_of_access ha hacc2) h2 hp
  exact ⟨mp, g1, g2, g3, g4 (by simp [h9])⟩

example : ∃ s, ReachableM exBus true s ∧ pagingOn s.ctl = true ∧ (helperLookup s 4 0x3FF0#32 true false).isSome = true :=
  ⟨run exBus exSt [.readSlow 0x3000#32 false 0, .writeSlow 0x3004#32 false 0],
   .next (.writeSlow 0x3004#32 false 0) (.next (.readSlow 0x3000#32 false 0) (.start _ _ _) trivial trivial (fun _ => rfl)) trivial trivial (fun _ => rfl),
   by decide +kernel, by decide +kernel⟩

/-- C18 fails for the block api: the page was read, then mem_write_block_virt writes to it (get_write_addr hits the clean entry and
only sets the TLB's dirty flag): the dirty bit in the page table stays clear, and it stays clear even when the guest itself writes
to the page, because its write now hits. -/
theorem C18_block_write_violation : ∃ (b : Bus) (s : St) (va p : Addr) (mp : Mapping), PageWise b ∧ Reachable b s ∧ pagingOn s.ctl = true ∧
    (getWrite b s va false 0).2 = .ok p ∧ mapping b.fix s.ctl (getWrite b s va false 0).1.mem va = some mp ∧
    dirty (word (getWrite b s va false 0).1.mem mp.leafAddr) = false ∧ (helperLookup (getWrite b s va false 0).1 4 va true false).isSome = true :=
  ⟨exBus, run exBus exSt [.readSlow 0x3000#32 false 0], 0x3000#32, 0x7000#32, ⟨0x7000#32, true, true, false, 0x1000#32, 0x200C#32⟩, exBus_pageWise,
   .next (.readSlow 0x3000#32 false 0) (.start _ _ _) trivial, by decide +kernel, by decide +kernel, by decide +kernel, by decide +kernel, by decide +kernel⟩

end Verif.Paging
