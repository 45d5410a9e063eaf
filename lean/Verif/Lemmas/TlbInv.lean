import Verif.Lemmas.Tlb

namespace Verif.Paging
open Verif.Paging.Spec Verif.Bits
open Verif.AS (Region)

theorem or_and_right {w : Nat} (x y z : BitVec w) : (x ||| y) &&& z = (x &&& z) ||| (y &&& z) := by
  rw [BitVec.and_comm, BitVec.and_or_distrib_left, BitVec.and_comm z x, BitVec.and_comm z y]

/-! The entry written by tlb_fill. -/

theorem kindBits_cases (r : Region) (p : Addr) :
    kindBits r p = 0x20#64 ∨ kindBits r p = 0#64 ∨ kindBits r p = 0x80#64 ∨ kindBits r p = 0x40#64 ∨ kindBits r p = 0x800#64 := by
  unfold kindBits
  split
  · cases r.type <;> simp
  · simp

theorem mkEntry_tag {g : Geo} (hg : IsGeo g) (a p : Addr) (r : Region) (prot : Word) : mkEntry g a p r prot &&& g.tagMask = g.tag a := by
  have h1 : (pageBase p).setWidth 64 &&& g.tagMask = 0#64 := by
    cases hg <;> simp only [dGeo, iGeo, pageBase] <;> bits64
  have h2 : (prot &&& ~~~ 16#32).setWidth 64 &&& g.tagMask = 0#64 := by
    generalize prot &&& ~~~ 16#32 = x
    cases hg <;> simp only [dGeo, iGeo] <;> bits64
  have h3 : kindBits r p &&& g.tagMask = 0#64 := by
    cases hg <;> rcases kindBits_cases r p with h | h | h | h | h <;> rw [h] <;> decide
  unfold mkEntry
  simp only [or_and_right, h1, h2, h3, tag_masked]
  simp

theorem mkEntry_bit {g : Geo} (hg : IsGeo g) (a p : Addr) (r : Region) (prot : Word) {i : Nat} (hi : i < 4 ∨ i = 8 ∨ i = 9) :
    (mkEntry g a p r prot).getLsbD i = prot.getLsbD i := by
  have h1 : ((pageBase p).setWidth 64).getLsbD i = false := by
    unfold pageBase
    rcases (by omega : i = 0 ∨ i = 1 ∨ i = 2 ∨ i = 3 ∨ i = 8 ∨ i = 9) with h | h | h | h | h | h <;> subst h <;> simp
  have h2 : ((prot &&& ~~~ 16#32).setWidth 64).getLsbD i = prot.getLsbD i := by
    rcases (by omega : i = 0 ∨ i = 1 ∨ i = 2 ∨ i = 3 ∨ i = 8 ∨ i = 9) with h | h | h | h | h | h <;> subst h <;> simp
  have h3 : (kindBits r p).getLsbD i = false := by
    rcases (by omega : i = 0 ∨ i = 1 ∨ i = 2 ∨ i = 3 ∨ i = 8 ∨ i = 9) with h | h | h | h | h | h <;> subst h <;>
      rcases kindBits_cases r p with h | h | h | h | h <;> rw [h] <;> decide
  have h4 : (g.tag a).getLsbD i = false := by
    cases hg <;> unfold Geo.tag <;> simp only [dGeo, iGeo] <;>
    rcases (by omega : i = 0 ∨ i = 1 ∨ i = 2 ∨ i = 3 ∨ i = 8 ∨ i = 9) with h | h | h | h | h | h <;> subst h <;> simp
  unfold mkEntry
  simp only [BitVec.getLsbD_or, h1, h2, h3, h4]
  simp

theorem mkEntry_page {g : Geo} (hg : IsGeo g) (a p : Addr) (r : Region) {prot : Word} (hl : prot &&& 0xFFFFF000#32 = 0#32) :
    pageBase ((mkEntry g a p r prot).setWidth 32) = pageBase p := by
  have h1 : ((pageBase p).setWidth 64).setWidth 32 = pageBase p := by simp
  have h2 : ((prot &&& ~~~ 16#32).setWidth 64).setWidth 32 = prot &&& ~~~ 16#32 := by simp
  have h3 : (kindBits r p).setWidth 32 &&& 0xFFFFF000#32 = 0#32 := by
    rcases kindBits_cases r p with h | h | h | h | h <;> rw [h] <;> decide
  have h4 : (g.tag a).setWidth 32 = 0#32 := by
    cases hg <;> unfold Geo.tag <;> simp only [dGeo, iGeo] <;> bits32
  have h5 : (prot &&& ~~~ 16#32) &&& 0xFFFFF000#32 = 0#32 := by
    rw [BitVec.and_assoc, BitVec.and_comm (~~~ 16#32), ← BitVec.and_assoc, hl]; simp
  unfold mkEntry pageBase at *
  rw [BitVec.setWidth_or, BitVec.setWidth_or, BitVec.setWidth_or, h1, h2, h4]
  rw [BitVec.or_zero, or_and_right, or_and_right, h3, h5, BitVec.or_zero, BitVec.or_zero, BitVec.and_assoc,
    BitVec.and_self]

theorem and_acc_iff {e acc : Entry} (i : Nat) (hi : i < 64) (ha : acc = BitVec.twoPow 64 i) : e &&& acc = acc ↔ e.getLsbD i = true := by
  subst ha
  rw [BitVec.and_twoPow]
  cases e.getLsbD i
  · simp only [Bool.false_eq_true, if_false, iff_false]
    intro h
    have := congrArg (fun v : Entry => v.getLsbD i) h
    simp [BitVec.getLsbD_twoPow, hi] at this
  · simp

/-- The number of an access bit. -/
theorem access_index {acc : Entry} (h : IsAccess acc) : ∃ i, i < 4 ∧ acc = BitVec.twoPow 64 i := by
  rcases h with h | h | h | h <;> subst h
  · exact ⟨0, by omega, by decide⟩
  · exact ⟨1, by omega, by decide⟩
  · exact ⟨2, by omega, by decide⟩
  · exact ⟨3, by omega, by decide⟩

/-! The coherence invariant. -/

structure LineOk (b : Bus) (c : Ctl) (m : Mem) (g : Geo) (set : Addr) (e : Entry) : Prop where
  hit : ∀ va, g.set va = set → ∀ (cpl : BitVec 2) wr pr, matches' g (accessBit { c with cpl := cpl } wr pr) va e = true →
    answer b { c with cpl := cpl } m va wr pr = some (hitAddr e va)
  read : ∀ acc, IsAccess acc → e &&& acc = acc → e.getLsbD 0 = true
  glob : ∀ va, g.set va = set → e.getLsbD 8 = true → e &&& g.tagMask = g.tag va → GlobalPage b c m va

theorem lineOk_zero (b : Bus) (c : Ctl) (m : Mem) {g : Geo} (hg : IsGeo g) (set : Addr) : LineOk b c m g set 0#64 := by
  refine ⟨fun va _ cpl wr pr h => ?_, fun acc ha h => ?_, fun va _ h => by simp at h⟩
  · rw [matches_iff hg (accessBit_isAccess _ _ _)] at h
    obtain ⟨i, hi, e⟩ := access_index (accessBit_isAccess { c with cpl := cpl } wr pr)
    have := (and_acc_iff i (by omega) e).1 h.1
    simp at this
  · obtain ⟨i, hi, e⟩ := access_index ha
    have := (and_acc_iff i (by omega) e).1 h
    simp at this

theorem lineOk_fill {b : Bus} {c : Ctl} {m : Mem} {g : Geo} (hg : IsGeo g) {addr phys : Addr} {prot : Word} (r : Region)
    (h : ProtOk b c m addr phys prot) : LineOk b c m g (g.set addr) (mkEntry g addr (b.fix phys) r prot) := by
  refine ⟨fun va hs cpl wr pr hm => ?_, fun acc _ _ => ?_, fun va hs h8 ht => ?_⟩
  · rw [matches_iff hg (accessBit_isAccess _ _ _), mkEntry_tag hg] at hm
    have hpage := tag_page hg hs.symm hm.2
    obtain ⟨i, hi, e⟩ := access_index (accessBit_isAccess { c with cpl := cpl } wr pr)
    have hb := (and_acc_iff i (by omega) e).1 hm.1
    rw [mkEntry_bit hg _ _ _ _ (Or.inl hi)] at hb
    have : prot.setWidth 64 &&& accessBit { c with cpl := cpl } wr pr = accessBit { c with cpl := cpl } wr pr := by
      rw [and_acc_iff i (by omega) e]
      simp [hb]; omega
    rw [h.sound cpl wr pr va hpage this]
    unfold hitAddr
    rw [mkEntry_page hg _ _ _ h.low]
  · rw [mkEntry_bit hg _ _ _ _ (Or.inl (by omega))]; exact h.read
  · rw [mkEntry_tag hg] at ht
    rw [mkEntry_bit hg _ _ _ _ (Or.inr (Or.inl rfl))] at h8
    exact h.glob h8 va (tag_page hg hs.symm ht)

theorem lineOk_dirty {b : Bus} {c : Ctl} {m : Mem} {g : Geo} (hg : IsGeo g) {set : Addr} {e : Entry} (h : LineOk b c m g set e) :
    LineOk b c m g set (e ||| 0x200#64) := by
  have htag : (e ||| 0x200#64) &&& g.tagMask = e &&& g.tagMask := by
    rw [or_and_right]
    have : (0x200#64 : Entry) &&& g.tagMask = 0#64 := by cases hg <;> decide
    rw [this, BitVec.or_zero]
  have hacc : ∀ acc, IsAccess acc → ((e ||| 0x200#64) &&& acc = e &&& acc) := by
    intro acc ha
    rw [or_and_right]
    have : (0x200#64 : Entry) &&& acc = 0#64 := by rcases ha with h | h | h | h <;> subst h <;> decide
    rw [this, BitVec.or_zero]
  have hbit : ∀ i, i ≠ 9 → (e ||| 0x200#64).getLsbD i = e.getLsbD i := by
    intro i hi
    have : (0x200#64 : Entry) = BitVec.twoPow 64 9 := by decide
    rw [this, BitVec.getLsbD_or, BitVec.getLsbD_twoPow]
    have : ¬ 9 = i := by omega
    simp [this]
  have hpage : ∀ va, hitAddr (e ||| 0x200#64) va = hitAddr e va := by
    intro va
    unfold hitAddr pageBase
    rw [BitVec.setWidth_or, or_and_right]
    have : (BitVec.setWidth 32 (0x200#64 : Entry)) &&& 0xFFFFF000#32 = 0#32 := by decide
    rw [this, BitVec.or_zero]
  refine ⟨fun va hs cpl wr pr hm => ?_, fun acc ha he => ?_, fun va hs h8 ht => ?_⟩
  · rw [hpage]
    apply h.hit va hs cpl wr pr
    have ha := accessBit_isAccess { c with cpl := cpl } wr pr
    rw [matches_iff hg ha] at hm ⊢
    rw [htag, hacc _ ha] at hm
    exact hm
  · rw [hbit 0 (by omega)]; exact h.read acc ha (by rw [hacc _ ha] at he; exact he)
  · rw [hbit 8 (by omega)] at h8
    rw [htag] at ht
    exact h.glob va hs h8 ht

structure Inv (b : Bus) (s : St) : Prop where
  d : ∀ set i, LineOk b s.ctl s.mem dGeo set (s.dtlb set i).entry
  i : ∀ set i, LineOk b s.ctl s.mem iGeo set (s.itlb set i).entry

theorem globalPage_sameAD {b : Bus} (hb : PageWise b) {c : Ctl} {m m' : Mem} (h : SameAD m m') {va : Addr} (hg : GlobalPage b c m va) :
    GlobalPage b c m' va := by
  obtain ⟨h1, h2, mp, h3, h4⟩ := hg
  exact ⟨h1, h2, mp, by rw [(mapping_sameAD (keeps_of hb) h va).1]; exact h3, h4⟩

theorem lineOk_sameAD {b : Bus} (hb : PageWise b) {c : Ctl} {m m' : Mem} (h : SameAD m m') {g : Geo} {set : Addr} {e : Entry}
    (hl : LineOk b c m g set e) : LineOk b c m' g set e :=
  ⟨fun va hs cpl wr pr hm => by rw [answer_sameAD (keeps_of hb) h]; exact hl.hit va hs cpl wr pr hm, hl.read,
    fun va hs h8 ht => globalPage_sameAD hb h (hl.glob va hs h8 ht)⟩

theorem protOk_sameAD {b : Bus} (hb : PageWise b) {c : Ctl} {m m' : Mem} (h : SameAD m m') {va phys : Addr} {prot : Word}
    (hp : ProtOk b c m va phys prot) : ProtOk b c m' va phys prot :=
  ⟨hp.low, hp.read, fun cpl wr pr va' h1 h2 => by rw [answer_sameAD (keeps_of hb) h]; exact hp.sound cpl wr pr va' h1 h2,
    fun h8 va' h1 => globalPage_sameAD hb h (hp.glob h8 va' h1)⟩

theorem fault_mem {fix : Addr → Addr} {c : Ctl} {m m' : Mem} {va : Addr} {wr pr sc : Bool} {w : Walk}
    (h : walk fix c m va wr pr sc = (w, m')) (hw : ∀ p q, w ≠ .ok p q) : m' = m := by
  cases hp : pagingOn c with
  | false =>
    have hpg : c.cr0 &&& 0x80000000#32 = 0#32 := by
      rw [bit_test c.cr0 _ 31 (by decide) (by omega)]
      simpa [pagingOn] using hp
    unfold walk at h
    rw [if_pos hpg] at h
    simp only [Prod.mk.injEq] at h
    exact absurd h.1.symm (hw _ _)
  | true =>
    cases hmp : mapping fix c m va with
    | none => rw [walk_none hp hmp] at h; simp only [Prod.mk.injEq] at h; exact h.2.symm
    | some mp =>
      obtain ⟨h0, h1⟩ := walk_some (wr := wr) (pr := pr) (sc := sc) hp hmp
      cases hg : granted (writeProtect c) mp.user (codeWritable m mp) (userAccess c pr) wr with
      | false => rw [h0 hg] at h; simp only [Prod.mk.injEq] at h; exact h.2.symm
      | true =>
        obtain ⟨m2, e, hm⟩ := h1 hg
        rw [e] at h
        simp only [Prod.mk.injEq] at h
        exact absurd h.1.symm (hw _ _)

theorem fillTlb_lineOk {b : Bus} {c : Ctl} {m : Mem} {g : Geo} (hg : IsGeo g) {t : Tlb} {addr phys : Addr} {prot : Word} (r : Region)
    (victim : Nat) (hp : ProtOk b c m addr phys prot) (h : ∀ set i, LineOk b c m g set (t set i).entry) :
    ∀ set i, LineOk b c m g set (fillTlb g t addr (b.fix phys) r prot victim set i).entry := by
  intro set i
  unfold fillTlb Tlb.put
  by_cases hh : set = g.set addr ∧ i = pickLine g (t (g.set addr)) (mkEntry g addr (b.fix phys) r prot) victim
  · rw [if_pos hh, hh.1]; exact lineOk_fill hg r hp
  · rw [if_neg hh]; exact h set i

theorem inv_translate {b : Bus} (hb : PageWise b) {s : St} (h : Inv b s) (f : Bool) (va : Addr) (wr pr sc : Bool) (v : Nat) :
    Inv b (translate b s f va wr pr sc v).1 := by
  unfold translate
  cases hw : walk b.fix s.ctl s.mem va wr pr sc with
  | mk w m' =>
    cases w with
    | fault a code =>
      have := fault_mem hw (by simp); subst this
      simpa using h
    | ub =>
      have := fault_mem hw (by simp); subst this
      simpa using h
    | ok phys prot =>
      obtain ⟨hp, hsame⟩ := walk_protOk hb hw
      have hp' := protOk_sameAD hb hsame hp
      have hd := fun set i => lineOk_sameAD hb hsame (h.d set i)
      have hi := fun set i => lineOk_sameAD hb hsame (h.i set i)
      simp only [fill]
      cases f
      · refine ⟨?_, hi⟩
        have := fillTlb_lineOk IsGeo.d (t := s.dtlb) (b.locate phys).1 v hp' hd
        exact this
      · refine ⟨hd, ?_⟩
        have := fillTlb_lineOk IsGeo.i (t := s.itlb) (b.locate phys).1 v hp' hi
        exact this

theorem inv_invalidate {b : Bus} {c : Ctl} {m : Mem} {g : Geo} (hg : IsGeo g) {t : Tlb} (va : Addr)
    (h : ∀ set i, LineOk b c m g set (t set i).entry) : ∀ set i, LineOk b c m g set (invalidateTlb g t va set i).entry := by
  intro set i
  unfold invalidateTlb
  cases List.find? (fun i => matches' g (1#64) va (t (g.set va) i).entry) (List.range g.lines) with
  | none => exact h set i
  | some k =>
    simp only [Tlb.put]
    split
    · exact lineOk_zero b c m hg set
    · exact h set i

theorem keepGlobal_entry (l : Line) : (keepGlobal l).entry = if l.entry.getLsbD 8 then l.entry else 0#64 := by
  unfold keepGlobal
  by_cases h : l.entry &&& 0x100#64 = 0#64
  · rw [if_pos h]
    rw [and_eq_zero 8 (by decide) (by omega)] at h
    rw [h]; rfl
  · rw [if_neg h]
    rw [and_eq_zero 8 (by decide) (by omega)] at h
    simp only [Bool.not_eq_false] at h
    rw [h]; rfl

theorem inv_step {b : Bus} (hb : PageWise b) {s : St} (h : Inv b s) (op : Op) (hr : Respects b s op) : Inv b (step b s op) := by
  cases op with
  | read va pr v =>
    simp only [step, getRead]
    split
    · exact h
    · exact inv_translate hb h _ _ _ _ _ _
  | readSlow va pr v => exact inv_translate hb h _ _ _ _ _ _
  | write va pr v =>
    simp only [step, getWrite]
    split
    · refine ⟨fun set i => ?_, h.i⟩
      simp only [Tlb.put]
      split
      · rename_i hh; rw [hh.1]; exact lineOk_dirty IsGeo.d (h.d _ _)
      · exact h.d set i
    · exact inv_translate hb h _ _ _ _ _ _
  | writeSlow va pr v => exact inv_translate hb h _ _ _ _ _ _
  | code va sc v =>
    simp only [step, getCode]
    split
    · exact ⟨h.d, h.i⟩
    · exact inv_translate hb h _ _ _ _ _ _
  | inval va => exact ⟨inv_invalidate IsGeo.d va h.d, inv_invalidate IsGeo.i va h.i⟩
  | cpl l =>
    refine ⟨fun set i => ⟨(h.d set i).hit, (h.d set i).read, fun va hs h8 ht => ?_⟩, fun set i => ⟨(h.i set i).hit, (h.i set i).read, fun va hs h8 ht => ?_⟩⟩
    · exact (h.d set i).glob va hs h8 ht
    · exact (h.i set i).glob va hs h8 ht
  | store m =>
    obtain ⟨h1, h2⟩ := hr
    refine ⟨fun set i => ⟨fun va hs cpl wr pr hm => ?_, (h.d set i).read, fun va hs h8 ht => h2 va ((h.d set i).glob va hs h8 ht)⟩,
      fun set i => ⟨fun va hs cpl wr pr hm => ?_, (h.i set i).read, fun va hs h8 ht => h2 va ((h.i set i).glob va hs h8 ht)⟩⟩
    · have := h1 cpl va wr pr; simp only [step]; rw [this]; exact (h.d set i).hit va hs cpl wr pr hm
    · have := h1 cpl va wr pr; simp only [step]; rw [this]; exact (h.i set i).hit va hs cpl wr pr hm
  | reload c m => exact ⟨fun set i => lineOk_zero b c m IsGeo.d set, fun set i => lineOk_zero b c m IsGeo.i set⟩
  | reloadLocal c m =>
    have key : ∀ {g : Geo} (hg : IsGeo g) (set : Addr) (l : Line), LineOk b s.ctl s.mem g set l.entry → LineOk b c m g set (keepGlobal l).entry := by
      intro g hg set l hl
      rw [keepGlobal_entry]
      split
      · rename_i h8
        refine ⟨fun va hs cpl wr pr hm => ?_, hl.read, fun va hs h8 ht => (hr va (hl.glob va hs h8 ht)).1⟩
        have ht := ((matches_iff hg (accessBit_isAccess { c with cpl := cpl } wr pr) va l.entry).1 hm).2
        rw [(hr va (hl.glob va hs h8 ht)).2 cpl wr pr]
        exact hl.hit va hs cpl wr pr hm
      · exact lineOk_zero b c m hg set
    exact ⟨fun set i => key IsGeo.d set _ (h.d set i), fun set i => key IsGeo.i set _ (h.i set i)⟩

theorem inv_reachable {b : Bus} (hb : PageWise b) {s : St} (h : Reachable b s) : Inv b s := by
  induction h with
  | start c m smc => exact ⟨fun set i => lineOk_zero b c m IsGeo.d set, fun set i => lineOk_zero b c m IsGeo.i set⟩
  | next op _ hr ih => exact inv_step hb ih op hr

theorem lookup_some {g : Geo} {t : Tlb} {acc : Entry} {va : Addr} {i : Nat} (h : lookup g t acc va = some i) :
    matches' g acc va (t (g.set va) i).entry = true ∧ i < g.lines := by
  unfold lookup at h
  refine ⟨by simpa using List.find?_some h, ?_⟩
  have := List.mem_of_find?_eq_some h
  simpa using this

end Verif.Paging
