/-
C20-C23: the TLBs.  `Reachable` (Spec/Tlb.lean) is any history of translations, invalidations, flushes, privilege changes and
stores that leave the translations alone.
-/
import Verif.Lemmas.TlbBus
import Verif.Props.Paging

namespace Verif.Paging
open Verif.Paging.Spec Verif.Bits
open Verif.AS (Region MemType)

/-! ### C20 -/

/-- C20. In both TLBs, set and tag of two addresses agree exactly when the addresses are on the same 4 KiB page. -/
theorem C20_set_and_tag_identify_page (a b : Addr) :
    ((dGeo.set a = dGeo.set b ∧ dGeo.tag a = dGeo.tag b) ↔ a >>> 12 = b >>> 12) ∧
    ((iGeo.set a = iGeo.set b ∧ iGeo.tag a = iGeo.tag b) ↔ a >>> 12 = b >>> 12) := by
  have key : pageBase a = pageBase b ↔ a >>> 12 = b >>> 12 := by
    have h1 : ∀ x : Addr, pageBase x = (x >>> 12) <<< 12 := fun x => by unfold pageBase; bits32
    have h2 : ∀ x : Addr, x >>> 12 = (pageBase x) >>> 12 := fun x => by unfold pageBase; bits32
    constructor
    · intro h; rw [h2 a, h2 b, h]
    · intro h; rw [h1 a, h1 b, h]
  exact ⟨⟨fun h => key.1 (tag_page .d h.1 h.2), fun h => page_tag .d (key.2 h)⟩,
    ⟨fun h => key.1 (tag_page .i h.1 h.2), fun h => page_tag .i (key.2 h)⟩⟩

/-- C20. An entry made for `a` is hit by an access to `b` in the same set only if both are on the same page. -/
theorem C20_entry_hit_same_page (g : Geo) (hg : g = dGeo ∨ g = iGeo) (a b p : Addr) (r : Region) (prot : Word) (c : Ctl) (wr pr : Bool)
    (hs : g.set b = g.set a) (h : matches' g (accessBit c wr pr) b (mkEntry g a p r prot) = true) : a >>> 12 = b >>> 12 := by
  have hg' : IsGeo g := by rcases hg with rfl | rfl; exact .d; exact .i
  rw [matches_iff hg' (accessBit_isAccess c wr pr), mkEntry_tag hg'] at h
  have := tag_page hg' hs.symm h.2
  rcases hg with rfl | rfl
  · exact (C20_set_and_tag_identify_page a b).1.1 (page_tag .d this)
  · exact (C20_set_and_tag_identify_page a b).2.1 (page_tag .i this)

theorem filled_target {s : St} {f : Bool} {op : Op} {x : Addr} (h : filled s f op = some x) : op.target f = some x := by
  cases op <;> cases f <;> simp [filled, Op.target] at h ⊢ <;> first | exact h | exact h.2

theorem hist_hit {b : Bus} {f : Bool} {s : St} (ops : List Op) (va : Addr) (i : Nat) {acc : Entry} (ha : IsAccess acc) (h0 : ∀ x i, tlbOf f s x i = Line.zero)
    (h : matches' (geoOf f) acc va (tlbOf f (run b s ops) ((geoOf f).set va) i).entry = true) :
    ∃ op ∈ ops, ∃ x, op.target f = some x ∧ pageBase x = pageBase va := by
  have gen : ∀ (ops : List Op) (s : St), matches' (geoOf f) acc va (tlbOf f (run b s ops) ((geoOf f).set va) i).entry = true →
      matches' (geoOf f) acc va (tlbOf f s ((geoOf f).set va) i).entry = true ∨ ∃ op ∈ ops, ∃ x, op.target f = some x ∧ pageBase x = pageBase va := by
    intro ops
    induction ops with
    | nil => intro s h; exact Or.inl h
    | cons op ops ih =>
      intro s h
      rcases ih (step b s op) h with h1 | ⟨o, ho, hh⟩
      · have hl := step_line b s op f ((geoOf f).set va) i
        generalize tlbOf f (step b s op) ((geoOf f).set va) i = l' at hl h1
        generalize hle : tlbOf f s ((geoOf f).set va) i = l at hl
        have hg := geoOf_isGeo f
        cases hl with
        | same => exact Or.inl h1
        | zero =>
          rw [matches_iff hg ha] at h1
          have := h1.1
          rcases ha with h | h | h | h <;> subst h <;> simp [Line.zero] at this
        | dirty => left; rwa [matches_or_dirty hg ha] at h1
        | fill h2 h3 =>
          rename_i x p r prot
          right
          refine ⟨op, List.mem_cons_self .., x, filled_target h2, ?_⟩
          rw [matches_iff hg ha, mkEntry_tag hg] at h1
          exact tag_page hg h3.symm h1.2
      · exact Or.inr ⟨o, List.mem_cons_of_mem _ ho, hh⟩
  rcases gen ops s h with h1 | h1
  · exfalso
    rw [h0, matches_iff (geoOf_isGeo f) ha] at h1
    have := h1.1
    rcases ha with h | h | h | h <;> subst h <;> simp [Line.zero] at this
  · exact h1

/-- C20 over histories. Starting with empty TLBs, an access that hits is to a page some earlier data access of the history was to. -/
theorem C20_data_hit_was_accessed (b : Bus) (s : St) (he : Empty s) (ops : List Op) (va : Addr) (h : DataHit (run b s ops) va) :
    ∃ op ∈ ops, ∃ x, op.target false = some x ∧ x >>> 12 = va >>> 12 := by
  obtain ⟨cpl, wr, pr, h⟩ := h
  obtain ⟨i, hi⟩ := Option.isSome_iff_exists.1 h
  obtain ⟨op, ho, x, h1, h2⟩ := hist_hit (f := false) ops va i (accessBit_isAccess _ _ _) he.1 (lookup_some hi).1
  exact ⟨op, ho, x, h1, (C20_set_and_tag_identify_page x va).1.1 (page_tag .d h2)⟩

/-- C20 over histories, for fetches: some earlier fetch was from the page. -/
theorem C20_code_hit_was_fetched (b : Bus) (s : St) (he : Empty s) (ops : List Op) (va : Addr) (h : CodeHit (run b s ops) va) :
    ∃ op ∈ ops, ∃ x, op.target true = some x ∧ x >>> 12 = va >>> 12 := by
  obtain ⟨cpl, h⟩ := h
  obtain ⟨i, hi⟩ := Option.isSome_iff_exists.1 h
  obtain ⟨op, ho, x, h1, h2⟩ := hist_hit (f := true) ops va i (accessBit_isAccess _ _ _) he.2 (lookup_some hi).1
  exact ⟨op, ho, x, h1, (C20_set_and_tag_identify_page x va).1.1 (page_tag .d h2)⟩

/-! A concrete machine for the examples: one ram region over the whole address space, no aliases, the page tables of `exMem`. -/
def exRam : Region := { start := 0, stop := 0xFFFFFFFF, type := .ram }
def exBus : Bus := { search := fun _ => exRam, locate := fun a => (exRam, a) }
def exSt : St := { ctl := exCtl 0#2 true, mem := exMem, dtlb := fun _ _ => Line.zero, itlb := fun _ _ => Line.zero, smc := fun _ => false }

theorem exBus_pageWise : PageWise exBus := ⟨fun _ => rfl, fun _ _ h => h⟩
example : Empty exSt ∧ DataHit (run exBus exSt [.readSlow 0x3004#32 false 0]) 0x3FFF#32 ∧ CodeHit (run exBus exSt [.code 0x3004#32 false 0]) 0x3FFF#32 :=
  ⟨⟨fun _ _ => rfl, fun _ _ => rfl⟩, ⟨0#2, false, false, by decide +kernel⟩, ⟨0#2, by decide +kernel⟩⟩

/-! ### C21 -/

/-- C21. In every reachable state a hit in the data TLB, at any privilege level and for reads and writes, gives the address a fresh
page walk gives, and the walk grants the access. -/
theorem C21_data_hit_is_walk (b : Bus) (hb : PageWise b) (s : St) (hr : Reachable b s) (cpl : BitVec 2) (wr pr : Bool) (va : Addr) (i : Nat)
    (h : lookup dGeo s.dtlb (accessBit { s.ctl with cpl := cpl } wr pr) va = some i) :
    answer b { s.ctl with cpl := cpl } s.mem va wr pr = some (hitAddr (s.dtlb (dGeo.set va) i).entry va) :=
  ((inv_reachable hb hr).d _ i).hit va rfl cpl wr pr (lookup_some h).1

/-- C21. The same for the instruction TLB. -/
theorem C21_code_hit_is_walk (b : Bus) (hb : PageWise b) (s : St) (hr : Reachable b s) (cpl : BitVec 2) (va : Addr) (i : Nat)
    (h : lookup iGeo s.itlb (accessBit { s.ctl with cpl := cpl } false false) va = some i) :
    answer b { s.ctl with cpl := cpl } s.mem va false false = some (hitAddr (s.itlb (iGeo.set va) i).entry va) :=
  ((inv_reachable hb hr).i _ i).hit va rfl cpl false false (lookup_some h).1

theorem translate_ok_iff (b : Bus) (s : St) (f : Bool) (va : Addr) (wr pr sc : Bool) (v : Nat) (p : Addr) :
    (translate b s f va wr pr sc v).2 = .ok p ↔ answer b s.ctl s.mem va wr pr = some p := by
  have hsc : (∃ q pr1, (walk b.fix s.ctl s.mem va wr pr sc).1 = .ok q pr1 ∧ b.fix q = p) ↔ answer b s.ctl s.mem va wr pr = some p := by
    cases hp : pagingOn s.ctl with
    | false =>
      have hpg : s.ctl.cr0 &&& 0x80000000#32 = 0#32 := by
        rw [bit_test s.ctl.cr0 _ 31 (by decide) (by omega)]
        simpa [pagingOn] using hp
      rw [answer_off hp]
      unfold walk; rw [if_pos hpg]; simp
    | true =>
      rw [answer_on hp]
      cases hm : mapping b.fix s.ctl s.mem va with
      | none => rw [walk_none hp hm]; simp
      | some mp =>
        obtain ⟨h0, h1⟩ := walk_some (wr := wr) (pr := pr) (sc := sc) hp hm
        cases hg : granted (writeProtect s.ctl) mp.user (codeWritable s.mem mp) (userAccess s.ctl pr) wr with
        | false => rw [h0 hg]; simp [hg]
        | true => obtain ⟨m', e, _⟩ := h1 hg; rw [e]; simp [hg]
  rw [← hsc]
  unfold translate
  cases hw : walk b.fix s.ctl s.mem va wr pr sc with
  | mk w m' =>
    cases w with
    | fault a c => simp
    | ub => simp
    | ok q pr1 => cases f <;> simp [fill, Bus.fix]

/-- C21. Whether the TLB hits or not, get_read_addr succeeds with exactly the address, and exactly when, a fresh walk does. -/
theorem C21_read_is_walk (b : Bus) (hb : PageWise b) (s : St) (hr : Reachable b s) (va : Addr) (pr : Bool) (v : Nat) (p : Addr) :
    (getRead b s va pr v).2 = .ok p ↔ answer b s.ctl s.mem va false pr = some p := by
  unfold getRead
  cases h : lookup dGeo s.dtlb (accessBit s.ctl false pr) va with
  | none => exact translate_ok_iff _ _ _ _ _ _ _ _ _
  | some i => have := C21_data_hit_is_walk b hb s hr s.ctl.cpl false pr va i h; rw [this]; simp

theorem C21_write_is_walk (b : Bus) (hb : PageWise b) (s : St) (hr : Reachable b s) (va : Addr) (pr : Bool) (v : Nat) (p : Addr) :
    (getWrite b s va pr v).2 = .ok p ↔ answer b s.ctl s.mem va true pr = some p := by
  unfold getWrite
  cases h : lookup dGeo s.dtlb (accessBit s.ctl true pr) va with
  | none => exact translate_ok_iff _ _ _ _ _ _ _ _ _
  | some i => have := C21_data_hit_is_walk b hb s hr s.ctl.cpl true pr va i h; rw [this]; simp

theorem C21_code_is_walk (b : Bus) (hb : PageWise b) (s : St) (hr : Reachable b s) (va : Addr) (sc : Bool) (v : Nat) (p : Addr) :
    (getCode b s va sc v).2 = .ok p ↔ answer b s.ctl s.mem va false false = some p := by
  unfold getCode
  cases h : lookup iGeo s.itlb (accessBit s.ctl false false) va with
  | none => exact translate_ok_iff _ _ _ _ _ _ _ _ _
  | some i => have := C21_code_hit_is_walk b hb s hr s.ctl.cpl va i h; rw [this]; simp

/-- The hit test of the guest access helpers: entry and page match, and first and last byte are on one page. -/
theorem helperMatches_iff (acc : Entry) (hacc : acc &&& 0xFFFFFC00#64 = 0#64 ∧ acc &&& dGeo.tagMask = 0#64) (n : Nat) (va : Addr) (e : Entry) :
    helperMatches acc n va e = true ↔
      (e &&& acc = acc ∧ e &&& dGeo.tagMask = dGeo.tag va ∧ pageBase va = pageBase (va + BitVec.ofNat 32 n - 1#32)) := by
  generalize hq : va + BitVec.ofNat 32 n - 1#32 = q
  unfold helperMatches
  rw [hq, beq_iff_eq, BitVec.xor_eq_zero_iff]
  have hP : ∀ x : Addr, ∃ P : Entry, P = (pageBase x).setWidth 64 ∧ P &&& 0xFFFFF000#64 = P ∧ (pageBase x) = P.setWidth 32 := by
    intro x
    refine ⟨_, rfl, ?_, by simp⟩
    unfold pageBase; bits64
  obtain ⟨P, e1, hP1, hP2⟩ := hP va
  obtain ⟨Q, e2, hQ1, hQ2⟩ := hP q
  have hpq : pageBase va = pageBase q ↔ P = Q := by
    constructor
    · intro h; rw [e1, e2, h]
    · intro h; rw [hP2, hQ2, h]
  rw [hpq, ← e1, ← e2]
  have ht : dGeo.tag va &&& dGeo.tagMask = dGeo.tag va := tag_masked va
  have hdis : dGeo.tagMask &&& 0xFFFFF000#64 = 0#64 := by decide
  have hm : (0xFFFFFC00#64 : Entry) &&& 0xFFFFF000#64 = 0xFFFFF000#64 := by decide
  have hacc1 : acc &&& 0xFFFFF000#64 = 0#64 := by
    rw [← hm, ← BitVec.and_assoc, hacc.1]; simp
  generalize dGeo.tag va = t at *
  generalize dGeo.tagMask = M at *
  generalize (0xFFFFF000#64 : Entry) = K at *
  have A : ∀ i, (acc.getLsbD i && M.getLsbD i) = false := fun i => by simpa using congrArg (fun v : Entry => v.getLsbD i) hacc.2
  have B : ∀ i, (acc.getLsbD i && K.getLsbD i) = false := fun i => by simpa using congrArg (fun v : Entry => v.getLsbD i) hacc1
  have C : ∀ i, (M.getLsbD i && K.getLsbD i) = false := fun i => by simpa using congrArg (fun v : Entry => v.getLsbD i) hdis
  have D : ∀ i, (t.getLsbD i && M.getLsbD i) = t.getLsbD i := fun i => by simpa using congrArg (fun v : Entry => v.getLsbD i) ht
  have E1 : ∀ i, (P.getLsbD i && K.getLsbD i) = P.getLsbD i := fun i => by simpa using congrArg (fun v : Entry => v.getLsbD i) hP1
  have E2 : ∀ i, (Q.getLsbD i && K.getLsbD i) = Q.getLsbD i := fun i => by simpa using congrArg (fun v : Entry => v.getLsbD i) hQ1
  clear hacc hacc1 hdis ht hP1 hQ1 hP2 hQ2 hpq e1 e2 hm
  constructor
  · intro h
    have F : ∀ i, ((e.getLsbD i && (acc.getLsbD i || M.getLsbD i)) || P.getLsbD i) = ((t.getLsbD i || Q.getLsbD i) || acc.getLsbD i) :=
      fun i => by simpa using congrArg (fun v : Entry => v.getLsbD i) h
    refine ⟨?_, ?_, ?_⟩ <;> apply BitVec.eq_of_getLsbD_eq <;> intro i _ <;>
      (have a := A i; have b := B i; have c := C i; have d := D i; have e1 := E1 i; have e2 := E2 i; have f := F i
       try rw [BitVec.getLsbD_and]
       revert a b c d e1 e2 f
       cases e.getLsbD i <;> cases acc.getLsbD i <;> cases M.getLsbD i <;> cases K.getLsbD i <;> cases t.getLsbD i <;> cases P.getLsbD i <;> cases Q.getLsbD i <;> simp)
  · rintro ⟨h1, h2, h3⟩
    rw [h3, BitVec.and_or_distrib_left, h1, h2]
    ac_rfl

/-- C21. A guest access of `n` bytes served directly from the data TLB (mem_read_helper / mem_write_helper) stays on one page, and
its address is the one a fresh walk gives. -/
theorem C21_fast_path_is_walk (b : Bus) (hb : PageWise b) (s : St) (hr : Reachable b s) (n : Nat) (va : Addr) (wr pr : Bool) (i : Nat)
    (h : helperLookup s n va wr pr = some i) :
    answer b s.ctl s.mem va wr pr = some (hitAddr (s.dtlb (dGeo.set va) i).entry va) ∧
      va >>> 12 = (va + BitVec.ofNat 32 n - 1#32) >>> 12 := by
  have hm : helperMatches (if wr then accessBit s.ctl true pr ||| 0x200#64 else accessBit s.ctl false pr) n va (s.dtlb (dGeo.set va) i).entry = true := by
    unfold helperLookup at h; simpa using List.find?_some h
  have hacc : ∀ acc : Entry, IsAccess acc → (acc &&& 0xFFFFFC00#64 = 0#64 ∧ acc &&& dGeo.tagMask = 0#64) ∧
      ((acc ||| 0x200#64) &&& 0xFFFFFC00#64 = 0#64 ∧ (acc ||| 0x200#64) &&& dGeo.tagMask = 0#64) := by
    intro acc ha; rcases ha with h | h | h | h <;> subst h <;> decide
  have hpg : ∀ x : Addr, x >>> 12 = (pageBase x) >>> 12 := fun x => by unfold pageBase; bits32
  cases wr with
  | false =>
    simp only [Bool.false_eq_true, if_false] at hm
    rw [helperMatches_iff _ (hacc _ (accessBit_isAccess _ _ _)).1] at hm
    obtain ⟨h1, h2, h3⟩ := hm
    refine ⟨((inv_reachable hb hr).d _ i).hit va rfl s.ctl.cpl false pr ?_, by rw [hpg va, hpg (va + _ - _), h3]⟩
    exact (matches_iff .d (accessBit_isAccess _ _ _) _ _).2 ⟨h1, h2⟩
  | true =>
    simp only [if_true] at hm
    rw [helperMatches_iff _ (hacc _ (accessBit_isAccess _ _ _)).2] at hm
    obtain ⟨h1, h2, h3⟩ := hm
    refine ⟨((inv_reachable hb hr).d _ i).hit va rfl s.ctl.cpl true pr ?_, by rw [hpg va, hpg (va + _ - _), h3]⟩
    refine (matches_iff .d (accessBit_isAccess _ _ _) _ _).2 ⟨?_, h2⟩
    have h4 := congrArg (· &&& accessBit s.ctl true pr) h1
    simp only [BitVec.and_assoc, or_and_right] at h4
    generalize accessBit s.ctl true pr = acc at *
    have h5 : (acc ||| 0x200#64) &&& acc = acc := by
      apply BitVec.eq_of_getLsbD_eq; intro k _
      rw [BitVec.getLsbD_and, BitVec.getLsbD_or]; cases acc.getLsbD k <;> simp
    have h6 : acc &&& acc ||| 512#64 &&& acc = acc := by rw [← or_and_right]; exact h5
    rw [h6] at h4
    exact h4

example : (helperLookup (run exBus exSt [.writeSlow 0x3004#32 false 0]) 4 0x3FF0#32 true false) = some 0 := by decide +kernel

/-- C21 (what a direct access may touch). If a hit is marked ram, rom or mmio, the recorded region is one of the memory map, has that
type, and contains the whole page of the answer: a direct access of any size on the page stays inside the region. -/
theorem C21_hit_region (b : Bus) (s : St) (hr : Reachable b s) (f : Bool) (va : Addr) (i : Nat) (c : Ctl) (wr pr : Bool)
    (h : lookup (if f then iGeo else dGeo) (if f then s.itlb else s.dtlb) (accessBit c wr pr) va = some i) :
    let l := (if f then s.itlb else s.dtlb) ((if f then iGeo else dGeo).set va) i
    ∃ x r, l.region = some r ∧ r = (b.locate x).1 ∧
      (∀ t : MemType, (l.entry &&& 0x8E0#64 = 0x20#64 ∧ t = .ram) ∨ (l.entry &&& 0x8E0#64 = 0x80#64 ∧ t = .mmio) ∨ (l.entry &&& 0x8E0#64 = 0#64 ∧ t = .unmapped) →
        r.type = t ∧ ∀ o : Addr, o.toNat < 4096 → r.start ≤ (pageBase (hitAddr l.entry va) + o).toNat ∧ (pageBase (hitAddr l.entry va) + o).toNat ≤ r.stop) ∧
      (l.entry &&& 0x8E0#64 = 0x40#64 → (r.type = .rom ∨ r.type = .alias ∨ r.type = .pmio) ∧
        ∀ o : Addr, o.toNat < 4096 → r.start ≤ (pageBase (hitAddr l.entry va) + o).toNat ∧ (pageBase (hitAddr l.entry va) + o).toNat ≤ r.stop) := by
  intro l
  have hg : IsGeo (if f then iGeo else dGeo) := by cases f; exact .d; exact .i
  have hm := (lookup_some h).1
  rw [matches_iff hg (accessBit_isAccess c wr pr)] at hm
  have hv : l.entry &&& 0xF#64 ≠ 0#64 := by
    intro h0
    have e : l.entry &&& accessBit c wr pr = accessBit c wr pr := hm.1
    rcases accessBit_isAccess c wr pr with h1 | h1 | h1 | h1 <;> rw [h1] at e <;>
    · have e2 := congrArg (fun v : Entry => v &&& 0xF#64) e
      simp only [BitVec.and_assoc] at e2
      rw [BitVec.and_comm _ (0xF#64), ← BitVec.and_assoc, h0] at e2
      revert e2; decide
  have hreg : RegionOk b l := by
    cases f
    · exact (regInv_reachable hr).1 _ i
    · exact (regInv_reachable hr).2 _ i
  obtain ⟨x, h1, h2, h3⟩ := hreg hv
  have hbase : pageBase (hitAddr l.entry va) = pageBase (b.locate x).2 := by
    unfold hitAddr; rw [base_or_off]; exact h3
  have inside : ∀ (p : Addr) (r : Region), kindBits r p ≠ 0x800#64 → ∀ o : Addr, o.toNat < 4096 →
      r.start ≤ (pageBase p + o).toNat ∧ (pageBase p + o).toNat ≤ r.stop := by
    intro p r hk o ho
    unfold kindBits at hk
    split at hk
    · next hh =>
      have e : (pageBase p).toNat = p.toNat / 4096 * 4096 := by
        have : pageBase p = (p >>> 12) <<< 12 := by unfold pageBase; bits32
        rw [this, BitVec.toNat_shiftLeft, BitVec.toNat_ushiftRight, Nat.shiftLeft_eq, Nat.shiftRight_eq_div_pow]
        have := p.isLt
        omega
      have e2 : (pageBase p ||| 0xFFF#32).toNat = p.toNat / 4096 * 4096 + 4095 := by
        have : pageBase p ||| 0xFFF#32 = pageBase p + 0xFFF#32 := by
          rw [BitVec.add_eq_or_of_and_eq_zero]
          unfold pageBase; bits32
        rw [this, BitVec.toNat_add, e]
        have := p.isLt
        have : (0xFFF#32 : Addr).toNat = 4095 := by decide
        rw [this]
        omega
      rw [BitVec.toNat_add, e]
      rw [e, e2] at hh
      have := p.isLt
      omega
    · exact absurd rfl hk
  have types : ∀ (p : Addr) (r : Region), (kindBits r p = 0x20#64 → r.type = .ram) ∧ (kindBits r p = 0x80#64 → r.type = .mmio) ∧
      (kindBits r p = 0#64 → r.type = .unmapped) ∧ (kindBits r p = 0x40#64 → (r.type = .rom ∨ r.type = .alias ∨ r.type = .pmio)) := by
    intro p r
    unfold kindBits
    split
    · cases r.type <;> simp
    · simp
  rw [hbase, h2]
  refine ⟨x, _, h1, rfl, ?_, ?_⟩
  · rintro t (⟨k, rfl⟩ | ⟨k, rfl⟩ | ⟨k, rfl⟩)
    · exact ⟨(types _ _).1 k, inside _ _ (by rw [k]; decide)⟩
    · exact ⟨(types _ _).2.1 k, inside _ _ (by rw [k]; decide)⟩
    · exact ⟨(types _ _).2.2.1 k, inside _ _ (by rw [k]; decide)⟩
  · intro k
    exact ⟨(types _ _).2.2.2 k, inside _ _ (by rw [k]; decide)⟩

/-- C21. The hypothesis `PageWise` of the theorems above holds of every memory map built by the region api whose regions are page
aligned and whose aliases are shifted by whole pages, with either setting of the a20 gate. -/
theorem C21_pagewise_of_aligned_map (s : Verif.AS.Space) (hg : Verif.Block.Good s) (ha : PageAligned s) (fuel : Nat) (closed : Bool) :
    PageWise (busOf s fuel (Verif.Region.a20Mask closed)) :=
  busOf_pageWise hg ha fuel (by cases closed <;> decide)

/-- A map with an alias shifted by 0x100 bytes: the alias page at 0x400000 shows ram from 0x100 on. -/
def exAliasMap : Verif.AS.Space :=
  { max := 0xFFFFFFFF, fresh := 0, nodes :=
    [⟨0, .own 0, { start := 0, stop := 0x3FFFFF, type := .ram }⟩,
     ⟨0x400000, .own 1, { start := 0x400000, stop := 0x400FFF, type := .alias, aliasOff := 0x100, aliased := some (.own 0) }⟩,
     ⟨0x401000, .own 2, { start := 0x401000, stop := 0xFFFFFFFF }⟩] }

/-- C21 fails for an alias that is not shifted by whole pages: the first read of 0x400010 goes to 0x110, the second, now a hit, to
0x010. -/
theorem C21_misaligned_alias_violation : ∃ (s : St) (va : Addr), Empty s ∧ pagingOn s.ctl = false ∧
    (getRead (busOf exAliasMap 5 0xFFFFFFFF#32) s va false 0).2 = .ok 0x110#32 ∧
    (getRead (busOf exAliasMap 5 0xFFFFFFFF#32) (getRead (busOf exAliasMap 5 0xFFFFFFFF#32) s va false 0).1 va false 0).2 = .ok 0x010#32 ∧
    answer (busOf exAliasMap 5 0xFFFFFFFF#32) s.ctl s.mem va false false = some 0x110#32 :=
  ⟨{ ctl := { cr0 := 1#32, cr3 := 0#32, cr4 := 0#32, cpl := 0#2 }, mem := fun _ => 0#8, dtlb := fun _ _ => Line.zero,
     itlb := fun _ _ => Line.zero, smc := fun _ => false }, 0x400010#32,
   ⟨fun _ _ => rfl, fun _ _ => rfl⟩, by decide, by decide +kernel, by decide +kernel, by decide +kernel⟩

/-! ### C22 -/

theorem copies_run (b : Bus) (f : Bool) (va : Addr) (ops : List Op) : ∀ s : St,
    copies (geoOf f) (tlbOf f (run b s ops)) va ≤ copies (geoOf f) (tlbOf f s) va + uses f va ops := by
  induction ops with
  | nil => intro s; exact Nat.le_add_right _ _
  | cons op ops ih =>
    intro s
    have h1 := ih (step b s op)
    have e : uses f va (op :: ops) = uses f va ops + (if Op.isUse f va op = true then 1 else 0) := by
      unfold uses; rw [List.countP_cons]
    have h2 : copies (geoOf f) (tlbOf f (step b s op)) va ≤ copies (geoOf f) (tlbOf f s) va +
        (if Op.isUse f va op = true then 1 else 0) := by
      by_cases hc : ∃ x, filled s f op = some x ∧ pageBase x = pageBase va
      · obtain ⟨x, hx, hp⟩ := hc
        have hu : Op.isUse f va op = true := by
          unfold Op.isUse; rw [filled_target hx]
          simp [(C20_set_and_tag_identify_page x va).1.1 (page_tag .d hp)]
        rw [if_pos hu]
        have := copies_step b s op f va
        split at this <;> omega
      · have := copies_step_other b s op f va (fun x hx hp => hc ⟨x, hx, hp⟩)
        omega
    have e2 : run b s (op :: ops) = run b (step b s op) ops := rfl
    rw [e2]
    omega

theorem no_hit_of_copies {b : Bus} (hb : PageWise b) {s : St} (hr : Reachable b s) (va : Addr) :
    (copies dGeo s.dtlb va = 0 → ¬ DataHit s va) ∧ (copies iGeo s.itlb va = 0 → ¬ CodeHit s va) := by
  have I := inv_reachable hb hr
  constructor
  · rintro h ⟨cpl, wr, pr, hh⟩
    rw [lookup_none_of_copies .d (fun set i => (I.d set i).read) h (accessBit_isAccess _ _ _)] at hh
    simp at hh
  · rintro h ⟨cpl, hh⟩
    rw [lookup_none_of_copies .i (fun set i => (I.i set i).read) h (accessBit_isAccess _ _ _)] at hh
    simp at hh

/-- C22. tlb_invalidate(va) after any history in which, since the TLBs were last empty, the page was translated at most once for data
and at most once for fetches: no access to the page is served from the TLBs.
Partial: the code clears only the first of several entries of the page (`C22_duplicate_violation`, `C22_upgrade_violation`). -/
theorem C22_invalidate_partial (b : Bus) (hb : PageWise b) (s : St) (he : Empty s) (ops : List Op) (va va' : Addr)
    (hr : Reachable b (run b s ops)) (hp : va' >>> 12 = va >>> 12) (hd : uses false va ops ≤ 1) (hi : uses true va ops ≤ 1) :
    ¬ DataHit (invalidate (run b s ops) va') va ∧ ¬ CodeHit (invalidate (run b s ops) va') va := by
  have hp' : pageBase va' = pageBase va := tag_page .d ((C20_set_and_tag_identify_page va' va).1.2 hp).1 ((C20_set_and_tag_identify_page va' va).1.2 hp).2
  have hr' : Reachable b (invalidate (run b s ops) va') := Reachable.next (.inval va') hr trivial
  have hz : ∀ f, copies (geoOf f) (tlbOf f s) va = 0 := by
    intro f
    rw [copies_zero_iff]; intro i _
    have : tlbOf f s ((geoOf f).set va) i = Line.zero := by cases f; exact he.1 _ _; exact he.2 _ _
    rw [this]; exact not_holds_zero (geoOf_isGeo f) va
  have c1 := copies_run b false va ops s
  have c2 := copies_run b true va ops s
  rw [hz] at c1 c2
  refine ⟨(no_hit_of_copies hb hr' va).1 ?_, (no_hit_of_copies hb hr' va).2 ?_⟩
  · have := copies_invalidate .d (run b s ops).dtlb va va' hp'
    have : copies dGeo (invalidate (run b s ops) va').dtlb va ≤ copies dGeo (run b s ops).dtlb va - 1 := this
    have e : copies (geoOf false) (tlbOf false (run b s ops)) va = copies dGeo (run b s ops).dtlb va := rfl
    omega
  · have := copies_invalidate .i (run b s ops).itlb va va' hp'
    have : copies iGeo (invalidate (run b s ops) va').itlb va ≤ copies iGeo (run b s ops).itlb va - 1 := this
    have e : copies (geoOf true) (tlbOf true (run b s ops)) va = copies iGeo (run b s ops).itlb va := rfl
    omega

example : ∃ ops, Reachable exBus (run exBus exSt ops) ∧ uses false 0x3FFF#32 ops ≤ 1 ∧ uses true 0x3FFF#32 ops ≤ 1 ∧
    DataHit (run exBus exSt ops) 0x3FFF#32 ∧ CodeHit (run exBus exSt ops) 0x3FFF#32 :=
  ⟨[.readSlow 0x3000#32 false 0, .code 0x3004#32 false 0, .write 0x5000#32 false 0],
   .next (.write 0x5000#32 false 0) (.next (.code 0x3004#32 false 0) (.next (.readSlow 0x3000#32 false 0) (.start _ _ _) trivial) trivial) trivial, by decide, by decide,
   ⟨0#2, false, false, by decide +kernel⟩, ⟨0#2, by decide +kernel⟩⟩

/-- C22, what the code does guarantee in every reachable state: eight calls (as many as a set has lines) remove the page. -/
theorem C22_eight_invalidations (b : Bus) (hb : PageWise b) (s : St) (hr : Reachable b s) (va : Addr) :
    ¬ DataHit (run b s (List.replicate 8 (.inval va))) va ∧ ¬ CodeHit (run b s (List.replicate 8 (.inval va))) va := by
  have hr' : ∀ n, Reachable b (run b s (List.replicate n (.inval va))) := by
    intro n
    induction n with
    | zero => exact hr
    | succ n ih =>
      rw [List.replicate_succ', run, List.foldl_append]
      exact Reachable.next (.inval va) ih trivial
  have hcnt : ∀ n, copies dGeo (run b s (List.replicate n (.inval va))).dtlb va ≤ dGeo.lines - n ∧
      copies iGeo (run b s (List.replicate n (.inval va))).itlb va ≤ iGeo.lines - n := by
    intro n
    induction n with
    | zero =>
      have h : ∀ (g : Geo) (t : Tlb), copies g t va ≤ g.lines := by
        intro g t; unfold copies; refine Nat.le_trans List.countP_le_length ?_; simp
      exact ⟨h _ _, h _ _⟩
    | succ n ih =>
      rw [List.replicate_succ', run, List.foldl_append]
      have h1 := copies_invalidate .d (run b s (List.replicate n (.inval va))).dtlb va va rfl
      have h2 := copies_invalidate .i (run b s (List.replicate n (.inval va))).itlb va va rfl
      have h1' : copies dGeo (List.foldl (step b) (List.foldl (step b) s (List.replicate n (.inval va))) [.inval va]).dtlb va ≤ _ := h1
      have h2' : copies iGeo (List.foldl (step b) (List.foldl (step b) s (List.replicate n (.inval va))) [.inval va]).itlb va ≤ _ := h2
      omega
  have h8 := hcnt 8
  have e1 : dGeo.lines = 4 := rfl
  have e2 : iGeo.lines = 8 := rfl
  exact ⟨(no_hit_of_copies hb (hr' 8) va).1 (by omega), (no_hit_of_copies hb (hr' 8) va).2 (by omega)⟩

/-- C22. Invalidating a page leaves the entries of all other pages in place. -/
theorem C22_other_pages_kept (s : St) (va va' : Addr) (hp : va' >>> 12 ≠ va >>> 12) (c : Ctl) (wr pr : Bool) :
    lookup dGeo (invalidate s va).dtlb (accessBit c wr pr) va' = lookup dGeo s.dtlb (accessBit c wr pr) va' ∧
    lookup iGeo (invalidate s va).itlb (accessBit c wr pr) va' = lookup iGeo s.itlb (accessBit c wr pr) va' := by
  have key : ∀ (g : Geo) (hg : IsGeo g) (t : Tlb), lookup g (invalidateTlb g t va) (accessBit c wr pr) va' = lookup g t (accessBit c wr pr) va' := by
    intro g hg t
    have hpage : pageBase va ≠ pageBase va' := by
      intro h; exact hp ((C20_set_and_tag_identify_page va' va).1.1 (page_tag .d h.symm))
    unfold lookup
    congr 1
    funext i
    unfold invalidateTlb
    cases hf : List.find? (fun i => matches' g (1#64) va (t (g.set va) i).entry) (List.range g.lines) with
    | none => rfl
    | some k =>
      simp only [Tlb.put]
      split
      · next hh =>
        have hm : matches' g (1#64) va (t (g.set va) k).entry = true := by simpa using List.find?_some hf
        rw [matches_iff hg (Or.inl rfl)] at hm
        have h1 : matches' g (accessBit c wr pr) va' (t (g.set va') i).entry = false := by
          cases h : matches' g (accessBit c wr pr) va' (t (g.set va') i).entry with
          | false => rfl
          | true =>
            rw [matches_iff hg (accessBit_isAccess _ _ _), hh.1, hh.2] at h
            exact absurd (tag_page hg hh.1.symm (hm.2.symm.trans h.2)) hpage
        have h2 : matches' g (accessBit c wr pr) va' Line.zero.entry = false := by
          cases h : matches' g (accessBit c wr pr) va' Line.zero.entry with
          | false => rfl
          | true =>
            rw [matches_iff hg (accessBit_isAccess _ _ _)] at h
            have := h.1
            rcases accessBit_isAccess c wr pr with e | e | e | e <;> rw [e] at this <;> simp [Line.zero] at this
        rw [h1, h2]
      · rfl
  exact ⟨key dGeo .d s.dtlb, key iGeo .i s.itlb⟩

/-- C22 fails: two page-crossing reads (each translates both pages without looking into the TLB) leave two equal entries of the
page; tlb_invalidate clears one, and the page is still served by the other. -/
theorem C22_duplicate_violation : ∃ (b : Bus) (s : St) (va : Addr), PageWise b ∧ Reachable b s ∧ DataHit (invalidate s va) va :=
  ⟨exBus, run exBus exSt [.readSlow 0x3FFE#32 false 0, .readSlow 0x4001#32 false 0, .readSlow 0x3FFE#32 false 0, .readSlow 0x4001#32 false 0], 0x3000#32,
   exBus_pageWise,
   .next (.readSlow 0x4001#32 false 0) (.next (.readSlow 0x3FFE#32 false 0) (.next (.readSlow 0x4001#32 false 0)
     (.next (.readSlow 0x3FFE#32 false 0) (.start _ _ _) trivial) trivial) trivial) trivial,
   ⟨0#2, false, false, by decide +kernel⟩⟩

/-- C22 fails without page-crossing accesses too: a page is read (clean entry in line 1, behind a page of the same set in line 0), the
other page is invalidated, and a guest write to the first page puts its dirty entry into the freed line 0 instead of upgrading
line 1.  (0x3000 and 0x803000 share a data TLB set.) -/
theorem C22_upgrade_violation : ∃ (b : Bus) (s : St) (va : Addr), PageWise b ∧ Reachable b s ∧ DataHit (invalidate s va) va :=
  let s0 : St := { exSt with mem := wr32 exMem 0x1008#32 0x00800083#32 }
  ⟨exBus, run exBus s0 [.readSlow 0x803000#32 false 0, .readSlow 0x3000#32 false 0, .inval 0x803000#32, .writeSlow 0x3000#32 false 0], 0x3000#32,
   exBus_pageWise,
   .next (.writeSlow 0x3000#32 false 0) (.next (.inval 0x803000#32) (.next (.readSlow 0x3000#32 false 0)
     (.next (.readSlow 0x803000#32 false 0) (.start _ _ _) trivial) trivial) trivial) trivial,
   ⟨0#2, false, false, by decide +kernel⟩⟩

/-! ### C23 -/

/-- C23. A full flush leaves nothing: no access of any kind hits. -/
theorem C23_full_flush (s : St) : Empty (flushAll s) ∧ ∀ va, ¬ DataHit (flushAll s) va ∧ ¬ CodeHit (flushAll s) va := by
  refine ⟨⟨fun _ _ => rfl, fun _ _ => rfl⟩, fun va => ?_⟩
  have h : ∀ (g : Geo) (hg : IsGeo g) (c : Ctl) (wr pr : Bool), lookup g (fun _ _ => Line.zero) (accessBit c wr pr) va = none := by
    intro g hg c wr pr
    exact lookup_none_of_copies hg (fun set i acc ha hh => by
      obtain ⟨k, hk, e⟩ := access_index ha
      have := (and_acc_iff k (by omega) e).1 hh
      simp [Line.zero] at this) (copies_zero_iff.2 (fun i _ => not_holds_zero hg va)) (accessBit_isAccess _ _ _)
  constructor
  · rintro ⟨cpl, wr, pr, hh⟩
    have := h dGeo .d { s.ctl with cpl := cpl } wr pr
    rw [show (flushAll s).dtlb = (fun _ _ => Line.zero) from rfl, show (flushAll s).ctl = s.ctl from rfl, this] at hh
    simp at hh
  · rintro ⟨cpl, hh⟩
    have := h iGeo .i { s.ctl with cpl := cpl } false false
    rw [show (flushAll s).itlb = (fun _ _ => Line.zero) from rfl, show (flushAll s).ctl = s.ctl from rfl, this] at hh
    simp at hh

/-- C23. A flush that keeps global entries keeps a line exactly if its global bit (8) is set, and clears it otherwise; nothing else of
the state changes. -/
theorem C23_local_flush (s : St) (x : Addr) (i : Nat) :
    ((flushLocal s).dtlb x i = if (s.dtlb x i).entry.getLsbD 8 then s.dtlb x i else ⟨0#64, none⟩) ∧
    ((flushLocal s).itlb x i = if (s.itlb x i).entry.getLsbD 8 then s.itlb x i else ⟨0#64, none⟩) ∧
    (flushLocal s).mem = s.mem ∧ (flushLocal s).ctl = s.ctl ∧ (flushLocal s).smc = s.smc := by
  have key : ∀ l : Line, keepGlobal l = if l.entry.getLsbD 8 then l else ⟨0#64, none⟩ := by
    intro l
    unfold keepGlobal
    by_cases h : l.entry &&& 0x100#64 = 0#64
    · rw [if_pos h]; rw [and_eq_zero 8 (by decide) (by omega)] at h; rw [h]; rfl
    · rw [if_neg h]; rw [and_eq_zero 8 (by decide) (by omega)] at h; simp only [Bool.not_eq_false] at h; rw [h]; rfl
  exact ⟨key _, key _, rfl, rfl, rfl⟩

/-- C23 in terms of the page tables: in a reachable state the entries that survive a local flush are entries of pages mapped global
with CR4.PGE set. -/
theorem C23_survivors_are_global (b : Bus) (hb : PageWise b) (s : St) (hr : Reachable b s) (va : Addr) (h : DataHit (flushLocal s) va) :
    GlobalPage b s.ctl s.mem va := by
  obtain ⟨cpl, wr, pr, h⟩ := h
  obtain ⟨i, hi⟩ := Option.isSome_iff_exists.1 h
  have hm := (lookup_some hi).1
  have he : ((flushLocal s).dtlb (dGeo.set va) i).entry = if (s.dtlb (dGeo.set va) i).entry.getLsbD 8 then (s.dtlb (dGeo.set va) i).entry else 0#64 := keepGlobal_entry _
  rw [matches_iff .d (accessBit_isAccess _ _ _), he] at hm
  cases h8 : (s.dtlb (dGeo.set va) i).entry.getLsbD 8 with
  | true => rw [h8] at hm; exact ((inv_reachable hb hr).d _ i).glob va rfl h8 hm.2
  | false =>
    rw [h8] at hm
    have := hm.1
    rcases accessBit_isAccess { (flushLocal s).ctl with cpl := cpl } wr pr with e | e | e | e <;> rw [e] at this <;> simp at this

/-- The same for fetches. -/
theorem C23_code_survivors_are_global (b : Bus) (hb : PageWise b) (s : St) (hr : Reachable b s) (va : Addr) (h : CodeHit (flushLocal s) va) :
    GlobalPage b s.ctl s.mem va := by
  obtain ⟨cpl, h⟩ := h
  obtain ⟨i, hi⟩ := Option.isSome_iff_exists.1 h
  have hm := (lookup_some hi).1
  have he : ((flushLocal s).itlb (iGeo.set va) i).entry = if (s.itlb (iGeo.set va) i).entry.getLsbD 8 then (s.itlb (iGeo.set va) i).entry else 0#64 := keepGlobal_entry _
  rw [matches_iff .i (accessBit_isAccess _ _ _), he] at hm
  cases h8 : (s.itlb (iGeo.set va) i).entry.getLsbD 8 with
  | true => rw [h8] at hm; exact ((inv_reachable hb hr).i _ i).glob va rfl h8 hm.2
  | false =>
    rw [h8] at hm
    have := hm.1
    rcases accessBit_isAccess { (flushLocal s).ctl with cpl := cpl } false false with e | e | e | e <;> rw [e] at this <;> simp at this

/-- A global page: directory entry 1 of the tables below is a global 4 MiB page. -/
example : let s : St := { exSt with mem := wr32 exMem 0x1004#32 0x00C00183#32 }
    DataHit (flushLocal (run exBus s [.readSlow 0x400000#32 false 0])) 0x400ABC#32 ∧ ¬ DataHit (flushLocal (run exBus s [.readSlow 0x3000#32 false 0])) 0x3000#32 := by
  refine ⟨⟨0#2, false, false, by decide +kernel⟩, ?_⟩
  rintro ⟨cpl, wr, pr, h⟩
  revert h; revert cpl wr pr; decide +kernel

end Verif.Paging
