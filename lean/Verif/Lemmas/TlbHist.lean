/-
Histories of the TLB: which pages were filled, how often, and the dirty flag.
-/
import Verif.Lemmas.TlbInv

namespace Verif.Paging
open Verif.Paging.Spec Verif.Bits
open Verif.AS (Region)

/-! How one step changes one line. -/

inductive LineStep (g : Geo) (page : Option Addr) (set : Addr) (l : Line) : Line → Prop
  | same : LineStep g page set l l
  | zero : LineStep g page set l Line.zero
  | dirty : LineStep g page set l { l with entry := l.entry ||| 0x200#64 }
  | fill {va p r prot} : page = some va → set = g.set va → LineStep g page set l ⟨mkEntry g va p r prot, some r⟩

/-- The page a step fills in the data (f = false) or instruction TLB: a translation that misses. -/
def filled (s : St) (f : Bool) : Op → Option Addr
  | .read va pr _ => if f = false ∧ (lookup dGeo s.dtlb (accessBit s.ctl false pr) va).isNone then some va else none
  | .readSlow va _ _ => if f = false then some va else none
  | .write va pr _ => if f = false ∧ (lookup dGeo s.dtlb (accessBit s.ctl true pr) va).isNone then some va else none
  | .writeSlow va _ _ => if f = false then some va else none
  | .code va _ _ => if f = true ∧ (lookup iGeo s.itlb (accessBit s.ctl false false) va).isNone then some va else none
  | _ => none

def tlbOf (f : Bool) (s : St) : Tlb := if f then s.itlb else s.dtlb
def geoOf (f : Bool) : Geo := if f then iGeo else dGeo
theorem geoOf_isGeo (f : Bool) : IsGeo (geoOf f) := by cases f; exact .d; exact .i

theorem translate_tlb (b : Bus) (s : St) (f' : Bool) (va : Addr) (wr pr sc : Bool) (v : Nat) (f : Bool) :
    tlbOf f (translate b s f' va wr pr sc v).1 = tlbOf f s ∨
    (f = f' ∧ ∃ p r prot k, tlbOf f (translate b s f' va wr pr sc v).1 = (tlbOf f s).put ((geoOf f).set va) k ⟨mkEntry (geoOf f) va p r prot, some r⟩) := by
  unfold translate
  split
  · left; cases f <;> rfl
  · left; cases f <;> rfl
  · simp only [fill]
    cases f' <;> cases f
    · right; exact ⟨rfl, _, _, _, _, rfl⟩
    · left; rfl
    · left; rfl
    · right; exact ⟨rfl, _, _, _, _, rfl⟩

theorem translate_line (b : Bus) (s : St) (f' : Bool) (va : Addr) (wr pr sc : Bool) (v : Nat) (f : Bool) (set : Addr) (i : Nat) :
    LineStep (geoOf f) (if f = f' then some va else none) set (tlbOf f s set i) (tlbOf f (translate b s f' va wr pr sc v).1 set i) := by
  rcases translate_tlb b s f' va wr pr sc v f with h | ⟨h1, p, r, prot, k, h2⟩
  · rw [h]; exact .same
  · rw [h2, if_pos h1]
    simp only [Tlb.put]
    split
    · rename_i hh; exact .fill rfl hh.1
    · exact .same

theorem step_line (b : Bus) (s : St) (op : Op) (f : Bool) (set : Addr) (i : Nat) :
    LineStep (geoOf f) (filled s f op) set (tlbOf f s set i) (tlbOf f (step b s op) set i) := by
  cases op with
  | read va pr v =>
    simp only [step, getRead, filled]
    cases hl : lookup dGeo s.dtlb (accessBit s.ctl false pr) va with
    | some k => exact .same
    | none => simpa using translate_line b s false va false pr false v f set i
  | readSlow va pr v => exact translate_line b s false va false pr false v f set i
  | write va pr v =>
    simp only [step, getWrite, filled]
    cases hl : lookup dGeo s.dtlb (accessBit s.ctl true pr) va with
    | some k =>
      cases f
      · show LineStep _ _ set (s.dtlb set i) (Tlb.put s.dtlb (dGeo.set va) k _ set i)
        by_cases hh : set = dGeo.set va ∧ i = k
        · obtain ⟨h1, h2⟩ := hh
          subst h1; subst h2
          have e : ∀ l, Tlb.put s.dtlb (dGeo.set va) i l (dGeo.set va) i = l := fun l => if_pos ⟨rfl, rfl⟩
          rw [e]; exact .dirty
        · have e : ∀ l, Tlb.put s.dtlb (dGeo.set va) k l set i = s.dtlb set i := fun l => if_neg hh
          rw [e]; exact .same
      · exact .same
    | none => simpa using translate_line b s false va true pr false v f set i
  | writeSlow va pr v => exact translate_line b s false va true pr false v f set i
  | code va sc v =>
    simp only [step, getCode, filled]
    cases hl : lookup iGeo s.itlb (accessBit s.ctl false false) va with
    | some k => cases f <;> exact .same
    | none => simpa using translate_line b s true va false false sc v f set i
  | inval va =>
    have key : ∀ (g : Geo) (t : Tlb), LineStep g none set (t set i) (invalidateTlb g t va set i) := by
      intro g t
      unfold invalidateTlb
      cases List.find? (fun i => matches' g (1#64) va (t (g.set va) i).entry) (List.range g.lines) with
      | none => exact .same
      | some k =>
        simp only [Tlb.put]
        split
        · exact .zero
        · exact .same
    cases f
    · exact key dGeo s.dtlb
    · exact key iGeo s.itlb
  | cpl l => cases f <;> exact .same
  | store m => cases f <;> exact .same
  | reload c m => cases f <;> exact .zero
  | reloadLocal c m =>
    have key : ∀ (g : Geo) (l : Line), LineStep g none set l (keepGlobal l) := by
      intro g l; unfold keepGlobal; split
      · exact .zero
      · exact .same
    cases f
    · exact key _ _
    · exact key _ _

/-- Does the line hold an entry of the page of `va` (whatever its rights)? -/
def holds (g : Geo) (va : Addr) (l : Line) : Bool := matches' g 1#64 va l.entry

theorem matches_or_dirty {g : Geo} (hg : IsGeo g) {acc : Entry} (ha : IsAccess acc) (va : Addr) (e : Entry) :
    matches' g acc va (e ||| 0x200#64) = matches' g acc va e := by
  have h : matches' g acc va (e ||| 0x200#64) = true ↔ matches' g acc va e = true := by
    rw [matches_iff hg ha, matches_iff hg ha, or_and_right, or_and_right]
    have h1 : (0x200#64 : Entry) &&& acc = 0#64 := by rcases ha with h | h | h | h <;> subst h <;> decide
    have h2 : (0x200#64 : Entry) &&& g.tagMask = 0#64 := by cases hg <;> decide
    rw [h1, h2, BitVec.or_zero, BitVec.or_zero]
  cases h1 : matches' g acc va (e ||| 0x200#64) <;> cases h2 : matches' g acc va e <;> simp_all

theorem not_holds_zero {g : Geo} (hg : IsGeo g) (va : Addr) : holds g va Line.zero = false := by
  cases h : holds g va Line.zero with
  | false => rfl
  | true =>
    unfold holds at h
    rw [matches_iff hg (Or.inl rfl)] at h
    have := h.1; simp [Line.zero] at this

/-- A step that does not fill the page of `va` never makes a line hold it. -/
theorem lineStep_holds {g : Geo} (hg : IsGeo g) {page : Option Addr} {set : Addr} {l l' : Line} (h : LineStep g page set l l')
    (va : Addr) (hs : set = g.set va) (hp : ∀ x, page = some x → pageBase x ≠ pageBase va) (hh : holds g va l' = true) : holds g va l = true := by
  cases h with
  | same => exact hh
  | zero => rw [not_holds_zero hg] at hh; simp at hh
  | dirty => unfold holds at hh ⊢; rwa [matches_or_dirty hg (Or.inl rfl)] at hh
  | fill h1 h2 =>
    exfalso
    rename_i x p r prot
    unfold holds at hh
    rw [matches_iff hg (Or.inl rfl)] at hh
    have := hh.2
    rw [mkEntry_tag hg] at this
    exact hp x h1 (tag_page hg (h2.symm.trans hs) this)

/-! Counting. -/

theorem countP_le_of_imp {f f' : Nat → Bool} : ∀ n, (∀ i, i < n → f' i = true → f i = true) →
    (List.range n).countP f' ≤ (List.range n).countP f := by
  intro n
  induction n with
  | zero => simp
  | succ n ih =>
    intro h
    rw [List.range_succ, List.countP_append, List.countP_append]
    have := ih (fun i hi => h i (by omega))
    have h2 : [n].countP f' ≤ [n].countP f := by
      simp only [List.countP_cons, List.countP_nil]
      cases hf : f' n with
      | false => simp
      | true => rw [h n (by omega) hf]; simp
    omega

theorem countP_put_le {f f' : Nat → Bool} (k : Nat) : ∀ n, (∀ i, i < n → i ≠ k → f' i = true → f i = true) →
    (List.range n).countP f' ≤ (List.range n).countP f + 1 := by
  intro n
  induction n with
  | zero => simp
  | succ n ih =>
    intro h
    rw [List.range_succ, List.countP_append, List.countP_append]
    by_cases hk : n = k
    · have : (List.range n).countP f' ≤ (List.range n).countP f := countP_le_of_imp n (fun i hi => h i (by omega) (by omega))
      have h2 : [n].countP f' ≤ 1 := by simp only [List.countP_cons, List.countP_nil]; split <;> simp
      omega
    · have := ih (fun i hi => h i (by omega))
      have h2 : [n].countP f' ≤ [n].countP f := by
        simp only [List.countP_cons, List.countP_nil]
        cases hf : f' n with
        | false => simp
        | true => rw [h n (by omega) hk hf]; simp
      omega

theorem countP_clear {f f' : Nat → Bool} (k : Nat) : ∀ n, k < n → f k = true → f' k = false → (∀ i, i ≠ k → f' i = f i) →
    (List.range n).countP f' + 1 = (List.range n).countP f := by
  intro n
  induction n with
  | zero => omega
  | succ n ih =>
    intro hk h1 h2 h3
    rw [List.range_succ, List.countP_append, List.countP_append]
    by_cases hkn : n = k
    · subst hkn
      have : (List.range n).countP f' = (List.range n).countP f := by
        apply List.countP_congr
        intro i hi; rw [h3 i (by have := List.mem_range.1 hi; omega)]
      simp only [List.countP_cons, List.countP_nil, h1, h2, this]; simp
    · have := ih (by omega) h1 h2 h3
      simp only [List.countP_cons, List.countP_nil, h3 n hkn]
      omega

/-- How many lines hold the page of `va`. -/
def copies (g : Geo) (t : Tlb) (va : Addr) : Nat := (List.range g.lines).countP (fun i => holds g va (t (g.set va) i))

theorem copies_zero_iff {g : Geo} {t : Tlb} {va : Addr} : copies g t va = 0 ↔ ∀ i, i < g.lines → holds g va (t (g.set va) i) = false := by
  unfold copies
  rw [List.countP_eq_zero]
  constructor
  · intro h i hi; simpa using h i (List.mem_range.2 hi)
  · intro h i hi; simpa using h i (List.mem_range.1 hi)

theorem copies_step_other (b : Bus) (s : St) (op : Op) (f : Bool) (va : Addr) (hp : ∀ x, filled s f op = some x → pageBase x ≠ pageBase va) :
    copies (geoOf f) (tlbOf f (step b s op)) va ≤ copies (geoOf f) (tlbOf f s) va := by
  unfold copies
  apply countP_le_of_imp
  intro i _ h
  exact lineStep_holds (geoOf_isGeo f) (step_line b s op f _ i) va rfl hp h

/-- A translation changes at most one line. -/
theorem translate_copies (b : Bus) (s : St) (f' : Bool) (a : Addr) (wr pr sc : Bool) (v : Nat) (f : Bool) (va : Addr) :
    copies (geoOf f) (tlbOf f (translate b s f' a wr pr sc v).1) va ≤ copies (geoOf f) (tlbOf f s) va + 1 := by
  rcases translate_tlb b s f' a wr pr sc v f with h | ⟨_, p, r, prot, k, h2⟩
  · rw [h]; omega
  · rw [h2]
    unfold copies
    apply countP_put_le k
    intro i _ hi hh
    simp only [Tlb.put] at hh
    rw [if_neg (by intro hc; exact hi hc.2)] at hh
    exact hh

theorem copies_step (b : Bus) (s : St) (op : Op) (f : Bool) (va : Addr) :
    copies (geoOf f) (tlbOf f (step b s op)) va ≤ copies (geoOf f) (tlbOf f s) va + (if filled s f op = none then 0 else 1) := by
  by_cases hn : filled s f op = none
  · rw [if_pos hn]
    exact copies_step_other b s op f va (fun x hx => by rw [hn] at hx; simp at hx)
  · rw [if_neg hn]
    cases op with
    | read a pr v =>
      simp only [filled] at hn
      have : (lookup dGeo s.dtlb (accessBit s.ctl false pr) a) = none := by
        cases h : lookup dGeo s.dtlb (accessBit s.ctl false pr) a with
        | none => rfl
        | some k => rw [h] at hn; simp at hn
      simp only [step, getRead, this]
      exact translate_copies _ _ _ _ _ _ _ _ _ _
    | readSlow a pr v => exact translate_copies _ _ _ _ _ _ _ _ _ _
    | write a pr v =>
      simp only [filled] at hn
      have : (lookup dGeo s.dtlb (accessBit s.ctl true pr) a) = none := by
        cases h : lookup dGeo s.dtlb (accessBit s.ctl true pr) a with
        | none => rfl
        | some k => rw [h] at hn; simp at hn
      simp only [step, getWrite, this]
      exact translate_copies _ _ _ _ _ _ _ _ _ _
    | writeSlow a pr v => exact translate_copies _ _ _ _ _ _ _ _ _ _
    | code a sc v =>
      simp only [filled] at hn
      have : (lookup iGeo s.itlb (accessBit s.ctl false false) a) = none := by
        cases h : lookup iGeo s.itlb (accessBit s.ctl false false) a with
        | none => rfl
        | some k => rw [h] at hn; simp at hn
      simp only [step, getCode, this]
      exact translate_copies _ _ _ _ _ _ _ _ _ _
    | inval a => exact absurd rfl hn
    | cpl l => exact absurd rfl hn
    | store m => exact absurd rfl hn
    | reload c m => exact absurd rfl hn
    | reloadLocal c m => exact absurd rfl hn

theorem find_range_lt {p : Nat → Bool} {n k : Nat} (h : (List.range n).find? p = some k) : k < n ∧ p k = true :=
  ⟨List.mem_range.1 (List.mem_of_find?_eq_some h), by simpa using List.find?_some h⟩

theorem copies_invalidate {g : Geo} (hg : IsGeo g) (t : Tlb) (va va' : Addr) (hp : pageBase va' = pageBase va) :
    copies g (invalidateTlb g t va') va ≤ copies g t va - 1 := by
  obtain ⟨hs, ht⟩ := page_tag hg hp
  have hm : ∀ e, matches' g 1#64 va' e = matches' g 1#64 va e := fun e => by unfold matches'; rw [ht]
  unfold invalidateTlb
  rw [hs]
  simp only [hm]
  cases h : (List.range g.lines).find? (fun i => matches' g 1#64 va (t (g.set va) i).entry) with
  | none =>
    rw [List.find?_eq_none] at h
    have : copies g t va = 0 := by
      rw [copies_zero_iff]; intro i hi
      have := h i (List.mem_range.2 hi)
      simpa [holds] using this
    simp only; omega
  | some k =>
    obtain ⟨hk, hmk⟩ := find_range_lt h
    simp only
    have := countP_clear (f := fun i => holds g va (t (g.set va) i)) (f' := fun i => holds g va ((t.put (g.set va) k Line.zero) (g.set va) i)) k g.lines hk hmk
      (by simp [Tlb.put, not_holds_zero hg va])
      (by intro i hi; simp only [Tlb.put]; rw [if_neg (by intro hc; exact hi hc.2)])
    unfold copies
    omega

/-- A line that would serve some access to the page holds the page (every valid entry has the supervisor-read bit). -/
theorem holds_of_matches {g : Geo} (hg : IsGeo g) {acc : Entry} (ha : IsAccess acc) {va : Addr} {l : Line}
    (hr : ∀ acc, IsAccess acc → l.entry &&& acc = acc → l.entry.getLsbD 0 = true) (h : matches' g acc va l.entry = true) : holds g va l = true := by
  rw [matches_iff hg ha] at h
  unfold holds
  rw [matches_iff hg (Or.inl rfl)]
  exact ⟨(and_acc_iff 0 (by omega) (by decide)).2 (hr acc ha h.1), h.2⟩

theorem lookup_none_of_copies {g : Geo} (hg : IsGeo g) {t : Tlb} {va : Addr}
    (hr : ∀ set i acc, IsAccess acc → (t set i).entry &&& acc = acc → (t set i).entry.getLsbD 0 = true)
    (h : copies g t va = 0) {acc : Entry} (ha : IsAccess acc) : lookup g t acc va = none := by
  unfold lookup
  rw [List.find?_eq_none]
  intro i hi
  rw [copies_zero_iff] at h
  have := h i (List.mem_range.1 hi)
  intro hm
  rw [holds_of_matches hg ha (hr _ i) (by simpa using hm)] at this
  simp at this

end Verif.Paging
