/-
Facts about the inline page table: page arithmetic and the invariant that every element of the table comes from a fault handled
since the page was last forgotten.
-/
import Verif.Spec.Ipt

namespace Verif.Ipt
open Verif.AS (Region MemType)
open Verif.Paging (Addr Word Query)
open Verif.Block (Cell)
open Spec

theorem low_nat (x : Addr) : (x &&& 0xFFF#32).toNat = x.toNat % 4096 := by
  rw [BitVec.toNat_and]; exact Nat.and_two_pow_sub_one_eq_mod x.toNat 12

theorem page_nat (x : Addr) : (x &&& 0xFFFFF000#32).toNat = x.toNat / 4096 * 4096 := by
  have e : x &&& 0xFFFFF000#32 = (x >>> 12) <<< 12 := by
    apply BitVec.eq_of_getLsbD_eq; intro i hi
    rw [BitVec.getLsbD_and, BitVec.getLsbD_shiftLeft, BitVec.getLsbD_ushiftRight]
    rcases Nat.lt_or_ge i 12 with h | h
    · have : (0xFFFFF000#32).getLsbD i = false := by
        revert i; decide
      simp [this, h]
    · have : (0xFFFFF000#32).getLsbD i = true := by
        revert i; decide
      simp [this, Nat.not_lt.2 h, hi, show 12 + (i - 12) = i by omega]
  rw [e, BitVec.toNat_shiftLeft, BitVec.toNat_ushiftRight, Nat.shiftRight_eq_div_pow, Nat.shiftLeft_eq]
  have := x.isLt; omega

theorem shr_nat (x : Addr) : (x >>> 12).toNat = x.toNat / 4096 := by
  rw [BitVec.toNat_ushiftRight, Nat.shiftRight_eq_div_pow]

theorem same_iff {a b : Addr} : SamePage a b ↔ a >>> 12 = b >>> 12 := by
  unfold SamePage; rw [← shr_nat, ← shr_nat]; exact BitVec.toNat_inj

theorem withOff_nat (p a : Addr) : (withOff p a).toNat = p.toNat / 4096 * 4096 + a.toNat % 4096 := by
  have hz : (p &&& 0xFFFFF000#32) &&& (a &&& 0xFFF#32) = 0#32 := by
    have : (p &&& 0xFFFFF000#32) &&& (a &&& 0xFFF#32) = (0xFFFFF000#32 &&& 0xFFF#32) &&& (p &&& a) := by
      ac_rfl
    rw [this]; simp
  unfold withOff
  rw [← BitVec.add_eq_or_of_and_eq_zero _ _ hz, BitVec.toNat_add, page_nat, low_nat]
  have := p.isLt; omega

theorem withOff_page (p a : Addr) : SamePage (withOff p a) p := by
  unfold SamePage; rw [withOff_nat]; omega

/-- An access that does not cross a page stays in it. -/
theorem stays {a : Addr} {n i : Nat} (h : crosses a n = false) (h0 : i < n) (hn : n ≤ 4096) :
    a.toNat % 4096 + i < 4096 ∧ (a + BitVec.ofNat 32 i).toNat = a.toNat + i := by
  have hlt := a.isLt
  have key : a.toNat % 4096 + (n - 1) < 4096 := by
    unfold crosses at h
    split at h
    · rename_i h1; omega
    · simp only [bne_eq_false_iff_eq] at h
      have e : (a + BitVec.ofNat 32 (n - 1)) >>> 12 = a >>> 12 := by
        apply BitVec.eq_of_getLsbD_eq; intro j hj
        rw [BitVec.getLsbD_ushiftRight, BitVec.getLsbD_ushiftRight]
        by_cases hk : 12 + j < 32
        · have g := congrArg (fun x : BitVec 32 => x.getLsbD (12 + j)) h
          simp only [BitVec.getLsbD_and, BitVec.getLsbD_xor] at g
          have m : (0xFFFFF000#32).getLsbD (12 + j) = true := by
            have : j < 20 := by omega
            clear g h hj hk hlt hn h0; revert j; decide
          rw [m] at g
          simpa using g
        · rw [BitVec.getLsbD_of_ge _ _ (by omega), BitVec.getLsbD_of_ge _ _ (by omega)]
      have g := congrArg BitVec.toNat e
      rw [shr_nat, shr_nat, BitVec.toNat_add, BitVec.toNat_ofNat] at g
      omega
  refine ⟨by omega, ?_⟩
  rw [BitVec.toNat_add, BitVec.toNat_ofNat]
  omega

theorem run_snoc (w : World) (es : List Ev) (e : Ev) : run w (es ++ [e]) = step (run w es) e := by
  unfold run; rw [List.foldl_append]; rfl

/-- Induction on histories by their last event. -/
theorem snoc_ind {α : Type} {P : List α → Prop} (h0 : P []) (hs : ∀ es e, P es → P (es ++ [e])) (es : List α) : P es := by
  have : ∀ l : List α, P l.reverse := by
    intro l
    induction l with
    | nil => exact h0
    | cons a l ih => rw [List.reverse_cons]; exact hs _ _ ih
  simpa using this es.reverse

theorem always_init {P : World → Prop} {w : World} {es : List Ev} {e : Ev} (h : Always P w (es ++ [e])) : Always P w es := by
  intro pre post he
  exact h pre (post ++ [e]) (by rw [he, List.append_assoc])

theorem always_last {P : World → Prop} {w : World} {es : List Ev} (h : Always P w es) : P (run w es).w :=
  h es [] (by simp)

/-- The host page of a fault handled in world `w` for an access to `a`. -/
inductive Gives (w : World) (wr : Bool) (a : Addr) : Page → Prop
  | ram {phys info r p} : w.query wr a = .ok phys info → place w phys = (r, p) → r.type = .ram →
      Gives w wr a (.ram (viewOf r p) (pageOff r p))
  | rom {phys info r p} : w.query wr a = .ok phys info → place w phys = (r, p) → r.type = .rom →
      Gives w wr a (.rom r.romPtr (pageOff r p))

theorem locate_eq (w : World) (phys : Addr) : locate w phys = place w phys := rfl

theorem onFault_map {w : World} {t t' : Table} {wr : Bool} {a : Addr} {p : Page} (h : onFault w t wr a = .map p t') :
    Gives w wr a p ∧ t'.tab = (fun q => if q = a >>> 12 then p else t.tab q) ∧ watched w a = false := by
  unfold onFault at h
  split at h
  · cases h
  · cases h
  · rename_i phys info hq
    split at h
    · cases h
    · rename_i hw
      have hw' : watched w a = false := by simpa using hw
      unfold onPage at h
      rcases hl : locate w phys with ⟨r, b⟩
      rw [hl] at h
      dsimp only at h
      split at h
      · split at h
        · cases h
        · unfold mapRam at h
          injection h with h1 h2
          subst h1; subst h2
          exact ⟨.ram hq hl (by assumption), rfl, hw'⟩
      · split at h
        · cases h
        · unfold mapRom at h
          injection h with h1 h2
          subst h1; subst h2
          exact ⟨.rom hq hl (by assumption), rfl, hw'⟩
      all_goals cases h

/-- What an access does to the table: nothing, or one element is set by the handler. -/
theorem access_tab (w : World) (t : Table) (wr : Bool) (a : Addr) (n : Nat) :
    (access w t wr a n).1 = t ∨
      ∃ p t', onFault w t wr a = .map p t' ∧ (access w t wr a n).1 = t' := by
  unfold access
  split
  · exact .inl rfl
  · split
    · exact .inl rfl
    · split <;> first | exact .inl rfl | skip
      rename_i p t' hm
      split <;> exact .inr ⟨_, _, hm, rfl⟩

theorem access_direct {w : World} {t : Table} {wr : Bool} {a : Addr} {n : Nat} {p : Page} (h : (access w t wr a n).2 = .direct p) :
    crosses a n = false ∧ hostPage (access w t wr a n).1 wr a = some p := by
  unfold access at h ⊢
  split at h
  · cases h
  · rename_i hc
    refine ⟨by simpa using hc, ?_⟩
    rw [if_neg hc]
    split at h
    · rename_i q hq
      cases h
      exact hq
    · split at h <;> try cases h
      split at h
      · cases h
        assumption
      · cases h

theorem hostPage_tab {t : Table} {wr : Bool} {a : Addr} {p : Page} (h : hostPage t wr a = some p) :
    t.tab (a >>> 12) = p ∧ p ≠ .guard := by
  unfold hostPage at h
  split at h
  · cases h
  · rename_i ht
    split at h
    · cases h
    · cases h; exact ⟨ht, by simp⟩
  · rename_i ht
    split at h
    · cases h
    · cases h; exact ⟨ht, by simp⟩

/-- Every element of the table comes from an access since its page was last forgotten. -/
def Origin (w0 : World) (es : List Ev) (a : Addr) (p : Page) : Prop :=
  ∃ pre post wr' a' n', es = pre ++ .access wr' a' n' :: post ∧ SamePage a a' ∧ (∀ e ∈ post, ¬ Forgets a e) ∧
    Gives (run w0 pre).w wr' a' p

theorem origin_snoc {w0 : World} {es : List Ev} {a : Addr} {p : Page} {e : Ev} (h : Origin w0 es a p) (he : ¬ Forgets a e) :
    Origin w0 (es ++ [e]) a p := by
  obtain ⟨pre, post, wr', a', n', h1, h2, h3, h4⟩ := h
  refine ⟨pre, post ++ [e], wr', a', n', by rw [h1]; simp, h2, ?_, h4⟩
  intro x hx
  rcases List.mem_append.1 hx with hx | hx
  · exact h3 x hx
  · rw [List.mem_singleton.1 hx]; exact he

theorem flushPage_tab (t : Table) (b : Addr) (q : Addr) : (flushPage t b).tab q = .guard ∨ ((flushPage t b).tab q = t.tab q ∧ q ≠ b >>> 12) := by
  unfold flushPage
  dsimp only
  split
  · exact .inl rfl
  · exact .inr ⟨rfl, by assumption⟩

theorem protectDebug_tab (t : Table) (lo hi q : Addr) : (protectDebug t lo hi).tab q = .guard ∨ (protectDebug t lo hi).tab q = t.tab q := by
  unfold protectDebug
  rcases flushPage_tab (flushPage t lo) hi q with h | h
  · exact .inl h
  · rw [h.1]
    rcases flushPage_tab t lo q with h | h
    · exact .inl h
    · exact .inr h.1

theorem guardDr_tab (d : Watch.Dbg) (t : Table) (i : Nat) (q : Addr) : (guardDr d t i).tab q = .guard ∨ (guardDr d t i).tab q = t.tab q := by
  unfold guardDr
  split
  · exact protectDebug_tab _ _ _ _
  · exact .inr rfl

theorem guardAll_tab (d : Watch.Dbg) (l : List Nat) (t : Table) (q : Addr) :
    (l.foldl (guardDr d) t).tab q = .guard ∨ (l.foldl (guardDr d) t).tab q = t.tab q := by
  induction l generalizing t with
  | nil => exact .inr rfl
  | cons i l ih =>
    rw [List.foldl_cons]
    rcases ih (guardDr d t i) with h | h
    · exact .inl h
    · rw [h]; exact guardDr_tab d t i q

theorem guardMoved_tab (d : Watch.Dbg) (t : Table) (i : Nat) (q : Addr) : (guardMoved d t i).tab q = .guard ∨ (guardMoved d t i).tab q = t.tab q := by
  unfold guardMoved
  split
  · exact guardDr_tab _ _ _ _
  · exact .inr rfl

theorem protectCode_tab (w : World) (t : Table) (phys : Addr) : (protectCode w t phys).tab = t.tab := by
  unfold protectCode
  rcases locate w phys with ⟨r, p⟩
  dsimp only
  split <;> rfl

theorem origin_inv (w0 : World) (es : List Ev) : ∀ (a : Addr) (p : Page), (run w0 es).t.tab (a >>> 12) = p → p ≠ .guard → Origin w0 es a p := by
  induction es using snoc_ind with
  | h0 => intro a p h hp; exact absurd h.symm hp
  | hs es e ih =>
    intro a p h hp
    rw [run_snoc] at h
    have keep : ∀ hk : (run w0 es).t.tab (a >>> 12) = p, ¬ Forgets a e → Origin w0 (es ++ [e]) a p :=
      fun hk hf => origin_snoc (ih a p hk hp) hf
    cases e with
    | access wr b n =>
      dsimp only [step] at h
      rcases access_tab (run w0 es).w (run w0 es).t wr b n with he | ⟨q, t', hm, he⟩
      · rw [he] at h; exact keep h (fun h => h)
      · rw [he] at h
        obtain ⟨hg, ht, _⟩ := onFault_map hm
        rw [ht] at h
        dsimp only at h
        split at h
        · rename_i hab
          subst h
          exact ⟨es, [], wr, b, n, rfl, same_iff.2 hab, by simp, hg⟩
        · exact keep h (fun h => h)
    | tables q => exact keep h (fun h => h)
    | flush => exact absurd h.symm hp
    | invlpg b =>
      dsimp only [step] at h
      rcases flushPage_tab (run w0 es).t b (a >>> 12) with g | g
      · rw [g] at h; exact absurd h.symm hp
      · rw [g.1] at h
        exact keep h (fun hs => g.2 (same_iff.1 hs))
    | fetch phys fill =>
      dsimp only [step] at h
      refine keep ?_ (fun h => h)
      split at h
      · rw [protectCode_tab] at h; exact h
      · exact h
    | forget page => exact keep h (fun h => h)
    | dr i v =>
      dsimp only [step] at h
      rcases guardMoved_tab (Watch.writeDr (run w0 es).w.dbg i v) (run w0 es).t i (a >>> 12) with g | g
      · rw [g] at h; exact absurd h.symm hp
      · rw [g] at h; exact keep h (fun h => h)
    | dr7 d v =>
      dsimp only [step] at h
      rcases guardAll_tab (Watch.writeDr7 { (run w0 es).w.dbg with dr := d } v) [0, 1, 2, 3] (run w0 es).t (a >>> 12) with g | g
      · rw [g] at h; exact absurd h.symm hp
      · rw [g] at h; exact keep h (fun h => h)
    | remap f g => exact absurd h.symm hp

end Verif.Ipt
