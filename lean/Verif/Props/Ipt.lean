/-
C103: the direct memory accesses of the Xbox build (the inline page table).
-/
import Verif.Lemmas.Ipt
import Verif.Lemmas.Tlb
import Verif.Lemmas.Bits

namespace Verif.Ipt
open Verif.AS (Region MemType)
open Verif.Paging (Addr Word Query)
open Verif.Block (Cell)
open Spec
open Verif.Bits

/-- The byte of a page set for `a'` that belongs to an address `b` of the same page. -/
theorem gives_cell {w : World} (hw : PageWise w) {wr : Bool} {a' b a : Addr} {i : Nat} {p : Page} (h : Gives w wr a' p)
    (hs : SamePage a' b) (hb : b.toNat % 4096 = a.toNat % 4096 + i) : ∃ c, p.cell a i = some c ∧ Denotes w wr b c := by
  have place_b : ∀ {phys r q}, place w phys = (r, q) → place w (withOff phys b) = (r, withOff q b) := by
    intro phys r q hp
    have hse := hw.search phys (withOff phys b) (by have := withOff_page phys b; unfold SamePage at *; omega)
    unfold place at hp ⊢
    rw [← hse]
    split
    · rename_i ht
      rw [if_pos ht] at hp
      have hr := hw.resolve (w.search phys) phys (withOff phys b) (by have := withOff_page phys b; unfold SamePage at *; omega)
      rw [hr, hp]
      refine congrArg (fun x => (r, x)) ?_
      show withOff q (withOff phys b) = withOff q b
      apply BitVec.eq_of_toNat_eq
      rw [withOff_nat, withOff_nat, withOff_nat]
      omega
    · rename_i ht
      rw [if_neg ht] at hp
      cases hp
      rfl
  have arith : ∀ {r : Region} {q : Addr}, r.buffOff % 4096 = 0 →
      (withOff q b - BitVec.ofNat 32 r.buffOff).toNat = (pageOff r q).toNat + (a &&& 0xFFF#32).toNat + i := by
    intro r q h0
    unfold pageOff
    rw [BitVec.toNat_sub, withOff_nat, page_nat, BitVec.toNat_sub, low_nat, BitVec.toNat_ofNat]
    have := q.isLt
    omega
  cases h with
  | ram hq hp ht =>
    rename_i phys info r q
    have h0 := hw.base phys
    rw [hp] at h0
    refine ⟨_, rfl, _, _, hw.query wr a' b phys info hs hq, ?_⟩
    rw [← arith h0]
    exact .ram (place_b hp) ht
  | rom hq hp ht =>
    rename_i phys info r q
    have h0 := hw.base phys
    rw [hp] at h0
    refine ⟨_, rfl, _, _, hw.query wr a' b phys info hs hq, ?_⟩
    rw [← arith h0]
    exact .rom (place_b hp) ht

/-- In every history, an access by translated code that goes directly to host memory touches, byte by byte, the host bytes the
memory handlers would have used for the guest's translation at some moment since the translation of its page was last to be forgotten
(the freedom a tlb has), for translations and memory maps made of whole pages. -/
theorem C103_mapping_partial (w0 : World) (es : List Ev) (wr : Bool) (a : Addr) (n : Nat) (p : Page) (hn : n ≤ 4096)
    (hw : Always PageWise w0 es)
    (h : (access (run w0 es).w (run w0 es).t wr a n).2 = .direct p) :
    ∃ pre post wr' a' n', es ++ [.access wr a n] = pre ++ .access wr' a' n' :: post ∧ SamePage a a' ∧ (∀ e ∈ post, ¬ Forgets a e) ∧
      ∀ i < n, ∃ c, p.cell a i = some c ∧ Denotes (run w0 pre).w wr' (a + BitVec.ofNat 32 i) c := by
  obtain ⟨hc, hp⟩ := access_direct h
  obtain ⟨ht, hg⟩ := hostPage_tab hp
  obtain ⟨pre, post, wr', a', n', h1, h2, h3, h4⟩ := origin_inv w0 (es ++ [.access wr a n]) a p (by rw [run_snoc]; exact ht) hg
  refine ⟨pre, post, wr', a', n', h1, h2, h3, fun i hi => ?_⟩
  obtain ⟨s1, s2⟩ := stays hc hi hn
  have hpre : PageWise (run w0 pre).w := by
    rcases List.eq_nil_or_concat post with hz | ⟨l, x, hz⟩
    · subst hz
      have := List.append_inj_left' h1 rfl
      rw [← this]; exact always_last hw
    · subst hz
      rw [List.concat_eq_append, ← List.cons_append, ← List.append_assoc] at h1
      exact hw pre _ (List.append_inj_left' h1 rfl)
  refine gives_cell hpre h4 ?_ ?_
  · unfold SamePage at *; rw [s2]; omega
  · rw [s2]; omega

/-- A direct access never writes to rom. -/
theorem C103_rom (w0 : World) (es : List Ev) (a : Addr) (n q : Nat) (off : Addr) :
    (access (run w0 es).w (run w0 es).t true a n).2 ≠ .direct (.rom q off) := by
  intro h
  have := (access_direct h).2
  unfold hostPage at this
  split at this
  · cases this
  · split at this <;> cases this
  · simp at this

theorem onPage_pf (w : World) (t : Table) (wr : Bool) (a phys x : Addr) (info : Word) (c : BitVec 8) : onPage w t wr a phys info ≠ .pf x c := by
  intro hm
  unfold onPage at hm
  rcases hl : locate w phys with ⟨r, b⟩
  rw [hl] at hm
  dsimp only at hm
  split at hm <;> try cases hm
  all_goals (split at hm <;> first | cases hm | (unfold mapRam at hm; cases hm) | (unfold mapRom at hm; cases hm))

/-- A page fault is delivered to the guest by this path only if the page tables give exactly this page fault. -/
theorem C103_fault (w : World) (t : Table) (wr : Bool) (a x : Addr) (n : Nat) (c : BitVec 8)
    (h : (access w t wr a n).2 = .pf x c) : w.query wr a = .fault x c := by
  unfold access at h
  split at h
  · cases h
  · split at h
    · cases h
    · split at h
      · rename_i hm
        unfold onFault at hm
        split at hm
        · cases hm; cases h; assumption
        · cases hm
        · split at hm
          · cases hm
          · exact absurd hm (onPage_pf _ _ _ _ _ _ _ _)
      all_goals first | cases h | (split at h <;> cases h)

/-- The protection the handler gives to the page it maps. -/
theorem onFault_rw {w : World} {t t' : Table} {wr : Bool} {a : Addr} {p : Page} (h : onFault w t wr a = .map p t') (v : View) (off : Addr) :
    (t'.rw v off = t.rw v off ∧ p ≠ .ram v off) ∨
      ∃ phys info, w.query wr a = .ok phys info ∧ InRam w phys off ∧ p = .ram v off ∧
        t'.rw v off = !(w.smc ((place w phys).2 >>> 12) || info &&& 2#32 == 0#32) ∧ (wr = true → w.smc (phys >>> 12) = false) := by
  unfold onFault at h
  split at h
  · cases h
  · cases h
  · rename_i phys info hq
    split at h
    · cases h
    · unfold onPage at h
      rcases hl : locate w phys with ⟨r, b⟩
      rw [hl] at h
      rw [locate_eq] at hl
      dsimp only at h
      split at h
      · rename_i ht
        split at h
        · cases h
        · rename_i hsm
          unfold mapRam at h
          injection h with h1 h2
          subst h1; subst h2
          dsimp only
          by_cases hv : v = viewOf r b ∧ off = pageOff r b
          · right
            refine ⟨phys, info, hq, ⟨by rw [hl]; exact ht, by rw [hl]; exact hv.2.symm⟩, by rw [hv.1, hv.2], ?_, ?_⟩
            · rw [if_pos hv, hl]
            · intro hwr; simpa [hwr] using hsm
          · left
            rw [if_neg hv]
            refine ⟨rfl, fun he => hv ?_⟩
            injection he with h1 h2
            exact ⟨h1.symm, h2.symm⟩
      · split at h
        · cases h
        · unfold mapRom at h
          injection h with h1 h2
          subst h1; subst h2
          exact .inl ⟨rfl, by simp⟩
      all_goals cases h

theorem flushPage_rw (t : Table) (a : Addr) : (flushPage t a).rw = t.rw := rfl

theorem guardDr_rw (d : Watch.Dbg) (t : Table) (i : Nat) : (guardDr d t i).rw = t.rw := by
  unfold guardDr
  split <;> rfl

theorem guardAll_rw (d : Watch.Dbg) (l : List Nat) (t : Table) : (l.foldl (guardDr d) t).rw = t.rw := by
  induction l generalizing t with
  | nil => rfl
  | cons i l ih => rw [List.foldl_cons, ih, guardDr_rw]

theorem guardMoved_rw (d : Watch.Dbg) (t : Table) (i : Nat) : (guardMoved d t i).rw = t.rw := by
  unfold guardMoved
  split
  · exact guardDr_rw _ _ _
  · rfl

theorem protectCode_rw (w : World) (t : Table) (phys : Addr) (v : View) (off : Addr) :
    (protectCode w t phys).rw v off = false ∨ ((protectCode w t phys).rw v off = t.rw v off ∧ ¬ InRam w phys off) := by
  unfold protectCode InRam
  rw [locate_eq]
  rcases place w phys with ⟨r, p⟩
  dsimp only
  by_cases ht : r.type = .ram
  · rw [if_pos ht]
    dsimp only
    by_cases ho : off = pageOff r p
    · rw [if_pos ho]; exact .inl rfl
    · rw [if_neg ho]; exact .inr ⟨rfl, fun h => ho h.2.symm⟩
  · rw [if_neg ht]; exact .inr ⟨rfl, fun h => ht h.1⟩

/-- A page of ram that every translation makes read-only is never written directly, in any history. -/
theorem C103_readonly_partial (w0 : World) (es : List Ev) (off : Addr) (v : View) (a : Addr) (n : Nat) (hr : Always (ReadOnly off) w0 es) :
    (access (run w0 es).w (run w0 es).t true a n).2 ≠ .direct (.ram v off) := by
  have inv : ∀ es : List Ev, Always (ReadOnly off) w0 es → ∀ q, (run w0 es).t.tab q = .ram v off → (run w0 es).t.rw v off = false := by
    intro es
    induction es using snoc_ind with
    | h0 => intro _ q h; cases h
    | hs es e ih =>
      intro hr q h
      have ih := ih (always_init hr)
      have hro := always_last (always_init hr)
      rw [run_snoc] at h ⊢
      cases e with
      | access wr b n =>
        dsimp only [step] at h ⊢
        rcases access_tab (run w0 es).w (run w0 es).t wr b n with he | ⟨p, t', hm, he⟩
        · rw [he] at h ⊢; exact ih q h
        · rw [he] at h ⊢
          rcases onFault_rw hm v off with ⟨h1, h2⟩ | ⟨phys, info, h1, h2, h3, h4, _⟩
          · rw [h1]
            rw [(onFault_map hm).2.1] at h
            dsimp only at h
            split at h
            · exact absurd h h2
            · exact ih q h
          · rw [h4, hro wr b phys info h1 h2]
            simp
      | tables f => exact ih q h
      | flush => cases h
      | invlpg b =>
        rcases flushPage_tab (run w0 es).t b q with g | g
        · exact absurd (g.symm.trans h) (by simp)
        · exact ih q (g.1 ▸ h)
      | fetch phys fill =>
        dsimp only [step] at h ⊢
        cases fill
        · exact ih q h
        · rw [if_pos rfl] at h ⊢
          rw [protectCode_tab] at h
          rcases protectCode_rw (run w0 es).w (run w0 es).t phys v off with g | g
          · exact g
          · rw [g.1]; exact ih q h
      | forget page => exact ih q h
      | dr i x =>
        dsimp only [step] at h ⊢
        rw [guardMoved_rw]
        rcases guardMoved_tab (Watch.writeDr (run w0 es).w.dbg i x) (run w0 es).t i q with g | g
        · exact absurd (g.symm.trans h) (by simp)
        · exact ih q (g ▸ h)
      | dr7 d x =>
        dsimp only [step] at h ⊢
        rw [guardAll_rw]
        rcases guardAll_tab (Watch.writeDr7 { (run w0 es).w.dbg with dr := d } x) [0, 1, 2, 3] (run w0 es).t q with g | g
        · exact absurd (g.symm.trans h) (by simp)
        · exact ih q (g ▸ h)
      | remap f g => cases h
  intro h
  have hp := (access_direct h).2
  obtain ⟨ht, _⟩ := hostPage_tab hp
  have hf : (access (run w0 es).w (run w0 es).t true a n).1.rw v off = false := by
    rcases access_tab (run w0 es).w (run w0 es).t true a n with he | ⟨p, t', hm, he⟩
    · rw [he] at ht ⊢; exact inv es hr _ ht
    · rw [he] at ht ⊢
      rcases onFault_rw hm v off with ⟨h1, h2⟩ | ⟨phys, info, h1, h2, h3, h4, _⟩
      · rw [h1]
        rw [(onFault_map hm).2.1] at ht
        dsimp only at ht
        rw [if_pos rfl] at ht
        exact absurd ht h2
      · rw [h4, always_last hr true a phys info h1 h2]; simp
  unfold hostPage at hp
  rw [ht] at hp
  dsimp only at hp
  rw [hf] at hp
  simp at hp

/-- An access ends (it does not fault for ever) if a page that may be written is always reported as writable. -/
theorem C103_progress_partial (w : World) (t : Table) (wr : Bool) (a : Addr) (n : Nat)
    (hw : ∀ phys info, w.query true a = .ok phys info → info &&& 2#32 ≠ 0#32)
    (hs : ∀ phys, (w.search phys).type ≠ .alias) : (access w t wr a n).2 ≠ .hang := by
  intro h
  unfold access at h
  split at h
  · cases h
  · split at h
    · cases h
    · split at h <;> try cases h
      rename_i p t' hm
      split at h
      · cases h
      · rename_i hn
        obtain ⟨hg, ht, _⟩ := onFault_map hm
        unfold hostPage at hn
        rw [ht] at hn
        dsimp only at hn
        rw [if_pos rfl] at hn
        cases hg with
        | ram hq hp hty =>
          rename_i phys info r b
          dsimp only at hn
          rcases onFault_rw hm (viewOf r b) (pageOff r b) with ⟨h1, h2⟩ | ⟨phys', info', h1, h2, h3, h4, h5⟩
          · exact h2 rfl
          · rw [h4] at hn
            cases wr
            · simp at hn
            · have e : (place w phys').2 = phys' := by unfold place; rw [if_neg (hs phys')]
              have hi := hw phys' info' h1
              rw [e, h5 rfl] at hn
              simp [hi] at hn
        | rom hq hp hty =>
          cases wr
          · simp at hn
          · rename_i phys info r b
            unfold onFault at hm
            rw [hq] at hm
            dsimp only at hm
            split at hm
            · cases hm
            · unfold onPage at hm
              rw [locate_eq, hp] at hm
              dsimp only at hm
              rw [hty] at hm
              simp at hm

theorem step_map {s : St} {e : Ev} (h : Fills e) : (step s e).w.search = s.w.search ∧ (step s e).w.resolve = s.w.resolve := by
  cases e <;> first | exact ⟨rfl, rfl⟩ | exact h.elim

theorem inRam_congr {w w' : World} (h1 : w'.search = w.search) (h2 : w'.resolve = w.resolve) (phys off : Addr) : InRam w' phys off ↔ InRam w phys off := by
  unfold InRam place
  rw [h1, h2]

theorem run_map (w0 : World) (es : List Ev) (h : ∀ e ∈ es, Fills e) : (run w0 es).w.search = w0.search ∧ (run w0 es).w.resolve = w0.resolve := by
  induction es using snoc_ind with
  | h0 => exact ⟨rfl, rfl⟩
  | hs es e ih =>
    rw [run_snoc]
    obtain ⟨h1, h2⟩ := ih fun x hx => h x (List.mem_append_left _ hx)
    obtain ⟨g1, g2⟩ := step_map (s := run w0 es) (h e (List.mem_append_right _ (List.mem_singleton.2 rfl)))
    exact ⟨g1.trans h1, g2.trans h2⟩

/-- A page holding code that has been translated is never written directly (so every write to it reaches the handler, which
invalidates the code), in histories in which each fetch that marks a page fills the tlb, ram appears once in the physical address space
and the memory map stays. -/
theorem C103_code_partial (w0 : World) (es : List Ev) (a phys : Addr) (n : Nat) (v : View) (off : Addr) (ho : OneHome w0) (h0 : ∀ p, w0.smc p = false)
    (hf : ∀ e ∈ es, Fills e) (hp : InRam (run w0 es).w phys off)
    (h : (access (run w0 es).w (run w0 es).t true a n).2 = .direct (.ram v off)) : (run w0 es).w.smc (phys >>> 12) = false := by
  have one : ∀ {w : World}, w.search = w0.search → w.resolve = w0.resolve → ∀ {t t' : Table} {wr b p}, onFault w t wr b = .map p t' →
      (∀ (ph o : Addr), w.smc (ph >>> 12) = true → InRam w ph o → ∀ v, t.rw v o = false) →
      ∀ (ph o : Addr), w.smc (ph >>> 12) = true → InRam w ph o → ∀ v, t'.rw v o = false := by
    intro w e1 e2 t t' wr b p hm hi ph o hs hin v
    rcases onFault_rw hm v o with ⟨h1, _⟩ | ⟨q, info, h1, h2, h3, h4, _⟩
    · rw [h1]; exact hi ph o hs hin v
    · have e : (place w q).2 = q := by
        unfold place
        rw [if_neg (by rw [e1]; exact ho.plain q)]
      have hsame : SamePage q ph := ho.once q ph o ((inRam_congr e1 e2 q o).1 h2) ((inRam_congr e1 e2 ph o).1 hin)
      rw [h4, e, same_iff.1 hsame, hs]
      rfl
  have inv : ∀ es : List Ev, (∀ e ∈ es, Fills e) → ∀ (ph o : Addr), (run w0 es).w.smc (ph >>> 12) = true → InRam (run w0 es).w ph o →
      ∀ v, (run w0 es).t.rw v o = false := by
    intro es
    induction es using snoc_ind with
    | h0 => intro _ ph o hs; rw [show (run w0 []).w.smc (ph >>> 12) = false from h0 _] at hs; cases hs
    | hs es e ih =>
      intro hf
      have ih := ih fun x hx => hf x (List.mem_append_left _ hx)
      have he : Fills e := hf e (List.mem_append_right _ (List.mem_singleton.2 rfl))
      obtain ⟨e1, e2⟩ := run_map w0 es fun x hx => hf x (List.mem_append_left _ hx)
      rw [run_snoc]
      intro ph o hs hin v
      rw [inRam_congr (step_map he).1 (step_map he).2] at hin
      cases e with
      | access wr b n =>
        dsimp only [step] at hs ⊢
        rcases access_tab (run w0 es).w (run w0 es).t wr b n with he | ⟨p, t', hm, he⟩
        · rw [he]; exact ih ph o hs hin v
        · rw [he]; exact one e1 e2 hm ih ph o hs hin v
      | tables f => exact ih ph o hs hin v
      | flush => exact ih ph o hs hin v
      | invlpg b => exact ih ph o hs hin v
      | fetch q fill =>
        have hfill : fill = true := he
        subst hfill
        dsimp only [step] at hs ⊢
        rw [if_pos rfl]
        rcases protectCode_rw (run w0 es).w (run w0 es).t q v o with g | g
        · exact g
        · rw [g.1]
          split at hs
          · rename_i hpq
            refine absurd ?_ g.2
            exact (inRam_congr e1 e2 q o).2 (ho.whole ph q o (same_iff.2 hpq) ((inRam_congr e1 e2 ph o).1 hin))
          · exact ih ph o hs hin v
      | forget page =>
        dsimp only [step] at hs ⊢
        split at hs
        · cases hs
        · exact ih ph o hs hin v
      | dr i x =>
        dsimp only [step] at hs ⊢
        rw [guardMoved_rw]; exact ih ph o hs hin v
      | dr7 d x =>
        dsimp only [step] at hs ⊢
        rw [guardAll_rw]; exact ih ph o hs hin v
      | remap f g => exact he.elim
  rcases Bool.eq_false_or_eq_true ((run w0 es).w.smc (phys >>> 12)) with hs | hs
  · exfalso
    obtain ⟨e1, e2⟩ := run_map w0 es hf
    have hd := (access_direct h).2
    obtain ⟨ht, _⟩ := hostPage_tab hd
    have hr : (access (run w0 es).w (run w0 es).t true a n).1.rw v off = false := by
      rcases access_tab (run w0 es).w (run w0 es).t true a n with he | ⟨p, t', hm, he⟩
      · rw [he]; exact inv es hf phys off hs hp v
      · rw [he]; exact one e1 e2 hm (inv es hf) phys off hs hp v
    unfold hostPage at hd
    rw [ht] at hd
    dsimp only at hd
    rw [hr] at hd
    simp at hd
  · exact hs


/-- The entries of wp_data: at most 8 bytes long; pages with a data watchpoint have no element in the table. -/
def WpOk (s : St) : Prop := ∀ x ∈ s.w.dbg.data, (x.lo.toNat ≤ x.hi.toNat ∧ x.hi.toNat ≤ x.lo.toNat + 7) ∧
  (Watch.type s.w.dbg.dr7 x.idx ≠ 0#32 → s.t.tab (x.lo >>> 12) = .guard ∧ s.t.tab (x.hi >>> 12) = .guard)

theorem len_cases (d : BitVec 32) (i : Nat) : Watch.length d i = 1#32 ∨ Watch.length d i = 2#32 ∨ Watch.length d i = 4#32 ∨ Watch.length d i = 8#32 := by
  unfold Watch.length
  dsimp only
  generalize d >>> (18 + i * 4) = y
  have : ∀ z : BitVec 32, z &&& 3#32 = 0#32 ∨ z &&& 3#32 = 1#32 ∨ z &&& 3#32 = 2#32 ∨ z &&& 3#32 = 3#32 := by
    intro z
    have hz : (z &&& 3#32).toNat < 4 := by
      rw [BitVec.toNat_and]; exact Nat.lt_of_le_of_lt Nat.and_le_right (by decide)
    have e : z &&& 3#32 = BitVec.ofNat 32 (z &&& 3#32).toNat := by simp
    generalize (z &&& 3#32).toNat = k at *
    rw [e]
    have : k = 0 ∨ k = 1 ∨ k = 2 ∨ k = 3 := by omega
    rcases this with h | h | h | h <;> subst h <;> simp
  rcases this y with h | h | h | h <;> rw [h] <;> decide

theorem range_ok (d : Watch.Dbg) (i : Nat) : (Watch.range d i).1.toNat ≤ (Watch.range d i).2.toNat ∧ (Watch.range d i).2.toNat ≤ (Watch.range d i).1.toNat + 7 := by
  unfold Watch.range
  dsimp only
  generalize d.dr i = x
  have key : ∀ k : Nat, k ≤ 12 → (x &&& ~~~(BitVec.ofNat 32 (2 ^ k) - 1#32)).toNat % 2 ^ k = 0 := by
    intro k hk
    have e : ~~~(BitVec.ofNat 32 (2 ^ k) - 1#32) = (BitVec.allOnes 32) <<< k := by
      have : ∀ k : Fin 13, ~~~(BitVec.ofNat 32 (2 ^ k.val) - 1#32) = (BitVec.allOnes 32) <<< k.val := by decide
      exact this ⟨k, by omega⟩
    rw [e]
    apply Nat.eq_of_testBit_eq
    intro j
    rw [Nat.testBit_mod_two_pow, Nat.zero_testBit]
    by_cases hj : j < k
    · rw [← BitVec.getLsbD, BitVec.getLsbD_and, BitVec.getLsbD_shiftLeft]
      simp [hj]
    · simp [hj]
  have hlt : ∀ z : BitVec 32, (x &&& z).toNat < 4294967296 := fun z => (x &&& z).isLt
  rcases len_cases d.dr7 i with h | h | h | h <;> rw [h]
  · have := key 0 (by omega)
    have := hlt (~~~(1#32 - 1#32))
    rw [BitVec.toNat_sub, BitVec.toNat_add]
    generalize (x &&& ~~~(1#32 - 1#32)).toNat = y at *
    have : (1#32 : BitVec 32).toNat = 1 := rfl
    omega
  · have k := key 1 (by omega)
    have := hlt (~~~(2#32 - 1#32))
    rw [BitVec.toNat_sub, BitVec.toNat_add]
    rw [show BitVec.ofNat 32 (2 ^ 1) = 2#32 from rfl] at k
    generalize (x &&& ~~~(2#32 - 1#32)).toNat = y at *
    have : (1#32 : BitVec 32).toNat = 1 := rfl
    have : (2#32 : BitVec 32).toNat = 2 := rfl
    omega
  · have k := key 2 (by omega)
    have := hlt (~~~(4#32 - 1#32))
    rw [BitVec.toNat_sub, BitVec.toNat_add]
    rw [show BitVec.ofNat 32 (2 ^ 2) = 4#32 from rfl] at k
    generalize (x &&& ~~~(4#32 - 1#32)).toNat = y at *
    have : (1#32 : BitVec 32).toNat = 1 := rfl
    have : (4#32 : BitVec 32).toNat = 4 := rfl
    omega
  · have k := key 3 (by omega)
    have := hlt (~~~(8#32 - 1#32))
    rw [BitVec.toNat_sub, BitVec.toNat_add]
    rw [show BitVec.ofNat 32 (2 ^ 3) = 8#32 from rfl] at k
    generalize (x &&& ~~~(8#32 - 1#32)).toNat = y at *
    have : (1#32 : BitVec 32).toNat = 1 := rfl
    have : (8#32 : BitVec 32).toNat = 8 := rfl
    omega

theorem protectDebug_lo (t : Table) (lo hi : Addr) : (protectDebug t lo hi).tab (lo >>> 12) = .guard ∧ (protectDebug t lo hi).tab (hi >>> 12) = .guard := by
  unfold protectDebug flushPage
  dsimp only
  refine ⟨?_, by rw [if_pos rfl]⟩
  split
  · rfl
  · rw [if_pos rfl]

theorem guardAll_keeps (d : Watch.Dbg) (l : List Nat) (t : Table) (q : Addr) (h : t.tab q = .guard) : (l.foldl (guardDr d) t).tab q = .guard := by
  rcases guardAll_tab d l t q with g | g
  · exact g
  · rw [g, h]

theorem guardAll_mem (d : Watch.Dbg) (i : Nat) (he : Watch.enabled d.dr7 i = true) (h2 : Watch.type d.dr7 i ≠ 2#32) (h0 : Watch.type d.dr7 i ≠ 0#32) :
    ∀ (l : List Nat) (t : Table), i ∈ l →
      (l.foldl (guardDr d) t).tab ((Watch.range d i).1 >>> 12) = .guard ∧ (l.foldl (guardDr d) t).tab ((Watch.range d i).2 >>> 12) = .guard := by
  intro l
  induction l with
  | nil => intro t h; cases h
  | cons j l ih =>
    intro t h
    rw [List.foldl_cons]
    rcases List.mem_cons.1 h with h | h
    · subst h
      have : guardDr d t i = protectDebug t (Watch.range d i).1 (Watch.range d i).2 := by
        unfold guardDr
        rw [if_pos (by simp [he, h2, h0])]
      rw [this]
      obtain ⟨g1, g2⟩ := protectDebug_lo t (Watch.range d i).1 (Watch.range d i).2
      exact ⟨guardAll_keeps _ _ _ _ g1, guardAll_keeps _ _ _ _ g2⟩
    · exact ih _ h

theorem mem_setFirst {w i : Nat} {e x : Watch.Wp w} {l : List (Watch.Wp w)} (h : x ∈ Watch.setFirst i e l) : (x = e ∧ ∃ y ∈ l, y.idx = i) ∨ x ∈ l := by
  induction l with
  | nil => cases h
  | cons a l ih =>
    unfold Watch.setFirst at h
    split at h
    · rename_i ha
      rcases List.mem_cons.1 h with h | h
      · exact .inl ⟨h, a, List.mem_cons_self, ha⟩
      · exact .inr (List.mem_cons_of_mem _ h)
    · rcases List.mem_cons.1 h with h | h
      · exact .inr (h ▸ List.mem_cons_self)
      · rcases ih h with ⟨h1, y, h2, h3⟩ | h
        · exact .inl ⟨h1, y, List.mem_cons_of_mem _ h2, h3⟩
        · exact .inr (List.mem_cons_of_mem _ h)

theorem setFirst_has {w i : Nat} {e : Watch.Wp w} {l : List (Watch.Wp w)} (he : e.idx = i) (h : ∃ y ∈ l, y.idx = i) : ∃ y ∈ Watch.setFirst i e l, y.idx = i := by
  induction l with
  | nil => obtain ⟨y, h, _⟩ := h; cases h
  | cons a l ih =>
    unfold Watch.setFirst
    split
    · exact ⟨e, List.mem_cons_self, he⟩
    · rename_i ha
      obtain ⟨y, h, hy⟩ := h
      rcases List.mem_cons.1 h with h | h
      · subst h; exact absurd hy ha
      · obtain ⟨z, hz, hz2⟩ := ih ⟨y, h, hy⟩
        exact ⟨z, List.mem_cons_of_mem _ hz, hz2⟩

/-- A page without watchpoints as the handler sees it. -/
theorem not_watched {w : World} {a : Addr} (h : watched w a = false) {x : Watch.Wp 32} (hx : x ∈ w.dbg.data)
    (hl : x.lo.toNat ≤ x.hi.toNat) : x.lo >>> 12 ≠ a >>> 12 ∧ x.hi >>> 12 ≠ a >>> 12 := by
  unfold watched at h
  rw [List.any_eq_false] at h
  have h := h x hx
  have hlt := a.isLt
  have e1 : ((a &&& 0xFFFFF000#32) + 0xFFF#32).toNat = a.toNat / 4096 * 4096 + 4095 := by
    rw [BitVec.toNat_add, page_nat, show (0xFFF#32 : BitVec 32).toNat = 4095 from rfl]; omega
  have e2 := page_nat a
  simp only [Bool.and_eq_true, decide_eq_true_eq, BitVec.le_def, e1, e2] at h
  constructor
  · intro he
    have := congrArg BitVec.toNat he
    rw [shr_nat, shr_nat] at this
    omega
  · intro he
    have := congrArg BitVec.toNat he
    rw [shr_nat, shr_nat] at this
    omega

theorem wpOk_more {w : World} {t t' : Table} (h : WpOk ⟨w, t⟩) (ht : ∀ q, t.tab q = .guard → t'.tab q = .guard) : WpOk ⟨w, t'⟩ := by
  intro x hx
  refine ⟨(h x hx).1, fun hty => ?_⟩
  obtain ⟨h1, h2⟩ := (h x hx).2 hty
  exact ⟨ht _ h1, ht _ h2⟩

theorem wpOk_dbg {w w' : World} {t : Table} (h : WpOk ⟨w, t⟩) (he : w'.dbg = w.dbg) : WpOk ⟨w', t⟩ := by
  unfold WpOk at h ⊢
  dsimp only at h ⊢
  rw [he]
  exact h

/-- MOV DR0-DR3 as far as data watchpoints go. -/
theorem writeDr_data (d : Watch.Dbg) (i : Nat) (v : BitVec 32) : (Watch.writeDr d i v).dr7 = d.dr7 ∧
    ((Watch.writeDr d i v).data = d.data ∨
      (Watch.enabled d.dr7 i = true ∧ Watch.type d.dr7 i ≠ 2#32 ∧
        (Watch.writeDr d i v).data =
          Watch.setFirst i ⟨i, (Watch.range (Watch.writeDr d i v) i).1, (Watch.range (Watch.writeDr d i v) i).2⟩ d.data)) := by
  unfold Watch.writeDr
  dsimp only
  split
  · split
    · split <;> exact ⟨rfl, .inl rfl⟩
    · exact ⟨rfl, .inl rfl⟩
  · rename_i ht
    split
    · rename_i he
      exact ⟨rfl, .inr ⟨he, ht, rfl⟩⟩
    · exact ⟨rfl, .inl rfl⟩

theorem wpOk_dr {w : World} {t : Table} (h : WpOk ⟨w, t⟩) (i : Nat) (v : BitVec 32) : WpOk (step ⟨w, t⟩ (.dr i v)) := by
  dsimp only [step]
  obtain ⟨h7, hd⟩ := writeDr_data w.dbg i v
  intro x hx
  dsimp only at hx ⊢
  have old : x ∈ w.dbg.data → (x.lo.toNat ≤ x.hi.toNat ∧ x.hi.toNat ≤ x.lo.toNat + 7) ∧
      (Watch.type (Watch.writeDr w.dbg i v).dr7 x.idx ≠ 0#32 → (guardMoved (Watch.writeDr w.dbg i v) t i).tab (x.lo >>> 12) = .guard ∧
        (guardMoved (Watch.writeDr w.dbg i v) t i).tab (x.hi >>> 12) = .guard) := by
    intro hx
    rw [h7]
    refine ⟨(h x hx).1, fun hty => ?_⟩
    obtain ⟨h1, h2⟩ := (h x hx).2 hty
    dsimp only at h1 h2
    constructor
    · rcases guardMoved_tab (Watch.writeDr w.dbg i v) t i (x.lo >>> 12) with g | g
      · exact g
      · rw [g, h1]
    · rcases guardMoved_tab (Watch.writeDr w.dbg i v) t i (x.hi >>> 12) with g | g
      · exact g
      · rw [g, h2]
  rcases hd with hd | ⟨he, h2, hd⟩
  · rw [hd] at hx; exact old hx
  · rw [hd] at hx
    rcases mem_setFirst hx with ⟨h1, hy⟩ | hx
    · subst h1
      refine ⟨range_ok _ _, fun hty => ?_⟩
      have hany : ((Watch.writeDr w.dbg i v).data.any fun x => x.idx == i) = true := by
        rw [hd, List.any_eq_true]
        obtain ⟨z, hz, hz2⟩ := setFirst_has (e := ⟨i, (Watch.range (Watch.writeDr w.dbg i v) i).1, (Watch.range (Watch.writeDr w.dbg i v) i).2⟩) rfl hy
        exact ⟨z, hz, by simp [hz2]⟩
      unfold guardMoved
      rw [if_pos hany]
      exact guardAll_mem _ i (by rw [h7]; exact he) (by rw [h7]; exact h2) hty [i] t (by simp)
    · exact old hx

theorem wpOk_dr7 {w : World} {t : Table} (d : Nat → BitVec 32) (v : BitVec 32) : WpOk (step ⟨w, t⟩ (.dr7 d v)) := by
  dsimp only [step]
  intro x hx
  dsimp only at hx ⊢
  obtain ⟨i, hi, he⟩ := List.mem_filterMap.1 hx
  unfold Watch.dataEntry at he
  split at he
  · rename_i hc
    simp only [Bool.and_eq_true, bne_iff_ne, ne_eq] at hc
    cases he
    refine ⟨range_ok _ _, fun hty => ?_⟩
    exact guardAll_mem _ i hc.1 hc.2 hty [0, 1, 2, 3] t hi
  · cases he

theorem wpOk_run (w0 : World) (h0 : w0.dbg.data = []) (es : List Ev) : WpOk (run w0 es) := by
  induction es using snoc_ind with
  | h0 => intro x hx; rw [show (run w0 []).w.dbg.data = [] from h0] at hx; cases hx
  | hs es e ih =>
    rw [run_snoc]
    generalize run w0 es = s at ih ⊢
    obtain ⟨w, t⟩ := s
    cases e with
    | access wr b n =>
      dsimp only [step]
      rcases access_tab w t wr b n with he | ⟨p, t', hm, he⟩
      · rw [he]; exact ih
      · rw [he]
        obtain ⟨_, ht, hw⟩ := onFault_map hm
        intro x hx
        refine ⟨(ih x hx).1, fun hty => ?_⟩
        obtain ⟨h1, h2⟩ := (ih x hx).2 hty
        obtain ⟨n1, n2⟩ := not_watched hw hx (ih x hx).1.1
        dsimp only at h1 h2 ⊢
        rw [ht]
        dsimp only
        rw [if_neg n1, if_neg n2]
        exact ⟨h1, h2⟩
    | tables q => exact wpOk_dbg ih rfl
    | flush => exact wpOk_more ih fun _ _ => rfl
    | invlpg b =>
      refine wpOk_more ih fun q hq => ?_
      rcases flushPage_tab t b q with g | g
      · exact g
      · rw [g.1, hq]
    | fetch phys fill =>
      dsimp only [step]
      refine wpOk_more (wpOk_dbg ih rfl) fun q hq => ?_
      split
      · rw [protectCode_tab]; exact hq
      · exact hq
    | forget page => exact wpOk_dbg ih rfl
    | dr i v => exact wpOk_dr ih i v
    | dr7 d v => exact wpOk_dr7 d v
    | remap f g => exact wpOk_more (wpOk_dbg ih rfl) fun _ _ => rfl

/-- Data watchpoints are not missed: in every history of a new cpu, an access that goes directly to host memory (and so is not
compared with the watchpoints) lies in a page without a byte of any data watchpoint. -/
theorem C103_watch (w0 : World) (h0 : w0.dbg.data = []) (es : List Ev) (wr : Bool) (a : Addr) (n : Nat) (p : Page)
    (h : (access (run w0 es).w (run w0 es).t wr a n).2 = .direct p) (x : Watch.Wp 32) (hx : x ∈ (run w0 es).w.dbg.data)
    (hd : Watch.type (run w0 es).w.dbg.dr7 x.idx ≠ 0#32) : Apart a x.lo x.hi := by
  have hok := wpOk_run w0 h0 (es ++ [.access wr a n])
  rw [run_snoc] at hok
  obtain ⟨⟨h1, h2⟩, h3⟩ := hok x hx
  obtain ⟨g1, g2⟩ := h3 hd
  obtain ⟨ht, hg⟩ := hostPage_tab (access_direct h).2
  have n1 : x.lo >>> 12 ≠ a >>> 12 := fun e => hg (ht.symm.trans (e ▸ g1))
  have n2 : x.hi >>> 12 ≠ a >>> 12 := fun e => hg (ht.symm.trans (e ▸ g2))
  intro y hy1 hy2 hs
  rw [ne_eq, ← same_iff] at n1 n2
  rw [BitVec.le_def] at hy1 hy2
  unfold SamePage at *
  omega

theorem page_of_same {a b : Addr} (h : SamePage a b) : Paging.pageBase a = Paging.pageBase b := by
  apply BitVec.eq_of_toNat_eq
  unfold SamePage at h
  unfold Paging.pageBase
  rw [page_nat, page_nat, h]

theorem fix_same {b : Paging.Bus} (hb : Paging.Spec.PageWise b) (p q x : Addr) (hq : Paging.pageBase q = Paging.pageBase p)
    (ho : q &&& 0xFFF#32 = x &&& 0xFFF#32) : b.fix q = withOff (b.fix p) x := Paging.fix_samePage hb q hq ho

theorem query_pageWise {b : Paging.Bus} (hb : Paging.Spec.PageWise b) (c : Paging.Ctl) (m : Paging.Mem) (wr pr : Bool) {a a' : Addr} (hs : SamePage a a')
    {phys : Addr} {info : Word} (h : Paging.query b.fix c m a wr pr = .ok phys info) :
    Paging.query b.fix c m a' wr pr = .ok (withOff phys a') info := by
  have hp := page_of_same hs
  have h12 : a' >>> 12 = a >>> 12 := (same_iff.1 hs).symm
  have h22 : a' >>> 22 = a >>> 22 := by
    have : ∀ x : Addr, x >>> 22 = (x >>> 12) >>> 10 := by intro x; bits32
    rw [this, this, h12]
  unfold Paging.query at h ⊢
  rw [h12, h22]
  dsimp only at h ⊢
  split at h
  · rename_i h1
    rw [if_pos h1]
    cases h
    exact congrArg (fun x => Query.ok x _) (fix_same hb a a' a' hp.symm rfl)
  · rename_i h1
    rw [if_neg h1]
    split at h
    · cases h
    · rename_i h2
      rw [if_neg h2]
      split at h
      · rename_i h3
        rw [if_pos h3]
        split at h
        · cases h
        · cases h
        · cases h
          refine congrArg (fun x => Query.ok x _) (fix_same hb _ _ a' ?_ ?_)
          · have : ∀ x y : Addr, Paging.pageBase ((x &&& 0xFFC00000#32) ||| (y &&& 0x3FFFFF#32)) = (x &&& 0xFFC00000#32) ||| (Paging.pageBase y &&& 0x3FFFFF#32) := by
              intro x y; unfold Paging.pageBase; bits32
            rw [this, this, hp]
          · bits32
      · rename_i h3
        rw [if_neg h3]
        split at h
        · cases h
        · rename_i h4
          rw [if_neg h4]
          split at h
          · cases h
          · split at h
            · cases h
            · cases h
            · cases h
              refine congrArg (fun x => Query.ok x _) (fix_same hb _ _ a' ?_ ?_)
              · unfold Paging.pageBase; bits32
              · bits32

/-- Translation as the fault handler does it (tlb, then page tables) works in whole pages, for a memory map made of whole pages. -/
theorem C103_query (b : Paging.Bus) (hb : Paging.Spec.PageWise b) (s : Paging.St) (wr : Bool) (a a' : Addr) (hs : SamePage a a')
    (phys : Addr) (info : Word) (h : queryAddr b s wr a = .ok phys info) : queryAddr b s wr a' = .ok (withOff phys a') info := by
  obtain ⟨e1, e2⟩ := Paging.page_tag .d (page_of_same hs)
  have el : Paging.lookup Paging.dGeo s.dtlb (Paging.accessBit s.ctl wr false) a' = Paging.lookup Paging.dGeo s.dtlb (Paging.accessBit s.ctl wr false) a := by
    unfold Paging.lookup Paging.matches'
    rw [e1, e2]
  unfold queryAddr at h ⊢
  rw [el]
  split at h
  · rename_i i hi
    dsimp only at h ⊢
    rw [← e1]
    cases h
    refine congrArg (fun x => Query.ok x _) ?_
    unfold Paging.hitAddr withOff Paging.pageBase
    bits32
  · exact query_pageWise hb _ _ _ _ hs h

/-! The memory map of the console: 64 MiB of ram, the flash rom and the 512 bytes of the boot rom at its end. -/

def exRam : Region := { start := 0, stop := 0x3FFFFFF, type := .ram, buffOff := 0 }
def exFlash : Region := { start := 0xFF000000, stop := 0xFFFFFDFF, type := .rom, romPtr := 1, buffOff := 0xFF000000 }
def exBoot : Region := { start := 0xFFFFFE00, stop := 0xFFFFFFFF, type := .rom, romPtr := 2, buffOff := 0xFFFFFE00 }
def exHole : Region := { start := 0x4000000, stop := 0xFEFFFFFF, type := .unmapped }
def exMap (a : Addr) : Region :=
  if a.toNat ≤ 0x3FFFFFF then exRam else if 0xFFFFFE00 ≤ a.toNat then exBoot else if 0xFF000000 ≤ a.toNat then exFlash else exHole

def exDbg : Watch.Dbg := ⟨fun _ => 0#32, 0#32, 0x400#32, false, false, [], [], false⟩
def exWorld (q : Bool → Addr → Query) : World := ⟨q, fun _ => false, exMap, fun r a => (r, a), exDbg⟩
/-- Paging off. -/
def exFlat : Bool → Addr → Query := fun _ a => .ok a 0x67#32

/-- A new cpu: the first access goes through the fault handler, and then directly; a page crossing goes to the memory handler; after a
flush the handler is asked again. -/
example : (access (exWorld exFlat) fresh true 0x12345#32 4).2 = .direct (.ram .ram 0x12000#32) ∧
    (run (exWorld exFlat) [.access true 0x12345#32 4]).t.tab 0x12#32 = .ram .ram 0x12000#32 ∧
    (access (exWorld exFlat) fresh true 0x12FFE#32 4).2 = .handler none ∧
    (run (exWorld exFlat) [.access true 0x12345#32 4, .flush]).t.tab 0x12#32 = .guard ∧
    (access (exWorld exFlat) fresh true 0xFF000010#32 4).2 = .handler none ∧
    (access (exWorld exFlat) fresh false 0xFF000010#32 4).2 = .direct (.rom 1 0#32) ∧
    (access (exWorld exFlat) fresh false 0x4000010#32 4).2 = .handler none := by decide +kernel

/-- Only ram: whole pages, one home. -/
def exPlain (q : Bool → Addr → Query) : World := { exWorld q with search := fun _ => exRam }

theorem exPlain_pageWise : PageWise (exPlain exFlat) where
  query := by
    intro wr a b phys info hs h
    cases h
    refine congrArg (fun x => Query.ok x _) ?_
    apply BitVec.eq_of_toNat_eq
    rw [withOff_nat]
    unfold SamePage at hs
    omega
  search := fun _ _ _ => rfl
  resolve := by
    intro r a b hs
    refine congrArg (fun x => (r, x)) ?_
    apply BitVec.eq_of_toNat_eq
    show b.toNat = (withOff a b).toNat
    rw [withOff_nat]
    unfold SamePage at hs
    omega
  base := fun _ => rfl

/-- The hypotheses of the mapping theorem are met by a history with accesses, flushes and watchpoints. -/
example : Always PageWise (exPlain exFlat) [.access true 0x12345#32 4, .flush, .access false 0x12000#32 1, .dr7 (fun _ => 0x5000#32) 0x30001#32] ∧
    (access (run (exPlain exFlat) [.access true 0x12345#32 4, .flush, .access false 0x12000#32 1, .dr7 (fun _ => 0x5000#32) 0x30001#32]).w
      (run (exPlain exFlat) [.access true 0x12345#32 4, .flush, .access false 0x12000#32 1, .dr7 (fun _ => 0x5000#32) 0x30001#32]).t true 0x12346#32 2).2
      = .direct (.ram .ram 0x12000#32) := by
  constructor
  · intro pre post he
    have key : ∀ es : List Ev, (∀ e ∈ es, (∃ x y z, e = .access x y z) ∨ e = .flush ∨ ∃ d v, e = .dr7 d v) → PageWise (run (exPlain exFlat) es).w := by
      intro es
      induction es using snoc_ind with
      | h0 => intro _; exact exPlain_pageWise
      | hs es e ih =>
        intro h
        have ih := ih fun x hx => h x (List.mem_append_left _ hx)
        rw [run_snoc]
        rcases h e (List.mem_append_right _ (List.mem_singleton.2 rfl)) with ⟨x, y, z, rfl⟩ | rfl | ⟨d, v, rfl⟩
        · exact ih
        · exact ih
        · exact ⟨ih.query, ih.search, ih.resolve, ih.base⟩
    refine key pre fun e hx => ?_
    have hm : e ∈ ([.access true 0x12345#32 4, .flush, .access false 0x12000#32 1, .dr7 (fun _ => 0x5000#32) 0x30001#32] : List Ev) := by
      rw [he]; exact List.mem_append_left _ hx
    simp only [List.mem_cons, List.not_mem_nil, or_false] at hm
    rcases hm with rfl | rfl | rfl | rfl
    · exact .inl ⟨_, _, _, rfl⟩
    · exact .inr (.inl rfl)
    · exact .inl ⟨_, _, _, rfl⟩
    · exact .inr (.inr ⟨_, _, rfl⟩)
  · decide +kernel

theorem exBoot_byte (c : Cell) (h : Denotes (exWorld exFlat) false 0xFFFFFE10#32 c) : c = .rom 2 0x10 := by
  obtain ⟨phys, info, hq, hb⟩ := h
  cases hq
  cases hb with
  | ram hp ht =>
    have := congrArg (fun x => x.1.type) hp
    rw [ht] at this
    exact absurd this (by decide +kernel)
  | rom hp ht =>
    have e : place (exWorld exFlat) 0xFFFFFE10#32 = (exBoot, 0xFFFFFE10#32) := by decide +kernel
    rw [e] at hp
    cases hp
    decide +kernel

/-- A region that does not start at a page boundary (the console's boot rom) is read at the wrong place, and depending on what was
read before even from its neighbour: the address denotes byte 0x10 of the boot rom. -/
theorem C103_mapping_violation : (∀ c, Denotes (exWorld exFlat) false 0xFFFFFE10#32 c → c = .rom 2 0x10) ∧
    (∃ p, (access (exWorld exFlat) fresh false 0xFFFFFE10#32 1).2 = .direct p ∧ p.cell 0xFFFFFE10#32 0 = some (.rom 2 0xE10)) ∧
    (∃ p, (access (run (exWorld exFlat) [.access false 0xFFFFF000#32 1]).w (run (exWorld exFlat) [.access false 0xFFFFF000#32 1]).t
        false 0xFFFFFE10#32 1).2 = .direct p ∧ p.cell 0xFFFFFE10#32 0 = some (.rom 1 0xFFFE10)) :=
  ⟨exBoot_byte, ⟨.rom 2 0#32, by decide +kernel, by decide +kernel⟩, ⟨.rom 1 0xFFF000#32, by decide +kernel, by decide +kernel⟩⟩

/-- Linear page 1 is a read-only view and linear page 2 a writable view of the same page of ram. -/
def exTwo : Bool → Addr → Query := fun wr a =>
  if a >>> 12 = 1#32 then (if wr then .fault a 3#8 else .ok (withOff 0x5000#32 a) 0x61#32)
  else if a >>> 12 = 2#32 then .ok (withOff 0x5000#32 a) 0x63#32
  else .fault a 0#8

/-- Page tables at 0: the directory entry `pde`, and the entry `pte` of linear page 5 in the table at 0x1000. -/
def exMem (pde pte : Word) : Paging.Mem := Paging.wr32 (Paging.wr32 (fun _ => 0#8) 0#32 pde) 0x1014#32 pte
def exBus : Paging.Bus := ⟨exMap, fun a => (exMap a, a)⟩
def exPg (cr0 pde pte : Word) : Paging.St :=
  ⟨⟨cr0, 0#32, 0#32, 0#2⟩, exMem pde pte, fun _ _ => Paging.Line.zero, fun _ _ => Paging.Line.zero, fun _ => false⟩

/-- Writes the page tables forbid are done directly: (1) the host protection of a page of ram is shared by all its mappings, so after a
write through a writable mapping a read-only one is writable too; (2) the handler looks only at the page table entry, so reading a page
that the directory makes read-only (CR0.WP set) opens it for writing. -/
theorem C103_readonly_violation :
    (exTwo true 0x1000#32 = .fault 0x1000#32 3#8 ∧
      (access (run (exWorld exTwo) [.access false 0x1000#32 4, .access true 0x2000#32 4]).w
        (run (exWorld exTwo) [.access false 0x1000#32 4, .access true 0x2000#32 4]).t true 0x1000#32 4).2 = .direct (.ram .ram 0x5000#32)) ∧
    (queryAddr exBus (exPg 0x80010001#32 0x1005#32 0x8007#32) true 0x5000#32 = .fault 0x5000#32 3#8 ∧
      (access (run (exWorld (queryAddr exBus (exPg 0x80010001#32 0x1005#32 0x8007#32))) [.access false 0x5000#32 4]).w
        (run (exWorld (queryAddr exBus (exPg 0x80010001#32 0x1005#32 0x8007#32))) [.access false 0x5000#32 4]).t true 0x5000#32 4).2 =
          .direct (.ram .ram 0x8000#32)) := by
  decide +kernel

/-- The hypothesis of the read-only theorem: page 0x5000 under a single read-only mapping; the page is in the table and writes give the
page fault of the tables. -/
def exOne : Bool → Addr → Query := fun wr a => if a >>> 12 = 1#32 then (if wr then .fault a 3#8 else .ok (withOff 0x5000#32 a) 0x61#32) else .fault a 0#8

example : Always (ReadOnly 0x5000#32) (exWorld exOne) [.access false 0x1000#32 4] ∧
    (run (exWorld exOne) [.access false 0x1000#32 4]).t.tab 1#32 = .ram .ram 0x5000#32 ∧
    (access (run (exWorld exOne) [.access false 0x1000#32 4]).w (run (exWorld exOne) [.access false 0x1000#32 4]).t true 0x1010#32 4).2 =
      .pf 0x1010#32 3#8 := by
  refine ⟨?_, by decide +kernel⟩
  intro pre post he
  have hw : (run (exWorld exOne) pre).w = exWorld exOne := by
    match pre, he with
    | [], _ => rfl
    | [e], he => cases he; rfl
    | _ :: _ :: _, he => cases he
  rw [hw]
  intro wr a phys info hq _
  have hq' : exOne wr a = .ok phys info := hq
  unfold exOne at hq'
  split at hq'
  · split at hq'
    · cases hq'
    · cases hq'; rfl
  · cases hq'

/-- A write the page tables allow (supervisor, CR0.WP clear, a read-only page) never ends: the handler opens the page for reading only and
the instruction faults again. -/
theorem C103_progress_violation :
    queryAddr exBus (exPg 0x80000001#32 0x1003#32 0x8001#32) true 0x5000#32 = .ok 0x8000#32 1#32 ∧
    (access (exWorld (queryAddr exBus (exPg 0x80000001#32 0x1003#32 0x8001#32))) fresh true 0x5000#32 4).2 = .hang ∧
    (access (exWorld (queryAddr exBus (exPg 0x80000001#32 0x1003#32 0x8001#32)))
      (access (exWorld (queryAddr exBus (exPg 0x80000001#32 0x1003#32 0x8001#32))) fresh true 0x5000#32 4).1 true 0x5000#32 4).2 = .hang := by
  decide +kernel

example : (∀ phys info, queryAddr exBus (exPg 0x80010001#32 0x1003#32 0x8003#32) true 0x5000#32 = .ok phys info → info &&& 2#32 ≠ 0#32) ∧
    (access (exPlain (queryAddr exBus (exPg 0x80010001#32 0x1003#32 0x8003#32))) fresh true 0x5000#32 4).2 = .direct (.ram .ram 0x8000#32) := by
  refine ⟨fun phys info h => ?_, by decide +kernel⟩
  have e : queryAddr exBus (exPg 0x80010001#32 0x1003#32 0x8003#32) true 0x5000#32 = .ok 0x8000#32 3#32 := by decide +kernel
  rw [e] at h
  cases h
  decide

/-- A page of translated code is written directly: a first write invalidates the code, a second one opens the page, then the code is
translated again with a hit in the instruction tlb, which marks the page but leaves it open. -/
theorem C103_code_violation :
    let es : List Ev := [.fetch 0x5000#32 true, .access true 0x5000#32 4, .forget 5#32, .access true 0x5000#32 4, .fetch 0x5000#32 false]
    (run (exWorld exFlat) es).w.smc (0x5000#32 >>> 12) = true ∧
    (access (run (exWorld exFlat) es).w (run (exWorld exFlat) es).t true 0x5000#32 4).2 = .direct (.ram .ram 0x5000#32) := by
  decide +kernel

theorem exWorld_home : OneHome { exWorld exFlat with search := exMap } where
  plain := by
    intro phys
    show (exMap phys).type ≠ .alias
    unfold exMap
    split
    · decide
    · split
      · decide
      · split <;> decide
  whole := by
    intro p q off hs h
    have hr : ∀ x, InRam { exWorld exFlat with search := exMap } x off ↔ (x.toNat ≤ 0x3FFFFFF ∧ x &&& 0xFFFFF000#32 = off) := by
      intro x
      show ((place _ x).1.type = .ram ∧ _) ↔ _
      have hp : place { exWorld exFlat with search := exMap } x = (exMap x, x) := by
        unfold place
        split <;> rfl
      rw [hp]
      unfold exMap
      dsimp only
      split
      · simp [exRam, *]
      · split
        · simp [exBoot, *]
        · split <;> simp [exFlash, exHole, *]
    rw [hr] at h ⊢
    unfold SamePage at hs
    refine ⟨by omega, ?_⟩
    rw [← h.2]
    apply BitVec.eq_of_toNat_eq
    rw [page_nat, page_nat, hs]
  once := by
    intro p q off h1 h2
    have hr : ∀ x, InRam { exWorld exFlat with search := exMap } x off → x &&& 0xFFFFF000#32 = off := by
      intro x hx
      have hp : place { exWorld exFlat with search := exMap } x = (exMap x, x) := by
        unfold place
        split <;> rfl
      obtain ⟨h1, h2⟩ := hx
      rw [hp] at h1 h2
      unfold exMap at h1 h2
      dsimp only at h1 h2
      split at h1
      · rename_i hc
        rw [if_pos hc] at h2
        simpa [exRam] using h2
      · split at h1
        · cases h1
        · split at h1 <;> cases h1
    have e := congrArg BitVec.toNat ((hr p h1).trans (hr q h2).symm)
    rw [page_nat, page_nat] at e
    unfold SamePage
    omega

/-- Where the code theorem applies: code at 0x5000, its page in the table, and a write to it reaches the handler, which invalidates it; the
neighbouring page is written directly. -/
example : let es : List Ev := [.access false 0x5010#32 4, .access true 0x6000#32 4, .fetch 0x5000#32 true]
    (∀ e ∈ es, Fills e) ∧ InRam (run (exWorld exFlat) es).w 0x6000#32 0x6000#32 ∧
    (access (run (exWorld exFlat) es).w (run (exWorld exFlat) es).t true 0x6010#32 4).2 = .direct (.ram .ram 0x6000#32) ∧
    (access (run (exWorld exFlat) es).w (run (exWorld exFlat) es).t true 0x5020#32 4).2 = .handler (some 0x5020#32) := by
  refine ⟨?_, ?_, by decide +kernel, by decide +kernel⟩
  · intro e he
    simp only [List.mem_cons, List.not_mem_nil, or_false] at he
    rcases he with rfl | rfl | rfl <;> trivial
  · unfold InRam; decide +kernel

/-- Where the watch theorem applies: a write watchpoint at 0x5000; page 5 is not reached directly any more, page 6 is. -/
example : let es : List Ev := [.access false 0x5010#32 4, .access false 0x6000#32 4, .dr7 (fun _ => 0x5000#32) 0xD0001#32]
    (exWorld exFlat).dbg.data = [] ∧ (run (exWorld exFlat) es).w.dbg.data = [⟨0, 0x5000#32, 0x5003#32⟩] ∧
    (access (run (exWorld exFlat) es).w (run (exWorld exFlat) es).t false 0x5010#32 4).2 = .handler none ∧
    (access (run (exWorld exFlat) es).w (run (exWorld exFlat) es).t false 0x6010#32 4).2 = .direct (.ram .ram 0x6000#32) := by
  decide +kernel

/-- Direct accesses leave the accessed and dirty bits of the page tables clear, which the memory handlers (the walk of C17) set: the
handler only asks the tables. -/
theorem C103_accessed_violation :
    let s := exPg 0x80010001#32 0x1003#32 0x8003#32
    (access (exWorld (queryAddr exBus s)) fresh true 0x5000#32 4).2 = .direct (.ram .ram 0x8000#32) ∧
    Paging.rd32 s.mem 0x1014#32 &&& 0x60#32 = 0#32 ∧
    Paging.rd32 (Paging.walk exBus.fix s.ctl s.mem 0x5000#32 true false false).2 0x1014#32 &&& 0x60#32 = 0x60#32 := by
  decide +kernel

theorem info_bits (e : Paging.Entry) : (tlbInfo e).getLsbD 0 = true ∧ (tlbInfo e).getLsbD 1 = e.getLsbD 1 ∧
    (tlbInfo e).getLsbD 2 = e.getLsbD 2 ∧ (tlbInfo e).getLsbD 5 = true ∧ (tlbInfo e).getLsbD 6 = false := by
  unfold tlbInfo
  refine ⟨?_, ?_, ?_, ?_, ?_⟩ <;> simp

/-- What a translation found in the tlb says about the page: readable and accessed always, writable by the supervisor and readable by the user
iff the entry allows that; in particular a write by the supervisor that the tlb allows is to a page reported as writable. -/
theorem C103_info (b : Paging.Bus) (s : Paging.St) (wr : Bool) (a : Addr) (i : Nat)
    (hl : Paging.lookup Paging.dGeo s.dtlb (Paging.accessBit s.ctl wr false) a = some i) :
    ∃ phys info, queryAddr b s wr a = .ok phys info ∧ info.getLsbD 0 = true ∧ info.getLsbD 5 = true ∧
      info.getLsbD 1 = (s.dtlb (Paging.dGeo.set a) i).entry.getLsbD 1 ∧ info.getLsbD 2 = (s.dtlb (Paging.dGeo.set a) i).entry.getLsbD 2 ∧
      (wr = true → s.ctl.cpl ≠ 3#2 → info.getLsbD 1 = true) := by
  refine ⟨_, _, by unfold queryAddr; rw [hl], ?_⟩
  obtain ⟨h0, h1, h2, h5, -⟩ := info_bits (s.dtlb (Paging.dGeo.set a) i).entry
  refine ⟨h0, h5, h1, h2, fun hw hc => ?_⟩
  rw [h1]
  have hm := List.find?_some hl
  unfold Paging.matches' Paging.accessBit at hm
  have hlv : ¬ s.ctl.cpl.toNat >>> 0 = 3 := fun h => hc (BitVec.eq_of_toNat_eq h)
  simp only [hw, if_true, Bool.false_eq_true, if_false, hlv, beq_iff_eq] at hm
  generalize (s.dtlb (Paging.dGeo.set a) i).entry = e at hm ⊢
  have := congrArg (fun x : BitVec 64 => x.getLsbD 1) hm
  simp only [Paging.dGeo, Paging.Geo.tag, BitVec.getLsbD_xor, BitVec.getLsbD_and, BitVec.getLsbD_or] at this
  simpa using this

/-- A dirty page found in the tlb is not reported as dirty (bit 6): the flag is moved to bit 12. -/
theorem C103_info_violation : ∃ (s : Paging.St) (a : Addr) (i : Nat) (phys : Addr) (info : Word),
    Paging.lookup Paging.dGeo s.dtlb (Paging.accessBit s.ctl true false) a = some i ∧ (s.dtlb (Paging.dGeo.set a) i).entry.getLsbD 9 = true ∧
    queryAddr exBus s true a = .ok phys info ∧ info.getLsbD 6 = false ∧
    queryAddr exBus { s with dtlb := fun _ _ => Paging.Line.zero } true a = .ok phys (info ^^^ 0x1000#32 ||| 0x44#32) := by
  refine ⟨{ exPg 0x80010001#32 0x1067#32 0x8067#32 with dtlb := fun _ _ => ⟨0x8227#64, none⟩ }, 0x5000#32, 0, 0x8000#32, 0x1027#32, ?_⟩
  decide +kernel

end Verif.Ipt
